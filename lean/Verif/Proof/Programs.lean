import Verif.Model.Programs
import Verif.Spec.Programs
import Verif.Proof.Written
import Verif.Props.Args
import Verif.Props.Accrpt
import Verif.Props.Word
import Verif.Props.Stopword
import Verif.Props.Vote
import Verif.Props.Ngram

namespace Ocr.Prog
open Text Res Spec

theorem init_args {T : List (Nat × Args.Kind)} (hT : Args.Table T) {prog : List Nat} {args ops : List (List Nat)}
    {ss : List Args.Setting} (h : CommandLine T prog args ops ss) :
    ∃ b V, Args.initialize_ (some (T.map Args.optOf)) true (prog :: args) start = .ok (b, ops, V) ∧ Args.Holds ss V := by
  obtain ⟨b, hb, e⟩ := Args.init_eq (os := some (T.map Args.optOf)) (u := true) (args := args) (V := start) h.prog
  obtain ⟨argv, j, V, e1, e2, e3⟩ := Args.parse_ok (prog := prog) hT h.many h.nul h.parse h.once
  rw [if_neg (by rintro ⟨h', _⟩; exact h.some h')] at e
  rw [show start = Args.unset from rfl, e1, bind_ok] at e
  exact ⟨b, V, by rw [show start = Args.unset from rfl, e, e2], e3⟩

theorem init_none {prog : List Nat} {args ops : List (List Nat)} {ss : List Args.Setting} (h : CommandLine [] prog args ops ss) :
    ∃ b V, Args.initialize_ none true (prog :: args) start = .ok (b, ops, V) := by
  obtain ⟨b, V, e, _⟩ := init_args (T := []) ⟨by decide, by decide, by decide⟩ h
  exact ⟨b, V, by rw [Args.c52_null]; exact e⟩

theorem readFile_eq {U : Unicode} {junk : List Nat} {fs : Fs} {name file : List Nat} {opt : Textopt} (h : fs name = some file) :
    readFile U junk fs name opt = read_text U junk [] file opt := by
  unfold readFile open_file
  rw [h, bind_ok]

theorem readPair_eq {U : Unicode} {junk : List Nat} {fs : Fs} {f0 f1 file0 file1 : List Nat} {rest : List (List Nat)}
    {t0 t1 : List Ch} (h0 : fs f0 = some file0) (h1 : fs f1 = some file1) (hh : ¬ Headed file0)
    (p0 : HoldsText U false file0 t0) (p1 : HoldsText U false file1 t1) :
    readPair U junk fs (f0 :: f1 :: rest) = .ok (t0, t1) := by
  obtain ⟨b0, e0, i0⟩ := read_holds (junk := junk) p0
  obtain ⟨b1, e1, _⟩ := read_holds (junk := junk) p1
  have : b0 = false := by
    cases b0 with
    | false => rfl
    | true => exact absurd (i0.1 rfl) hh
  subst this
  unfold readPair
  rw [show rd (f0 :: f1 :: rest) 0 = .ok f0 from rfl, bind_ok, readFile_eq h0,
    show read_text U junk [] file0 textopt = _ from e0, bind_ok]
  simp only [Bool.false_eq_true, if_false]
  rw [show rd (f0 :: f1 :: rest) 1 = .ok f1 from rfl, bind_ok, readFile_eq h1,
    show read_text U junk [] file1 { pageText false with found_header := false } = _ from e1, bind_ok]
  rfl

/-- The characters of a page are code points. -/
theorem body_values {U : Unicode} {body : List Nat} {t : List Ch} : IsPage U false body t → ∀ c ∈ t, c.value < 0x110000 := by
  rintro ⟨cs, g0, parts, rfl, h1, h2, h3, rfl⟩
  have hm : ∀ c ∈ marked 94 (cs.map Char.toNat), c.value < 0x110000 := by
    intro c hc
    unfold marked markedFrom at hc
    obtain ⟨⟨p, v⟩, hx, e⟩ := List.mem_filterMap.1 hc
    simp only at e
    split at e
    · cases e
    · cases e
      have := (List.of_mem_zip hx).2
      obtain ⟨ch, _, rfl⟩ := List.mem_map.1 this
      have := scalar_char ch
      unfold Scalar at this
      simp only
      omega
  have := compress_values U (fun v => v < 0x110000) (by decide) _ hm
  rw [h3, compress_parts U _ _ ⟨h1, h2⟩] at this
  intro c hc
  simp only [Bool.false_eq_true, if_false, List.map_id'] at hc
  exact this c hc

theorem page_values {U : Unicode} {file : List Nat} {t : List Ch} (h : HoldsText U false file t) : ∀ c ∈ t, c.value < 0x110000 := by
  rcases h with ⟨_, h⟩ | ⟨body, _, h⟩
  · exact body_values h
  · exact body_values h

theorem compress_length (U : Unicode) (cs : List Ch) : (compress_spacing U cs).length ≤ cs.length := by
  have key : ∀ (n : Nat) (b : Bool) (cs : List Ch), cs.length ≤ n → (compressLoop b cs).length ≤ cs.length := by
    intro n
    induction n with
    | zero =>
      intro b cs h
      have : cs = [] := by simpa using h
      subst this
      rw [compressLoop]
    | succ n ih =>
      intro b cs hl
      cases cs with
      | nil => rw [compressLoop]
      | cons c rest =>
        rw [loop_cons]
        simp only [List.length_cons] at hl
        split
        · cases rest with
          | nil => simp
          | cons y rest =>
            simp only
            simp only [List.length_cons] at hl
            split
            · refine (ih _ _ (by simp; omega)).trans (by simp)
            · refine (ih _ _ (by simp; omega)).trans (by simp)
        · have := ih (if c.value = NEWLINE then false else true) rest (by omega)
          simp only [List.length_cons]
          omega
  refine (key _ _ _ (Nat.le_refl _)).trans ?_
  rw [List.length_map]

theorem utf8_length (cs : List Char) : cs.length ≤ (utf8 cs).length := by
  induction cs with
  | nil => simp [utf8]
  | cons c cs ih =>
    rw [utf8_cons, List.length_append, List.length_cons]
    have := List.length_pos_iff.2 (encode_ne_nil (v := c.toNat) (by have := scalar_char c; unfold Scalar at this; omega))
    omega

theorem utf8_infix {cs : List Char} {c : Char} (h : c ∈ cs) : encode_char c.toNat <:+: utf8 cs := by
  induction cs with
  | nil => simp at h
  | cons d cs ih =>
    rw [utf8_cons]
    rcases List.mem_cons.1 h with rfl | h
    · exact ⟨[], utf8 cs, by simp⟩
    · exact (ih h).trans ((List.suffix_append _ _).isInfix)

/-- A text read from a file is no longer than the file, and each of its characters (other than a blank) is encoded there. -/
theorem read_bounds {U : Unicode} {junk file : List Nat} {b : Bool} {t : List Ch} {opt : Textopt} (hf : Bytes file) (hj : Bytes junk)
    (h : read_text U junk [] file { textopt with found_header := b } = .ok (t, opt)) :
    t.length ≤ file.length ∧ (∀ c ∈ t, c.value < 0x110000 ∧ (c.value ≠ 32 → encode_char c.value <:+: file)) ∧
      ∃ b', opt = { textopt with found_header := b' } := by
  unfold read_text at h
  obtain ⟨⟨o, body⟩, h1, h⟩ := bind_eq_ok.1 h
  obtain ⟨new, h2, h⟩ := bind_eq_ok.1 h
  obtain ⟨hb, b', ho⟩ : body <:+ file ∧ ∃ b', o = { textopt with found_header := b' } := by
    simp only [textopt, if_true] at h1
    obtain ⟨⟨found, b⟩, h3, h1⟩ := bind_eq_ok.1 h1
    cases h1
    exact ⟨read_header_suffix h3, _, rfl⟩
  subst ho
  simp only [textopt, List.nil_append, pure_eq, Res.ok.injEq, Prod.mk.injEq, if_true, Bool.false_eq_true, if_false] at h
  obtain ⟨rfl, rfl⟩ := h
  have hbb := Bytes_suffix hb hf
  simp only [textopt, ne_eq, not_true_eq_false, if_false] at h2
  rcases readLoop_cases true SUSPECT_MARKER body.length body junk false hbb hj (le_refl _) with ⟨cs, r, e, _⟩ | ⟨msg, e⟩
  · subst e
    unfold read_contents at h2
    rw [readLoop_utf8 true _ cs _ junk false none (by simp) (by simp) (le_refl _)] at h2
    simp only [if_true, Res.ok.injEq] at h2
    subst h2
    refine ⟨?_, ?_, _, rfl⟩
    · refine (compress_length U _).trans ?_
      have h1 : (markedFrom SUSPECT_MARKER none (cs.map Char.toNat)).length ≤ cs.length := by
        unfold markedFrom
        refine (List.length_filterMap_le _ _).trans ?_
        rw [List.length_zip]
        simp
      exact h1.trans ((utf8_length cs).trans hb.length_le)
    · refine compress_values U (fun v => v < 0x110000 ∧ (v ≠ 32 → encode_char v <:+: file)) ⟨by decide, fun h => absurd rfl h⟩ _ ?_
      intro c hc
      unfold markedFrom at hc
      obtain ⟨⟨p, v⟩, hx, e⟩ := List.mem_filterMap.1 hc
      simp only at e
      split at e
      · cases e
      · cases e
        obtain ⟨ch, hch, rfl⟩ := List.mem_map.1 (List.of_mem_zip hx).2
        have := scalar_char ch
        unfold Scalar at this
        exact ⟨by simp only; omega, fun _ => (utf8_infix hch).trans hb.isInfix⟩
  · unfold read_contents at h2
    rw [e] at h2; cases h2

theorem words_eq {U : Unicode} {prop : Nat → Word.WB} {nfc : List Nat → Option (List Nat)} {t : List Ch} {u : List (List Nat)} {junk' : Nat}
    (h : HasWords U prop nfc t u) : Word.find_words U prop nfc junk' t = .ok (u.map some) := by
  obtain ⟨h1, h2, segs, h3, h4⟩ := h
  obtain ⟨segs', e1, e2⟩ := Word.c35_words U prop nfc junk' t h1 h2
  rw [e2, Word.c36_unique _ _ _ _ e1 h3, h4]

theorem strings_some : ∀ (u : List (List Nat)), strings (u.map some) = .ok u
  | [] => rfl
  | w :: u => by rw [List.map_cons, strings, strings_some u]; rfl

theorem readWords_eq {U : Unicode} {prop : Nat → Word.WB} {nfc : List Nat → Option (List Nat)} {junk : List Nat} {junk' : Nat} {fs : Fs}
    {f0 f1 file0 file1 : List Nat} {rest : List (List Nat)} {t0 t1 : List Ch} {u v : List (List Nat)}
    (h0 : fs f0 = some file0) (h1 : fs f1 = some file1) (hh : ¬ Headed file0) (p0 : HoldsText U true file0 t0)
    (p1 : HoldsText U true file1 t1) (hu : HasWords U prop nfc t0 u) (hv : HasWords U prop nfc t1 v) :
    readWords U prop nfc junk junk' fs (f0 :: f1 :: rest) = .ok (u, v) := by
  obtain ⟨b0, e0, i0⟩ := read_holds (junk := junk) p0
  obtain ⟨b1, e1, _⟩ := read_holds (junk := junk) p1
  have : b0 = false := by
    cases b0 with
    | false => rfl
    | true => exact absurd (i0.1 rfl) hh
  subst this
  unfold readWords
  rw [show rd (f0 :: f1 :: rest) 0 = .ok f0 from rfl, bind_ok, readFile_eq h0,
    show read_text U junk [] file0 wordaccTextopt = _ from e0, bind_ok]
  simp only [Bool.false_eq_true, if_false]
  rw [words_eq hu, bind_ok, strings_some, bind_ok, show rd (f0 :: f1 :: rest) 1 = .ok f1 from rfl, bind_ok, readFile_eq h1,
    show read_text U junk [] file1 { pageText true with found_header := false } = _ from e1, bind_ok]
  simp only
  rw [words_eq hv, bind_ok, strings_some, bind_ok]
  rfl

theorem stopwords_eq {U : Unicode} {prop : Nat → Word.WB} {nfc : List Nat → Option (List Nat)} {junk : List Nat} (hj : Bytes junk)
    {junk' : Nat} {fs : Fs} {ss : List Args.Setting} {V : Args.Vars} (hV : Args.Holds ss V) {stops : List (List Nat)}
    (h : HasStopwords U prop nfc fs ss stops) :
    ∃ S, initStopwords U prop nfc junk junk' fs (V.string 0) = .ok S ∧ ∀ w, Stopword.is_stopword w S = .ok (decide (w ∈ stops)) := by
  rcases h with ⟨hn, rfl⟩ | ⟨name, file, t, hm, hf, hb, hl, hw⟩
  · have : V.string 0 = none := by
      cases e : V.string 0 with
      | none => rfl
      | some s => exact absurd ((hV.1 0 s).1 e) (hn s)
    rw [this]
    obtain ⟨S, e, _, h, _⟩ := Stopword.c38_default U prop nfc junk junk'
    exact ⟨S, e, h⟩
  · rw [(hV.1 0 name).2 hm]
    obtain ⟨S, e, _, h⟩ := Stopword.c38_file U prop nfc junk junk' file t _ ((read_list U junk false true file hb hj t _).2 ⟨hl, rfl⟩) stops
      (words_eq hw)
    refine ⟨S, ?_, h⟩
    unfold initStopwords open_file
    simp only [hf, bind_ok]
    exact e

/-- Processing the contents of files one after the other. -/
def overFiles {α : Type} (step : α → List Nat → Res α) : (files : List (List Nat)) → α → Res α
  | [], a => .ok a
  | file :: files, a => step a file >>= overFiles step files

theorem assoc {α β γ : Type} (x : Res α) (f : α → Res β) (g : β → Res γ) : (x >>= f) >>= g = x >>= fun a => f a >>= g := by
  cases x <;> rfl

theorem forFiles_eq {α : Type} {fs : Fs} {step : α → List Nat → Res α} {names files : List (List Nat)}
    (h : List.Forall₂ (fun name file => fs name = some file) names files) (a : α) :
    forFiles fs step names a = overFiles step files a := by
  induction h generalizing a with
  | nil => rfl
  | cons h _ ih =>
    unfold forFiles open_file overFiles
    rw [h, bind_ok]
    cases step a _ with
    | ok a => exact ih a
    | err | ub | fuel => rfl

/-- Either all files can be opened, or there is a first one that cannot. -/
theorem opened_or (fs : Fs) : ∀ names : List (List Nat),
    (∃ files, List.Forall₂ (fun name file => fs name = some file) names files) ∨
    ∃ pre name post files, names = pre ++ name :: post ∧ List.Forall₂ (fun name file => fs name = some file) pre files ∧ fs name = none
  | [] => .inl ⟨[], .nil⟩
  | name :: names => by
    cases h : fs name with
    | none => exact .inr ⟨[], name, names, [], rfl, .nil, h⟩
    | some file =>
      rcases opened_or fs names with ⟨files, hf⟩ | ⟨pre, x, post, files, rfl, hf, hx⟩
      · exact .inl ⟨_, .cons h hf⟩
      · exact .inr ⟨name :: pre, x, post, file :: files, rfl, .cons h hf, hx⟩

theorem forFiles_missing {α : Type} {fs : Fs} {step : α → List Nat → Res α} {pre files post : List (List Nat)} {name : List Nat}
    (h : List.Forall₂ (fun name file => fs name = some file) pre files) (hn : fs name = none) (a : α) :
    forFiles fs step (pre ++ name :: post) a = (do
      let _ ← overFiles step files a
      .err "unable to open file") := by
  induction h generalizing a with
  | nil =>
    rw [List.nil_append]
    unfold forFiles open_file overFiles
    rw [hn]; rfl
  | cons h _ ih =>
    rw [List.cons_append]
    unfold forFiles open_file overFiles
    rw [h, bind_ok, assoc]
    cases step a _ with
    | ok a => exact ih a
    | err | ub | fuel => rfl

theorem acc_readAll : ∀ (files : List (List Nat)) (D : Acc.Accdata), Acc.readAll D files = overFiles Acc.read_accrpt files D
  | [], _ => rfl
  | file :: files, D => by
    unfold Acc.readAll overFiles
    exact congrArg (fun g => Acc.read_accrpt D file >>= g) (funext (acc_readAll files))

theorem wac_readAll : ∀ (files : List (List Nat)) (D : Wac.Wacdata), Wac.readAll D files = overFiles Wac.read_wacrpt files D
  | [], _ => rfl
  | file :: files, D => by
    unfold Wac.readAll overFiles
    exact congrArg (fun g => Wac.read_wacrpt D file >>= g) (funext (wac_readAll files))

theorem edo_readAll : ∀ (files : List (List Nat)) (D : Edo.Edodata), Edo.readAll D files = overFiles Edo.read_edorpt files D
  | [], _ => rfl
  | file :: files, D => by
    unfold Edo.readAll overFiles
    exact congrArg (fun g => Edo.read_edorpt D file >>= g) (funext (edo_readAll files))

theorem ngram_process (U : Unicode) (junk : List Nat) (n : Nat) : ∀ (files : List (List Nat)) (opt : Textopt) (t : Ngram.Seqtable),
    Ngram.processFiles U junk n opt files t = overFiles (ngramFile U junk n) files (opt, t) >>= fun a => .ok a.2
  | [], _, _ => rfl
  | file :: files, opt, t => by
    unfold Ngram.processFiles overFiles ngramFile
    simp only
    cases read_text U junk [] file opt with
    | ok x =>
      obtain ⟨text, opt'⟩ := x
      simp only [bind_ok]
      cases Ngram.startLoop U n text t with
      | ok t => exact ngram_process U junk n files opt' t
      | err | ub | fuel => rfl
    | err | ub | fuel => rfl

theorem wordfreq_process (U : Unicode) (prop : Nat → Word.WB) (nfc : List Nat → Option (List Nat)) (junk : List Nat) (junk' : Nat) :
    ∀ (files : List (List Nat)) (opt : Textopt) (t : List Term), Wordfreq.processFiles U prop nfc junk junk' opt files t =
      overFiles (wordfreqFile U prop nfc junk junk') files (opt, t) >>= fun a => .ok a.2
  | [], _, _ => rfl
  | file :: files, opt, t => by
    unfold Wordfreq.processFiles overFiles wordfreqFile
    simp only
    cases read_text U junk [] file opt with
    | ok x =>
      obtain ⟨text, opt'⟩ := x
      simp only [bind_ok]
      cases Word.find_words U prop nfc junk' text with
      | ok words =>
        simp only [bind_ok]
        cases Wordfreq.addWords words t with
        | ok t => exact wordfreq_process U prop nfc junk junk' files opt' t
        | err | ub | fuel => rfl
      | err | ub | fuel => rfl
    | err | ub | fuel => rfl

theorem vote_process (U : Unicode) (junk : List Nat) : ∀ (files : List (List Nat)) (opt : Textopt) (texts : List (List Ch)),
    (overFiles (voteFile U junk) files (opt, texts) >>= fun a => .ok a.2) = Vote.readAll U junk opt files >>= fun ts => .ok (texts ++ ts)
  | [], _, texts => by
    show Res.ok texts = Res.ok (texts ++ [])
    rw [List.append_nil]
  | file :: files, opt, texts => by
    unfold Vote.readAll overFiles voteFile
    simp only
    cases read_text U junk [] file opt with
    | ok x =>
      obtain ⟨text, opt'⟩ := x
      simp only [bind_ok]
      refine (vote_process U junk files opt' (texts ++ [text])).trans ?_
      cases Vote.readAll U junk opt' files with
      | ok ts => show Res.ok _ = Res.ok _; rw [List.append_assoc]; rfl
      | err | ub | fuel => rfl
    | err | ub | fuel => rfl

section
variable {fs : Fs} {argv names files : List (List Nat)} {b : List Nat} {V : Args.Vars}

theorem accsum_eq {U : Unicode} {pct : Int → Int → List Nat} (e : Args.initialize_ none true argv start = .ok (b, names, V))
    (h : List.Forall₂ (fun name file => fs name = some file) names files) :
    accsumProgram U pct fs argv = Acc.accsum U pct files >>= fun bytes => .ok ⟨none, bytes⟩ := by
  unfold accsumProgram Acc.accsum
  rw [e, bind_ok]
  simp only
  rw [h.length_eq]
  split
  · rfl
  · rw [forFiles_eq h, acc_readAll, assoc]; rfl

theorem wordaccsum_eq {pct : Int → Int → List Nat} (e : Args.initialize_ none true argv start = .ok (b, names, V))
    (h : List.Forall₂ (fun name file => fs name = some file) names files) :
    wordaccsumProgram pct fs argv = Wac.wordaccsum pct files >>= fun bytes => .ok ⟨none, bytes⟩ := by
  unfold wordaccsumProgram Wac.wordaccsum
  rw [e, bind_ok]
  simp only
  rw [h.length_eq]
  split
  · rfl
  · rw [forFiles_eq h, wac_readAll, assoc]; rfl

theorem editopsum_eq (e : Args.initialize_ none true argv start = .ok (b, names, V))
    (h : List.Forall₂ (fun name file => fs name = some file) names files) :
    editopsumProgram fs argv = Edo.editopsum files >>= fun bytes => .ok ⟨none, bytes⟩ := by
  unfold editopsumProgram Edo.editopsum
  rw [e, bind_ok]
  simp only
  rw [h.length_eq]
  split
  · rfl
  · rw [forFiles_eq h, edo_readAll, assoc]; rfl

theorem editopcost_eq (e : Args.initialize_ none true argv start = .ok (b, names, V))
    (h : List.Forall₂ (fun name file => fs name = some file) names files) :
    editopcostProgram fs argv = Edo.editopcost files >>= fun bytes => .ok ⟨none, bytes⟩ := by
  unfold editopcostProgram Edo.editopcost open_file
  rw [e, bind_ok]
  simp only
  cases h with
  | nil => rfl
  | cons h1 h =>
    cases h with
    | nil =>
      simp only [rd, List.length_cons, List.length_nil, List.getElem?_cons_zero, bind_ok, h1]
      rw [if_neg (by omega), assoc]
      rfl
    | cons h2 h =>
      cases h with
      | nil =>
        simp only [rd, List.length_cons, List.length_nil, List.getElem?_cons_zero, List.getElem?_cons_succ, bind_ok, h1, h2]
        rw [if_neg (by omega), assoc]
        refine congrArg (fun g => _ >>= g) (funext fun D => ?_)
        rw [if_pos trivial, assoc, assoc]
        rfl
      | cons h3 h =>
        rw [if_pos (by simp)]
        rfl

theorem ngram_eq {U : Unicode} {signed : Bool} {junk : List Nat}
    (e : Args.initialize_ (some Args.ngramOptions) true argv start = .ok (b, names, V))
    (h : List.Forall₂ (fun name file => fs name = some file) names files) :
    ngramProgram U signed junk fs argv = Ngram.ngramMain U signed junk (V.string 0) files >>= fun bytes => .ok ⟨none, bytes⟩ := by
  unfold ngramProgram Ngram.ngramMain
  rw [e, bind_ok]
  simp only
  rw [h.length_eq]
  split
  · rfl
  · rw [assoc]
    refine congrArg (fun g => _ >>= g) (funext fun n => ?_)
    rw [forFiles_eq h, ngram_process, assoc, assoc]
    refine congrArg (fun g => _ >>= g) (funext fun a => ?_)
    obtain ⟨o, t⟩ := a
    rw [bind_ok]; rfl

theorem wordfreq_eq {U : Unicode} {prop : Nat → Word.WB} {nfc : List Nat → Option (List Nat)} {junk : List Nat} {junk' : Nat}
    (e : Args.initialize_ none true argv start = .ok (b, names, V))
    (h : List.Forall₂ (fun name file => fs name = some file) names files) :
    wordfreqProgram U prop nfc junk junk' fs argv =
      Wordfreq.wordfreqMain U prop nfc junk junk' files >>= fun bytes => .ok ⟨none, bytes⟩ := by
  unfold wordfreqProgram Wordfreq.wordfreqMain
  rw [e, bind_ok]
  simp only
  rw [h.length_eq]
  split
  · rfl
  · rw [forFiles_eq h, wordfreq_process, assoc, assoc]
    refine congrArg (fun g => _ >>= g) (funext fun a => ?_)
    obtain ⟨o, t⟩ := a
    rw [bind_ok]; rfl

theorem vote_eq {U : Unicode} {signed : Bool} {junk : List Nat}
    (e : Args.initialize_ (some Args.voteOptions) true argv start = .ok (b, names, V))
    (h : List.Forall₂ (fun name file => fs name = some file) names files) :
    voteProgram U signed junk fs argv =
      Vote.voteMain U signed junk (V.boolean 1) (V.string 1) (V.string 2) files >>= fun bytes => .ok ⟨V.string 0, bytes⟩ := by
  unfold voteProgram Vote.voteMain
  rw [e, bind_ok]
  simp only
  rw [h.length_eq]
  split
  · rfl
  · rw [forFiles_eq h, assoc]
    have k := vote_process U junk files Vote.textopt []
    revert k
    cases overFiles (voteFile U junk) files (Vote.textopt, []) with
    | ok x =>
      cases Vote.readAll U junk Vote.textopt files with
      | ok ts =>
        intro k
        obtain ⟨o, xs⟩ := x
        cases (show Res.ok xs = Res.ok ts from k)
        simp only [bind_ok]
        rw [assoc]
        refine congrArg (fun g => _ >>= g) (funext fun n => ?_)
        rw [assoc]; rfl
      | err | ub | fuel => intro k; cases k
    | err | ub | fuel =>
      cases Vote.readAll U junk Vote.textopt files with
      | ok ts => intro k; cases k
      | err | ub | fuel => intro k; cases k; try rfl

end

theorem given_eq {ss : List Args.Setting} {V : Args.Vars} (hV : Args.Holds ss V) {v : Nat} {s : Option (List Nat)} (h : Given ss v s) :
    V.string v = s := by
  cases e : V.string v with
  | none =>
    cases s with
    | none => rfl
    | some x => rw [(hV.1 v x).2 ((h x).1 rfl)] at e; cases e
  | some x => exact ((h x).2 ((hV.1 v x).1 e)).symm

theorem flag_eq {ss : List Args.Setting} {V : Args.Vars} (hV : Args.Holds ss V) {v : Nat} {b : Bool}
    (h : b = true ↔ ⟨.flag v, []⟩ ∈ ss) : V.boolean v = b := by
  have := hV.2 v
  rw [Bool.eq_iff_iff]
  exact this.trans h.symm

/-- Reading a file that holds a text, whatever the header of the file before. -/
theorem read_next {U : Unicode} {junk : List Nat} {fold b : Bool} {file : List Nat} {t : List Ch} (h : HoldsText U fold file t) :
    ∃ b', read_text U junk [] file { pageText fold with found_header := b } = .ok (t, { pageText fold with found_header := b' }) := by
  obtain ⟨b', e, _⟩ := read_holds (junk := junk) h
  refine ⟨b', ?_⟩
  rw [← e]
  rfl

theorem readAll_eq {U : Unicode} {junk : List Nat} {files : List (List Nat)} {texts : List (List Ch)}
    (h : List.Forall₂ (HoldsText U false) files texts) :
    ∀ b, Vote.readAll U junk { pageText false with found_header := b } files = .ok texts := by
  induction h with
  | nil => intro b; rfl
  | cons h _ ih =>
    intro b
    obtain ⟨b', e⟩ := read_next (junk := junk) (b := b) h
    unfold Vote.readAll
    rw [e, bind_ok]
    simp only
    rw [ih, bind_ok]
    rfl

theorem texts_eq {U : Unicode} {junk : List Nat} {fold : Bool} {files : List (List Nat)} {texts : List (List Ch)}
    (h : List.Forall₂ (HoldsText U fold) files texts) :
    ∀ b, Texts U junk { pageText fold with found_header := b } files texts := by
  induction h with
  | nil => intro b; exact .nil
  | cons h _ ih =>
    intro b
    obtain ⟨b', e⟩ := read_next (junk := junk) (b := b) h
    exact .cons e (ih b')

/-- The characters voted for come from the voters. -/
theorem region_values {cfg : Vote.Config} {strs : List (List Ch)} {out : List Ch} (h : Vote.RegionVote cfg strs out) :
    ∀ c ∈ out, c.value = 126 ∨ ∃ s ∈ strs, ∃ d ∈ s, d.value = c.value := by
  intro c hc
  obtain ⟨k, hk⟩ := List.getElem?_of_mem hc
  rcases h.round k c hk with ⟨rfl, _⟩ | ⟨⟨pre, b, post, e, hp, _⟩, _⟩
  · exact .inl rfl
  · right
    have hb : b ∈ Vote.ballots strs k := by rw [e]; simp
    unfold Vote.ballots at hb
    obtain ⟨s, hs, e⟩ := List.mem_map.1 hb
    cases b with
    | none => simp [Vote.proposal] at hp
    | some d =>
      refine ⟨s, hs, d, List.mem_of_getElem? e, ?_⟩
      unfold Vote.proposal at hp
      simp only at hp
      split at hp
      · cases hp
      · simpa using hp

/-- The voters chosen and their votes. -/
theorem vote_data {U : Unicode} (F : UnicodeFacts U) {optimize : Bool} {s w : Option (List Nat)} {texts : List (List Ch)} {cfg : Vote.Config}
    (hcfg : Vote.Settings texts.length optimize s w cfg) (hval : ∀ t ∈ texts, ∀ c ∈ t, c.value ≤ 0x10FFFF)
    (hlen : ∀ t ∈ texts, t.length < 2 ^ 31) :
    ∃ chosen r outs, Chosen optimize texts chosen ∧ (∀ t ∈ chosen, t ∈ texts) ∧
      Sync.synchronize (chosen.map (·.map Ch.value)) = .ok r ∧
      Sync.IsAlignment (chosen.map (·.map Ch.value)) r.items ∧ Vote.voteTexts U optimize cfg texts = .ok outs.flatten ∧
      List.Forall₂ (fun s out => Vote.RegionVote cfg (Vote.strings chosen s) out) r.items outs := by
  have h2 := hcfg.voters
  have ha := hcfg.actual
  obtain ⟨chosen, hch, hsub, hlc, e⟩ : ∃ chosen, Chosen optimize texts chosen ∧ (∀ t ∈ chosen, t ∈ texts) ∧
      (2 ≤ chosen.length ∧ chosen.length ≤ 16) ∧
      Vote.select_voters U optimize cfg.actual_voters texts = .ok chosen := by
    cases optimize with
    | true =>
      obtain ⟨order, h3, h4, h5⟩ := Vote.c43_select U F s w texts cfg hcfg hval hlen
      have hl : order.length = texts.length := by rw [h3.length_eq, List.length_range]
      refine ⟨_, .inr ⟨rfl, order, h3, h4, rfl⟩, ?_, ?_, h5⟩
      · intro t ht
        obtain ⟨i, hi, rfl⟩ := List.mem_map.1 ht
        have := List.mem_range.1 (h3.mem_iff.1 (List.mem_of_mem_take hi))
        rw [List.getD_eq_getElem?_getD, List.getElem?_eq_getElem this]
        exact List.getElem_mem this
      · rw [List.length_map, List.length_take, hl]; omega
    | false =>
      simp only [Bool.false_eq_true, if_false] at ha
      refine ⟨texts, .inl ⟨rfl, rfl⟩, fun _ h => h, h2, ?_⟩
      unfold Vote.select_voters
      simp only [Bool.false_eq_true, if_false, pure_eq, bind_ok]
      rw [if_pos (by simp [ha])]
      refine congrArg Res.ok ?_
      rw [List.take_of_length_le (by simp [ha]), List.map_map]
      apply List.ext_getElem (by simp)
      intro i _ _
      simp
  obtain ⟨r, outs, e1, h3, e2, h4⟩ := Vote.c39_vote cfg chosen hlc.1 hlc.2
  refine ⟨chosen, r, outs, hch, hsub, e1, h3, ?_, h4⟩
  unfold Vote.voteTexts
  rw [e]
  simp only [bind_ok]
  rw [e1]
  simp only [bind_ok]
  exact e2

/-- The outcomes of reading two files. -/
theorem readPair_total {U : Unicode} {junk : List Nat} {fs : Fs} {f0 f1 : List Nat} {rest : List (List Nat)} (hj : Bytes junk)
    (hfs : ∀ name file, fs name = some file → Bytes file) :
    (∃ file0 file1 t0 t1 b0 b1 o0 o1, fs f0 = some file0 ∧ fs f1 = some file1 ∧
      read_text U junk [] file0 { textopt with found_header := b0 } = .ok (t0, o0) ∧
      read_text U junk [] file1 { textopt with found_header := b1 } = .ok (t1, o1) ∧
      readPair U junk fs (f0 :: f1 :: rest) = .ok (t0, t1)) ∨
    ∃ msg, readPair U junk fs (f0 :: f1 :: rest) = .err msg := by
  unfold readPair
  simp only [show rd (f0 :: f1 :: rest) 0 = .ok f0 from rfl, show rd (f0 :: f1 :: rest) 1 = .ok f1 from rfl, bind_ok]
  cases h0 : fs f0 with
  | none => right; exact ⟨_, by unfold readFile open_file; rw [h0]; rfl⟩
  | some file0 =>
    rw [readFile_eq h0]
    rcases read_total U junk [] file0 textopt (hfs _ _ h0) hj with ⟨⟨t0, o0⟩, e0⟩ | ⟨msg, e0⟩
    · rw [e0, bind_ok]
      simp only
      split
      · exact .inr ⟨_, rfl⟩
      · cases h1 : fs f1 with
        | none => right; exact ⟨_, by unfold readFile open_file; rw [h1]; rfl⟩
        | some file1 =>
          rw [readFile_eq h1]
          obtain ⟨_, _, b', rfl⟩ := read_bounds (b := false) (hfs _ _ h0) hj e0
          rcases read_total U junk [] file1 { textopt with found_header := b' } (hfs _ _ h1) hj with ⟨⟨t1, o1⟩, e1⟩ | ⟨msg, e1⟩
          · rw [e1, bind_ok]
            exact .inl ⟨file0, file1, t0, t1, false, b', _, o1, rfl, rfl, e0, e1, rfl⟩
          · rw [e1]; exact .inr ⟨msg, rfl⟩
    · rw [e0]; exact .inr ⟨msg, rfl⟩

end Ocr.Prog

namespace Ocr.Acc
open Text Sync Res

/-- What the accuracy program computes. -/
theorem accuracy_data {U : Unicode} (F : UnicodeFacts U) {t0 t1 : List Ch} (h0 : InTables t0) (h1 : CodePoints t1)
    (hl : t0.length + t1.length < 10^8) :
    ∃ D, accuracy U t0 t1 = .ok D ∧ Consistent t0 t1 D ∧ Reportable D ∧
      ((∀ c ∈ t0, c.value ≠ REJECT_CHARACTER) → ∃ d : Nat, D.errors = d ∧ IsEditDistance (values t0) (values t1) d) := by
  obtain ⟨D, items, hD, hA, _, hR⟩ := c21_exact U t0 t1 h0 h1
  obtain ⟨D', hD', hC⟩ := c21_consistent U t0 t1 h0 h1
  have : D' = D := by rw [hD] at hD'; exact (Res.ok.inj hD').symm
  subst this
  have hc : D'.characters < 10^8 := by
    rw [hC.characters]
    have : (nonreject t0).length ≤ t0.length := by
      unfold nonreject; refine (List.length_filter_le _ _).trans ?_; rw [List.length_map]
    omega
  have he : D'.errors < 10^8 := by
    rw [hR.errors]
    have := sum_tiles t0 items 0 0 _ _ (hA.tiles 0 (by simp)) (hA.tiles 1 (by simp))
    simp only [List.getElem_cons_zero, List.getElem_cons_succ, values, List.length_map] at this
    omega
  refine ⟨D', hD, hC, accuracy_reportable F h0 h1 hD hc he (by omega), ?_⟩
  intro hr
  obtain ⟨E, d, e, e1, e2⟩ := c22_edit_distance U t0 t1 h0 h1 hr
  rw [hD] at e
  cases e
  exact ⟨d, e1, e2⟩

theorem same_reported {t0 t1 : List Ch} {items : List Sync.Sync} {D E : Accdata} (hs : D.Same E) (h : Reported t0 t1 items D) :
    Reported t0 t1 items E := by
  rw [hs.1]
  exact ⟨h.errors, h.marked, h.unmarked, h.false_marks, h.small, h.large⟩

theorem same_consistent {t0 t1 : List Ch} {D E : Accdata} (hs : D.Same E) (h : Consistent t0 t1 D) : Consistent t0 t1 E := by
  rw [hs.1]
  exact ⟨h.characters, h.rejects, h.suspects, h.false_lo, h.false_hi, h.errors, h.marked, h.unmarked, h.total, h.ins, h.subst, h.del,
    h.small, h.large, h.all, h.missed, h.small_ok, h.large_ok, h.all_ok, h.sum_count, h.sum_missed⟩

end Ocr.Acc
