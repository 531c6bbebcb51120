import Verif.Props.Evaluations
import Verif.Props.Synctext

/-!
# C66: groupacc, nonstopacc and synctext from the command line
-/

namespace Ocr.Prog
open Text Res Spec

theorem reported {U : Unicode} (F : UnicodeFacts U) {pct : Int → Int → List Nat} (hpct : Acc.PctFormat pct)
    {p : List Ch × List Ch} {report : List Nat} (h : AccuracyReport U pct p report) (hlast : ∀ c ∈ p.1, c.value ≠ 0x10FFFF)
    (hl : p.1.length + p.2.length < 10^8) :
    ∃ E items, Acc.read_accrpt Acc.Accdata.zero report = .ok E ∧ Sync.IsAlignment [p.1.map Ch.value, p.2.map Ch.value] items ∧
      (∃ d : Nat, Sync.cost items = d ∧ IsEditDistance (p.1.map Ch.value) (p.2.map Ch.value) d) ∧
      Acc.Consistent p.1 p.2 E ∧ Acc.Reported p.1 p.2 items E := by
  obtain ⟨i0, i1, D, E, e1, e2, e3⟩ := accuracy_written F hpct h hlast hl
  obtain ⟨D', items, e1', hA, hd, hD⟩ := Acc.c21_exact U p.1 p.2 i0 i1
  have : D' = D := by rw [e1] at e1'; exact (Res.ok.inj e1').symm
  subst this
  obtain ⟨D'', e1'', hC⟩ := Acc.c21_consistent U p.1 p.2 i0 i1
  have : D'' = D' := by rw [e1] at e1''; exact (Res.ok.inj e1'').symm
  subst this
  exact ⟨E, items, e2, hA, hd, Acc.same_consistent e3 hC, Acc.same_reported e3 hD⟩

/-- C66 (groupacc).  `groupacc group report [result]`, the report being one written by `accuracy` for some page: the characters of the group
that occur on the page, with the number of their occurrences and of those in unmatched parts of an optimal alignment, and the sums.  The
result goes to the file named, or to the standard output. -/
theorem c66_groupacc (U : Unicode) (F : UnicodeFacts U) (pct8 pct : Int → Int → List Nat) (hpct : Acc.PctFormat pct8) (junk : List Nat)
    (hj : Bytes junk) (fs : Fs) (prog : List Nat) (args : List (List Nat)) (f0 f1 : List Nat) (rest : List (List Nat))
    (ss : List Args.Setting) (hc : CommandLine [] prog args (f0 :: f1 :: rest) ss) (hr : rest.length ≤ 1)
    (group : List Nat) (h0 : fs f0 = some group) (hb : Bytes group) (text : List Ch) (ht : IsList U true false group text)
    (hv : ∀ c ∈ text, c.value ≠ 0x10FFFF)
    (report : List Nat) (h1 : fs f1 = some report) (p : List Ch × List Ch) (hp : AccuracyReport U pct8 p report)
    (hlast : ∀ c ∈ p.1, c.value ≠ 0x10FFFF) (hl : p.1.length + p.2.length < 10^8)
    (str : Nat → List Nat) (hstr : ∀ v, v < 0x110000 → char_to_string U STRING_SIZE false v true = .ok (str v)) :
    ∃ items, Sync.IsAlignment [p.1.map Ch.value, p.2.map Ch.value] items ∧
      (∃ d : Nat, Sync.cost items = d ∧ IsEditDistance (p.1.map Ch.value) (p.2.map Ch.value) d) ∧
      groupaccProgram U pct junk fs (prog :: args) = .ok ⟨rest.head?, Groupacc.report pct (characterFigures p.1 items) str
        (Groupacc.listed (characterFigures p.1 items) (text.map Ch.value))⟩ := by
  obtain ⟨b, V, e⟩ := init_none hc
  obtain ⟨E, items, e1, hA, hd, hC, hR⟩ := reported F hpct hp hlast hl
  refine ⟨items, hA, hd, ?_⟩
  have er := (read_list U junk true false group hb hj text _).2 ⟨ht, rfl⟩
  have hval : ∀ c ∈ text, c.value < 0x10FFFF := by
    intro c hm
    have := body_values (U := U) (body := group) (by simpa [IsList, IsPage] using ht) c hm
    have := hv c hm
    omega
  have hs : E.small_class = (characterFigures p.1 items).small_class := by
    funext v
    have a := hC.small v
    have b := hR.small v
    show E.small_class v = ⟨_, _⟩
    cases h : E.small_class v with
    | mk x y => rw [h] at a b; simp only at a b; rw [a, b]; rfl
  unfold groupaccProgram
  rw [e, bind_ok]
  simp only
  rw [if_neg (by simp only [List.length_cons]; omega), show rd (f0 :: f1 :: rest) 0 = .ok f0 from rfl, bind_ok, readFile_eq h0,
    show Groupacc.textopt = ⟨false, true, 0, true, false, false⟩ from rfl, er, bind_ok]
  simp only
  rw [show rd (f0 :: f1 :: rest) 1 = .ok f1 from rfl, bind_ok]
  unfold open_file
  rw [h1, bind_ok, e1, bind_ok, Groupacc.c51_report U F pct text E hval str hstr, bind_ok]
  unfold Groupacc.report Groupacc.listed Groupacc.line
  rw [hs]
  cases rest <;> rfl

/-- C66 (groupacc, refusals).  Any other number of files, and files that cannot be opened, are refused. -/
theorem c66_groupacc_refuses (U : Unicode) (pct : Int → Int → List Nat) (junk : List Nat) (hj : Bytes junk) (fs : Fs)
    (hfs : ∀ name file, fs name = some file → Bytes file) (prog : List Nat)
    (args names : List (List Nat)) (ss : List Args.Setting) (hc : CommandLine [] prog args names ss) :
    ((names.length < 2 ∨ 3 < names.length) → groupaccProgram U pct junk fs (prog :: args) = .err "invalid number of files") ∧
    (∀ f0 f1 rest, names = f0 :: f1 :: rest → rest.length ≤ 1 → fs f0 = none ∨ fs f1 = none →
      ∃ msg, groupaccProgram U pct junk fs (prog :: args) = .err msg) := by
  obtain ⟨b, V, e⟩ := init_none hc
  unfold groupaccProgram
  rw [e, bind_ok]
  simp only
  refine ⟨fun h => by rw [if_pos (by omega)], ?_⟩
  rintro f0 f1 rest rfl hr hn
  rw [if_neg (by simp only [List.length_cons]; omega), show rd (f0 :: f1 :: rest) 0 = .ok f0 from rfl, bind_ok]
  cases h0 : fs f0 with
  | none => unfold readFile open_file; rw [h0]; exact ⟨_, rfl⟩
  | some file =>
    rw [readFile_eq h0]
    rcases read_total U junk [] file Groupacc.textopt (hfs _ _ h0) hj with ⟨⟨t, o⟩, e⟩ | ⟨msg, e⟩
    · rw [e, bind_ok]
      simp only
      rw [show rd (f0 :: f1 :: rest) 1 = .ok f1 from rfl, bind_ok]
      rcases hn with hn | hn
      · rw [h0] at hn; cases hn
      · unfold open_file; rw [hn]; exact ⟨_, rfl⟩
    · rw [e]; exact ⟨msg, rfl⟩

/-- C66 (nonstopacc).  `nonstopacc stopwords report`, the report being one written by `wordacc` for some page, and no stopword being listed
twice: line `i` shows the accuracy over the occurrences on the page of the words other than the first `i` listed; the recognized words
form a longest common subsequence. -/
theorem c66_nonstopacc (U : Unicode) (prop : Nat → Word.WB) (nfc : List Nat → Option (List Nat)) (pct8 pct : Int → Int → List Nat)
    (hpct : Acc.PctFormat pct8) (junk : List Nat) (hj : Bytes junk) (junk' : Nat) (fs : Fs) (prog : List Nat) (args : List (List Nat))
    (f0 f1 : List Nat) (ss : List Args.Setting) (hc : CommandLine [] prog args [f0, f1] ss)
    (stopwords : List Nat) (h0 : fs f0 = some stopwords) (hb : Bytes stopwords) (text : List Ch) (ht : IsList U false true stopwords text)
    (words : List (List Nat)) (hw : HasWords U prop nfc text words) (hnd : words.Nodup)
    (report : List Nat) (h1 : fs f1 = some report) (p : WordPage) (hp : WordaccReport U prop nfc pct8 p report) (hm : Manageable p)
    (hl : p.correct.length < 10^8) :
    ∃ flags, flags.length = p.correct.length ∧ Wordacc.IsLCS (Wordacc.flagged p.correct flags) p.correct p.generated ∧
      nonstopaccProgram U prop nfc pct junk junk' fs (prog :: args) = .ok ⟨none,
        Nonstopacc.lines pct (fun i => Wordacc.tally (fun w => decide (w ∉ words.take i)) (p.correct.zip flags)) words.length⟩ := by
  obtain ⟨b, V, e⟩ := init_none hc
  obtain ⟨flags, D, E, hf, hL, hD, _, e1, hs⟩ := wordacc_report hpct hp hm hl
  refine ⟨flags, hf, hL, ?_⟩
  have er := (read_list U junk false true stopwords hb hj text _).2 ⟨ht, rfl⟩
  have hC : Nonstopacc.Consistent D :=
    ⟨hD.table1.nodup, hD.table2.nodup, by rw [Nonstopacc.others_exact hD, hD.total]; simp⟩
  have hE : Nonstopacc.Consistent E := by
    refine ⟨((hs.2.1.map Term.key).nodup_iff).1 hC.nodup1, ((hs.2.2.map Term.key).nodup_iff).1 hC.nodup2, ?_⟩
    rw [Nonstopacc.others_perm hs, ← hC.total, hs.1]
  unfold nonstopaccProgram
  rw [e, bind_ok]
  simp only
  rw [if_neg (by simp), show rd [f0, f1] 0 = .ok f0 from rfl, bind_ok, readFile_eq h0,
    show Nonstopacc.textopt = ⟨false, false, 0, true, true, false⟩ from rfl, er, bind_ok]
  simp only
  rw [words_eq hw, bind_ok, show rd [f0, f1] 1 = .ok f1 from rfl, bind_ok]
  unfold open_file
  rw [h1, bind_ok, e1, bind_ok, Nonstopacc.c50_exact pct E hE words hnd, bind_ok]
  have : (fun i => Nonstopacc.others E (words.take i)) =
      fun i => Wordacc.tally (fun w => decide (w ∉ words.take i)) (p.correct.zip flags) := by
    funext i
    rw [Nonstopacc.others_perm hs, Nonstopacc.others_exact hD]
  rw [this]
  rfl

/-- C66 (nonstopacc, refusals).  Any other number of files, and a file of stopwords that cannot be opened, are refused. -/
theorem c66_nonstopacc_refuses (U : Unicode) (prop : Nat → Word.WB) (nfc : List Nat → Option (List Nat)) (pct : Int → Int → List Nat)
    (junk : List Nat) (junk' : Nat) (fs : Fs) (prog : List Nat) (args names : List (List Nat)) (ss : List Args.Setting)
    (hc : CommandLine [] prog args names ss) :
    (names.length ≠ 2 → nonstopaccProgram U prop nfc pct junk junk' fs (prog :: args) = .err "invalid number of files") ∧
    (∀ f0 f1, names = [f0, f1] → fs f0 = none →
      nonstopaccProgram U prop nfc pct junk junk' fs (prog :: args) = .err "unable to open file") := by
  obtain ⟨b, V, e⟩ := init_none hc
  unfold nonstopaccProgram
  rw [e, bind_ok]
  simp only
  refine ⟨fun h => by rw [if_pos h], ?_⟩
  rintro f0 f1 rfl hn
  rw [if_neg (by simp), show rd [f0, f1] 0 = .ok f0 from rfl, bind_ok]
  unfold readFile open_file
  rw [hn]
  rfl

/-! ## synctext -/

/-- The options of `synctext`: `-H`, `-i`, `-s`, `-T` (synctext.c:31-41). -/
abbrev synctextTable : List (Nat × Args.Kind) := [(72, .flag 0), (105, .flag 1), (115, .flag 2), (84, .flag 3)]

theorem read_opt {U : Unicode} {junk file : List Nat} {t t' : List Ch} {opt o : Textopt} (h : read_text U junk t file opt = .ok (t', o)) :
    ∃ b, o = { opt with found_header := b } := by
  unfold read_text at h
  obtain ⟨⟨o', body⟩, h1, h⟩ := bind_eq_ok.1 h
  obtain ⟨new, h2, h⟩ := bind_eq_ok.1 h
  simp only [pure_eq, Res.ok.injEq, Prod.mk.injEq] at h
  obtain ⟨_, rfl⟩ := h
  split at h1
  · obtain ⟨⟨found, b⟩, _, h1⟩ := bind_eq_ok.1 h1
    cases h1
    exact ⟨_, rfl⟩
  · cases h1
    exact ⟨_, rfl⟩

theorem readTexts_eq {U : Unicode} {junk : List Nat} {fs : Fs} {fold : Bool} {names files : List (List Nat)} {texts : List (List Ch)}
    (hf : List.Forall₂ (fun name file => fs name = some file) names files) (ht : List.Forall₂ (HoldsText U fold) files texts) :
    ∀ b, Synctext.readTexts U junk fs names { pageText fold with found_header := b } = .ok texts := by
  induction hf generalizing texts with
  | nil => cases ht; intro b; rfl
  | cons h _ ih =>
    cases ht with
    | cons h1 h2 =>
      intro b
      obtain ⟨b', e⟩ := read_next (junk := junk) (b := b) h1
      unfold Synctext.readTexts
      rw [h]
      simp only
      rw [e, bind_ok]
      simp only
      rw [ih h2 b', bind_ok]
      rfl

/-- C66 (synctext).  `synctext [-H] [-i] [-s] file ...` with 2 to 16 files that hold texts: the printout is the document of an alignment of the
texts, which is optimal for two files without `-H`. -/
theorem c66_synctext (U : Unicode) (F : UnicodeFacts U) (junk : List Nat) (fs : Fs) (prog : List Nat) (args names : List (List Nat))
    (ss : List Args.Setting) (hc : CommandLine synctextTable prog args names ss) (hT : ⟨.flag 3, []⟩ ∉ ss)
    (fold marks : Bool) (hi : fold = true ↔ ⟨.flag 1, []⟩ ∈ ss) (hs : marks = true ↔ ⟨.flag 2, []⟩ ∈ ss)
    (h2 : 2 ≤ names.length) (h16 : names.length ≤ 16) (hne : ∃ f ∈ names, f ≠ []) (hlen : ∀ f ∈ names, f.length < 10 ^ 16)
    (files : List (List Nat)) (hf : List.Forall₂ (fun name file => fs name = some file) names files)
    (texts : List (List Ch)) (ht : List.Forall₂ (HoldsText U fold) files texts)
    (hv : ∀ t ∈ texts, ∀ c ∈ t, Synctext.Showable U marks c.value) :
    ∃ items, Sync.IsAlignment (texts.map (·.map Ch.value)) items ∧
      (⟨.flag 0, []⟩ ∉ ss → ∀ t0 t1, texts = [t0, t1] →
        ∃ d : Nat, Sync.cost items = d ∧ IsEditDistance (t0.map Ch.value) (t1.map Ch.value) d) ∧
      Synctext.synctextMain U junk fs (prog :: args) =
        .ok ((Synctext.docOf texts items).print (Synctext.shown U marks) names) := by
  obtain ⟨items, h1, h3, h4⟩ := Synctext.c55_document U F junk fs (decide (⟨.flag 0, []⟩ ∈ ss)) fold marks names texts h2 h16 hne hlen
    (readTexts_eq hf ht false) hv
  refine ⟨items, h1, fun hH => h3 (by simpa using hH), ?_⟩
  rw [Synctext.c55_program U junk fs prog args names ss hc.prog hc.many hc.nul hc.some hc.parse hc.once, ← h4]
  have e1 : decide (⟨.flag 1, []⟩ ∈ ss) = fold := by rw [Bool.eq_iff_iff, decide_eq_true_iff]; exact hi.symm
  have e2 : decide (⟨.flag 2, []⟩ ∈ ss) = marks := by rw [Bool.eq_iff_iff, decide_eq_true_iff]; exact hs.symm
  rw [e1, e2, decide_eq_false hT]

/-- C66 (synctext, restoration).  From the printout made without `-s` and `-T`, each text can be restored, if there are no braces in the texts
and the names. -/
theorem c66_synctext_restores (U : Unicode) (F : UnicodeFacts U) (junk : List Nat) (fs : Fs) (prog : List Nat) (args names : List (List Nat))
    (ss : List Args.Setting) (hc : CommandLine synctextTable prog args names ss) (hT : ⟨.flag 3, []⟩ ∉ ss) (hs : ⟨.flag 2, []⟩ ∉ ss)
    (fold : Bool) (hi : fold = true ↔ ⟨.flag 1, []⟩ ∈ ss)
    (h2 : 2 ≤ names.length) (h16 : names.length ≤ 16) (hne : ∃ f ∈ names, f ≠ []) (hlen : ∀ f ∈ names, f.length < 10 ^ 16)
    (hbr : ∀ f ∈ names, 123 ∉ f ∧ 125 ∉ f)
    (files : List (List Nat)) (hf : List.Forall₂ (fun name file => fs name = some file) names files)
    (texts : List (List Ch)) (ht : List.Forall₂ (HoldsText U fold) files texts)
    (hv : ∀ t ∈ texts, ∀ c ∈ t, c.value < 0x110000 ∧ c.value ≠ 123 ∧ c.value ≠ 125) :
    ∃ out, Synctext.synctextMain U junk fs (prog :: args) = .ok out ∧ ∀ t (h : t < texts.length),
      Synctext.restore names.length ((names.map List.length).foldr max 0) t out = texts[t].flatMap (fun c => Synctext.drawn U c.value) := by
  obtain ⟨out, h1, h3⟩ := Synctext.c55_restores U F junk fs (decide (⟨.flag 0, []⟩ ∈ ss)) fold names texts h2 h16 hne hlen
    (readTexts_eq hf ht false) hv hbr
  refine ⟨out, ?_, h3⟩
  rw [Synctext.c55_program U junk fs prog args names ss hc.prog hc.many hc.nul hc.some hc.parse hc.once, ← h1]
  have e1 : decide (⟨.flag 1, []⟩ ∈ ss) = fold := by rw [Bool.eq_iff_iff, decide_eq_true_iff]; exact hi.symm
  rw [e1, decide_eq_false hT, decide_eq_false hs]

/-- C66 (synctext -T).  `synctext -T [-i] [-s] file file`: both texts are printed completely, in parts.  The numbered parts of the first text
are numbered 1, 2, 3, ...; those of the second text have the same numbers in some order; parts with the same number are the same string;
and no character other than the reject character is in unnumbered parts of both texts. -/
theorem c66_synctext_transposed (U : Unicode) (F : UnicodeFacts U) (junk : List Nat) (fs : Fs) (prog : List Nat) (args : List (List Nat))
    (f0 f1 : List Nat) (ss : List Args.Setting) (hc : CommandLine synctextTable prog args [f0, f1] ss) (hT : ⟨.flag 3, []⟩ ∈ ss)
    (fold marks : Bool) (hi : fold = true ↔ ⟨.flag 1, []⟩ ∈ ss) (hs : marks = true ↔ ⟨.flag 2, []⟩ ∈ ss)
    (file0 file1 : List Nat) (h0 : fs f0 = some file0) (h1 : fs f1 = some file1) (t0 t1 : List Ch) (ht0 : HoldsText U fold file0 t0)
    (ht1 : HoldsText U fold file1 t1) (hv : ∀ t ∈ [t0, t1], ∀ c ∈ t, Synctext.Showable U marks c.value) :
    ∃ P0 P1 : List (Option Nat × List Ch),
      Synctext.synctextMain U junk fs (prog :: args) =
        .ok (Synctext.rule ++ [10] ++ Synctext.printParts (Synctext.shown U marks) P0 ++ [10] ++ Synctext.rule ++ [10] ++
          Synctext.printParts (Synctext.shown U marks) P1 ++ [10] ++ Synctext.rule) ∧
      P0.flatMap Prod.snd = t0 ∧ P1.flatMap Prod.snd = t1 ∧
      (∃ k, P0.filterMap Prod.fst = List.range' 1 k ∧ (P1.filterMap Prod.fst).Perm (List.range' 1 k)) ∧
      (∀ x ∈ P0, ∀ y ∈ P1, x.1 ≠ none → x.1 = y.1 → x.2.map Ch.value = y.2.map Ch.value) ∧
      (∀ x ∈ P0, ∀ y ∈ P1, x.1 = none → y.1 = none → ∀ c ∈ x.2, ∀ d ∈ y.2, c.value ≠ 126 → c.value ≠ d.value) := by
  obtain ⟨P0, P1, e, h⟩ := Synctext.c55_transposed U F junk fs (decide (⟨.flag 0, []⟩ ∈ ss)) fold marks f0 f1 t0 t1
    (readTexts_eq (.cons h0 (.cons h1 .nil)) (.cons ht0 (.cons ht1 .nil)) false) hv
  refine ⟨P0, P1, ?_, h⟩
  rw [Synctext.c55_program U junk fs prog args [f0, f1] ss hc.prog hc.many hc.nul hc.some hc.parse hc.once, ← e]
  have e1 : decide (⟨.flag 1, []⟩ ∈ ss) = fold := by rw [Bool.eq_iff_iff, decide_eq_true_iff]; exact hi.symm
  have e2 : decide (⟨.flag 2, []⟩ ∈ ss) = marks := by rw [Bool.eq_iff_iff, decide_eq_true_iff]; exact hs.symm
  rw [e1, e2, decide_eq_true hT]

/-- C66 (synctext, refusals).  Fewer than two files, more than two with `-T`, more than 16, and files that cannot be opened are refused. -/
theorem c66_synctext_refuses (U : Unicode) (junk : List Nat) (hj : Bytes junk) (fs : Fs) (hfs : ∀ name file, fs name = some file → Bytes file)
    (prog : List Nat) (args names : List (List Nat)) (ss : List Args.Setting) (hc : CommandLine synctextTable prog args names ss)
    (h : names.length < 2 ∨ 16 < names.length ∨ (⟨.flag 3, []⟩ ∈ ss ∧ 2 < names.length) ∨ ∃ f ∈ names, fs f = none) :
    ∃ msg, Synctext.synctextMain U junk fs (prog :: args) = .err msg := by
  rw [Synctext.c55_program U junk fs prog args names ss hc.prog hc.many hc.nul hc.some hc.parse hc.once]
  generalize decide (⟨.flag 0, []⟩ ∈ ss) = a
  generalize decide (⟨.flag 1, []⟩ ∈ ss) = fold
  generalize decide (⟨.flag 2, []⟩ ∈ ss) = marks
  by_cases hn : names.length < 2 ∨ (decide (⟨.flag 3, []⟩ ∈ ss) = true ∧ names.length > 2)
  · unfold Synctext.run
    rw [if_pos hn]
    exact ⟨_, rfl⟩
  · have hr : ∀ (ns : List (List Nat)) (b : Bool),
        (∃ texts, Synctext.readTexts U junk fs ns { pageText fold with found_header := b } = .ok texts ∧ ∀ f ∈ ns, fs f ≠ none) ∨
        ∃ msg, Synctext.readTexts U junk fs ns { pageText fold with found_header := b } = .err msg := by
      intro ns
      induction ns with
      | nil => intro b; exact .inl ⟨[], rfl, by simp⟩
      | cons f ns ih =>
        intro b
        unfold Synctext.readTexts
        cases hf : fs f with
        | none => exact .inr ⟨_, rfl⟩
        | some file =>
          simp only
          rcases read_total U junk [] file { pageText fold with found_header := b } (hfs _ _ hf) hj with ⟨⟨t, o⟩, e⟩ | ⟨msg, e⟩
          · rw [e, bind_ok]
            simp only
            obtain ⟨b', rfl⟩ : ∃ b', o = { pageText fold with found_header := b' } := by
              exact read_opt e
            rcases ih b' with ⟨texts, e2, h2⟩ | ⟨msg, e2⟩
            · rw [e2, bind_ok]
              refine .inl ⟨_, rfl, ?_⟩
              intro g hg
              rcases List.mem_cons.1 hg with rfl | hg
              · rw [hf]; simp
              · exact h2 g hg
            · rw [e2]; exact .inr ⟨msg, rfl⟩
          · rw [e]; exact .inr ⟨msg, rfl⟩
    rcases hr names false with ⟨texts, e, hall⟩ | ⟨msg, e⟩
    · have h16 : 16 < names.length := by
        rcases h with h | h | h | ⟨f, hf, hnone⟩
        · omega
        · exact h
        · exact absurd (.inr ⟨by simpa using h.1, h.2⟩) hn
        · exact absurd hnone (hall f hf)
      have : decide (⟨.flag 3, []⟩ ∈ ss) = false := by
        cases hb : decide (⟨.flag 3, []⟩ ∈ ss) with
        | false => rfl
        | true => exact absurd (.inr ⟨hb, by omega⟩) hn
      rw [this]
      exact Synctext.c55_refuses U junk fs a fold marks names texts h16 e
    · unfold Synctext.run
      rw [if_neg hn, show Synctext.readTexts U junk fs names { Synctext.textopt with case_insensitive := fold } = _ from e]
      exact ⟨msg, rfl⟩

/-! ## Non-vacuity -/

def groupFs (group report : List Nat) : Fs := fun name => if name = ascii "x" then some group else some report

theorem list_group : IsList sampleUnicode true false (ascii "q te\n") (plain "q te\n") :=
  ((read_list sampleUnicode [] true false _ (bytes_ascii (by decide +kernel)) (by intro b hb; cases hb) (plain "q te\n")
    ⟨false, true, 0, true, false, false⟩).1 (by decide +kernel)).1

/-- `q` does not occur on the page, `t` occurs four times and `e` twice. -/
example : ∃ (R : List Nat) (items : List Sync.Sync) (str : Nat → List Nat),
    groupaccProgram sampleUnicode Acc.samplePct [] (groupFs (ascii "q te\n") R) [ascii "groupacc", ascii "x", ascii "y"] =
      .ok ⟨none, Groupacc.report Acc.samplePct (characterFigures sampleText0 items) str [116, 101]⟩ ∧
    ((characterFigures sampleText0 items).small_class 116).count = 4 := by
  obtain ⟨R, hR⟩ := sample_accuracy_report
  obtain ⟨str, hstr⟩ := Groupacc.strings_exist sampleUnicode
  obtain ⟨items, _, _, e⟩ := c66_groupacc sampleUnicode sampleFacts Acc.samplePct Acc.samplePct Acc.samplePct_format [] (by intro b hb; cases hb)
    (groupFs (ascii "q te\n") R) (ascii "groupacc") _ _ _ [] _ (two_line "groupacc" (by decide +kernel)) (by simp) _ rfl
    (bytes_ascii (by decide +kernel)) _ list_group (by decide +kernel) R rfl _ hR (by decide +kernel) (by decide +kernel) str hstr
  refine ⟨R, items, str, ?_, ?_⟩
  · rw [e]
    have : Groupacc.listed (characterFigures sampleText0 items) ((plain "q te\n").map Ch.value) = [116, 101] := by
      show ((plain "q te\n").map Ch.value).filter (fun v => decide (v ≠ 32) && decide (v ≠ 10) &&
        decide ((0 : Int) < (((sampleText0.map Ch.value).filter (fun v => v ≠ 126)).count v : Nat))) = [116, 101]
      decide +kernel
    rw [this]
    rfl
  · show ((((sampleText0.map Ch.value).filter (fun v => v ≠ 126)).count 116 : Nat) : Int) = 4
    decide +kernel

/-- Leaving out `on` and `the`, three words remain. -/
example : ∃ (R : List Nat) (flags : List Bool), flags.length = 6 ∧
    nonstopaccProgram sampleUnicode Word.wbProp some Acc.samplePct [] 0 (groupFs (ascii "On the") R) [ascii "nonstopacc", ascii "x", ascii "y"] =
      .ok ⟨none, Nonstopacc.lines Acc.samplePct (fun i => Wordacc.tally (fun w => decide (w ∉ (["on", "the"].map ascii).take i))
        (sampleWordPage.correct.zip flags)) 2⟩ := by
  obtain ⟨R, hR⟩ := sample_wordacc_report
  obtain ⟨flags, h1, _, h2⟩ := c66_nonstopacc sampleUnicode Word.wbProp some Acc.samplePct Acc.samplePct Acc.samplePct_format []
    (by intro b hb; cases hb) 0 (groupFs (ascii "On the") R) (ascii "nonstopacc") _ _ _ _ (two_line "nonstopacc" (by decide +kernel)) _ rfl
    (bytes_ascii (by decide +kernel)) _ list_s _ words_s (by decide +kernel) R rfl _ hR (by unfold Manageable; decide +kernel) (by decide +kernel)
  exact ⟨R, flags, h1, h2⟩

theorem synctext_line : CommandLine synctextTable (ascii "synctext") [ascii "-s", ascii "a", ascii "b"] [ascii "a", ascii "b"] [⟨.flag 2, []⟩] :=
  ⟨by decide +kernel, by decide +kernel, by decide +kernel, by simp,
    .flag (by unfold Args.Help; decide +kernel) (by decide) (.operand (by rintro ⟨c, r, e⟩; simp [ascii] at e)
      (.operand (by rintro ⟨c, r, e⟩; simp [ascii] at e) .nil)), by simp [Args.Once]⟩

theorem synctext_line_T : CommandLine synctextTable (ascii "synctext") [ascii "-T", ascii "a", ascii "b"] [ascii "a", ascii "b"] [⟨.flag 3, []⟩] :=
  ⟨by decide +kernel, by decide +kernel, by decide +kernel, by simp,
    .flag (by unfold Args.Help; decide +kernel) (by decide) (.operand (by rintro ⟨c, r, e⟩; simp [ascii] at e)
      (.operand (by rintro ⟨c, r, e⟩; simp [ascii] at e) .nil)), by simp [Args.Once]⟩

theorem synctext_line_plain : CommandLine synctextTable (ascii "synctext") [ascii "a", ascii "b"] [ascii "a", ascii "b"] [] :=
  ⟨by decide +kernel, by decide +kernel, by decide +kernel, by simp,
    .operand (by rintro ⟨c, r, e⟩; simp [ascii] at e) (.operand (by rintro ⟨c, r, e⟩; simp [ascii] at e) .nil), by simp [Args.Once]⟩

example : ∃ items, Sync.IsAlignment [sampleText0.map Ch.value, sampleText1.map Ch.value] items ∧
    Synctext.synctextMain sampleUnicode [] sampleFs [ascii "synctext", ascii "-s", ascii "a", ascii "b"] =
      .ok ((Synctext.docOf [sampleText0, sampleText1] items).print (Synctext.shown sampleUnicode true) [ascii "a", ascii "b"]) := by
  obtain ⟨items, h1, _, h2⟩ := c66_synctext sampleUnicode sampleFacts [] sampleFs _ _ _ _ synctext_line (by simp) false true (by simp) (by simp)
    (by simp) (by simp) ⟨ascii "a", by simp, by simp [ascii]⟩ (by decide +kernel) _
    (.cons (show sampleFs (ascii "a") = some (ascii "The cat sat\n on  the mat.") by decide +kernel)
      (.cons (show sampleFs (ascii "b") = some (ascii "The mat c^at sat\non the hat.") by decide +kernel) .nil)) [sampleText0, sampleText1]
    (.cons (.inl ⟨not_headed_a, sample_a⟩) (.cons (.inl ⟨not_headed_b, sample_b⟩) .nil)) (by unfold Synctext.Showable; decide +kernel)
  exact ⟨items, h1, h2⟩

example : ∃ out, Synctext.synctextMain sampleUnicode [] sampleFs [ascii "synctext", ascii "a", ascii "b"] = .ok out ∧
    Synctext.restore 2 1 1 out = ascii "The mat cat sat\non the hat." := by
  obtain ⟨out, h1, h2⟩ := c66_synctext_restores sampleUnicode sampleFacts [] sampleFs _ _ _ _ synctext_line_plain (by simp) (by simp) false (by simp)
    (by simp) (by simp) ⟨ascii "a", by simp, by simp [ascii]⟩ (by decide +kernel) (by decide +kernel) _
    (.cons (show sampleFs (ascii "a") = some (ascii "The cat sat\n on  the mat.") by decide +kernel)
      (.cons (show sampleFs (ascii "b") = some (ascii "The mat c^at sat\non the hat.") by decide +kernel) .nil)) [sampleText0, sampleText1]
    (.cons (.inl ⟨not_headed_a, sample_a⟩) (.cons (.inl ⟨not_headed_b, sample_b⟩) .nil)) (by decide +kernel)
  refine ⟨out, h1, (h2 1 (by simp)).trans ?_⟩
  decide +kernel

example : ∃ out, Synctext.synctextMain sampleUnicode [] sampleFs [ascii "synctext", ascii "-T", ascii "a", ascii "b"] = .ok out := by
  obtain ⟨P0, P1, h, _⟩ := c66_synctext_transposed sampleUnicode sampleFacts [] sampleFs _ _ _ _ _ synctext_line_T (by simp) false false (by simp)
    (by simp) _ _ (show sampleFs (ascii "a") = some (ascii "The cat sat\n on  the mat.") by decide +kernel)
    (show sampleFs (ascii "b") = some (ascii "The mat c^at sat\non the hat.") by decide +kernel) sampleText0 sampleText1
    (.inl ⟨not_headed_a, sample_a⟩) (.inl ⟨not_headed_b, sample_b⟩) (by unfold Synctext.Showable; decide +kernel)
  exact ⟨_, h⟩

end Ocr.Prog
