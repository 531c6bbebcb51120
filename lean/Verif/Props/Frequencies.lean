import Verif.Props.Programs
import Verif.Props.Wordfreq

/-!
# C64: ngram and wordfreq as a whole, from the command line to the listings written
-/

namespace Ocr.Prog
open Text Res Spec

/-! ## ngram -/

theorem table_ngram : Args.Table [(110, .value 0)] := ⟨by decide, by decide, by decide⟩

/-- A run over files one of which cannot be opened has no result. -/
theorem forFiles_none {α : Type} {fs : Fs} {step : α → List Nat → Res α} : ∀ {names : List (List Nat)} {name : List Nat},
    name ∈ names → fs name = none → ∀ a r, forFiles fs step names a ≠ .ok r
  | x :: names, name, hm, hn, a, r => by
    intro h
    unfold forFiles at h
    obtain ⟨file, e1, h⟩ := bind_eq_ok.1 h
    obtain ⟨a', _, h⟩ := bind_eq_ok.1 h
    rcases List.mem_cons.1 hm with rfl | hm
    · unfold open_file at e1; rw [hn] at e1; cases e1
    · exact forFiles_none hm hn a' r h

/-- C64 (ngram).  `ngram [-n number] file ...`: two listings of the runs of `n` consecutive characters of all the files, each once, with the
number of positions at which it occurs and the number of these with a suspect character; first in the order of the characters, then the
most frequent first.  The result goes to the standard output. -/
theorem c64_ngram (U : Unicode) (F : UnicodeFacts U) (signed : Bool) (junk : List Nat) (hj : Bytes junk) (fs : Fs) (prog : List Nat)
    (args names : List (List Nat)) (ss : List Args.Setting) (hc : CommandLine [(110, .value 0)] prog args names ss) (hne : names ≠ [])
    (nstring : Option (List Nat)) (hg : Given ss 0 nstring) (n : Nat) (hn : Ngram.Selected nstring n)
    (files : List (List Nat)) (hf : List.Forall₂ (fun name file => fs name = some file) names files) (hb : ∀ f ∈ files, Bytes f)
    (texts : List (List Ch)) (ht : List.Forall₂ (HoldsText U false) files texts)
    (W : List (List Ch)) (hW : W = texts.flatMap (Ngram.windows n)) (hl : W.length < 2^31) :
    ∃ rows1 rows2,
      ngramProgram U signed junk fs (prog :: args) = .ok ⟨none,
        Ngram.listing rows1 W.length (W.countP (fun w => w.any Ch.suspect)) ++ ascii "\n\n" ++
        Ngram.listing rows2 W.length (W.countP (fun w => w.any Ch.suspect))⟩ ∧
      Ngram.Counted U W rows1 ∧ rows1.Pairwise Ngram.ByValue ∧ Ngram.Counted U W rows2 ∧ rows2.Pairwise Ngram.ByCount := by
  subst hW
  obtain ⟨b, V, e, hV⟩ := init_args table_ngram hc
  obtain ⟨rows1, rows2, e1, h⟩ := Ngram.c44_report U F signed junk hj nstring n hn files
    (by rintro rfl; exact hne (by cases hf; rfl)) hb texts (texts_eq ht false) hl
  refine ⟨rows1, rows2, ?_, h⟩
  rw [ngram_eq (show Args.initialize_ (some Args.ngramOptions) true (prog :: args) start = _ from e) hf, given_eq hV hg, e1, bind_ok]

/-- C64 (ngram, refusals).  No file and a value of `-n` other than 1, 2 and 3 are refused.  There is no output if some file cannot be
opened; if the files before the first such one hold texts, this is the message. -/
theorem c64_ngram_refuses (U : Unicode) (F : UnicodeFacts U) (signed : Bool) (junk : List Nat) (hj : Bytes junk) (fs : Fs) (prog : List Nat)
    (args names : List (List Nat)) (ss : List Args.Setting) (hc : CommandLine [(110, .value 0)] prog args names ss) :
    (names = [] → ngramProgram U signed junk fs (prog :: args) = .err "no text files specified") ∧
    (∀ s, ⟨.value 0, s⟩ ∈ ss → (∀ b ∈ s, 0 < b ∧ b < 256) → s ∉ [[49], [50], [51]] → names ≠ [] →
      ngramProgram U signed junk fs (prog :: args) = .err "invalid value") ∧
    (∀ name ∈ names, fs name = none → ∀ out, ngramProgram U signed junk fs (prog :: args) ≠ .ok out) ∧
    (∀ nstring n pre name post files texts, Given ss 0 nstring → Ngram.Selected nstring n → names = pre ++ name :: post → fs name = none →
      List.Forall₂ (fun name file => fs name = some file) pre files → (∀ f ∈ files, Bytes f) → List.Forall₂ (HoldsText U false) files texts →
      ngramProgram U signed junk fs (prog :: args) = .err "unable to open file") := by
  obtain ⟨b, V, e, hV⟩ := init_args table_ngram hc
  have key : ngramProgram U signed junk fs (prog :: args) = (if names.length = 0 then .err "no text files specified" else do
      let n ← Ngram.get_n signed (V.string 0)
      let (_, t) ← forFiles fs (ngramFile U junk n) names (Ngram.textopt, ⟨[], 0, 0⟩)
      let bytes ← Ngram.write_report t
      return ⟨none, bytes⟩) := by
    unfold ngramProgram
    rw [show Args.initialize_ (some Args.ngramOptions) true (prog :: args) start = _ from e, bind_ok]
  rw [key]
  refine ⟨?_, ?_, ?_, ?_⟩
  · rintro rfl
    rfl
  · intro s hs hb hn hne
    rw [if_neg (fun h => hne (List.length_eq_zero_iff.1 h)), (hV.1 0 s).2 hs]
    rw [(Ngram.c44_option signed (some s) (by intro s' e; cases e; exact hb)).2 (by
      rintro ⟨n, ⟨h, _⟩ | ⟨h1, h3, h⟩⟩
      · cases h
      · cases h
        have : n = 1 ∨ n = 2 ∨ n = 3 := by omega
        rcases this with rfl | rfl | rfl <;> simp at hn)]
    rfl
  · intro name hm hn out h
    rw [if_neg (by intro h0; rw [List.length_eq_zero_iff.1 h0] at hm; cases hm)] at h
    obtain ⟨n, _, h⟩ := bind_eq_ok.1 h
    obtain ⟨a, h, _⟩ := bind_eq_ok.1 h
    exact forFiles_none hm hn _ _ h
  · rintro nstring n pre name post files texts hg hs rfl hn hf hb ht
    rw [if_neg (by simp), given_eq hV hg, (Ngram.c44_option signed nstring (by
      intro s es
      rcases hs with ⟨h, _⟩ | ⟨h1, h3, h⟩
      · rw [h] at es; cases es
      · rw [h] at es; cases es
        intro b hb
        have := List.mem_singleton.1 hb
        omega)).1 n hs, bind_ok, forFiles_missing hf hn]
    have hn' : 1 ≤ n ∧ n ≤ 3 := by
      rcases hs with ⟨_, rfl⟩ | ⟨h1, h3, _⟩
      · omega
      · exact ⟨h1, h3⟩
    obtain ⟨t, e1, _⟩ := Ngram.process_spec F hj hn'.1 hn'.2 (opt := Ngram.textopt) rfl (texts_eq ht false) hb [] ⟨[], 0, 0⟩
      ⟨Store.tallied_nil _ _, rfl, rfl⟩ (by intro w hw; cases hw)
    rw [ngram_process] at e1
    obtain ⟨a, e2, _⟩ := bind_eq_ok.1 e1
    rw [e2]
    rfl

theorem line_or_refused {T : List (Nat × Args.Kind)} (hT : Args.Table T) {prog : List Nat} {args : List (List Nat)}
    (hp : prog.length ≤ 32768) (hl : args.length < 32768) (h0 : ∀ a ∈ args, 0 ∉ a) :
    (∃ ops ss, CommandLine T prog args ops ss) ∨ ∃ msg, Args.initialize_ (some (T.map Args.optOf)) true (prog :: args) start = .err msg := by
  by_cases hu : args = []
  · exact .inr ⟨"usage", (Args.c52_rejects T hT true prog args hp hl h0 _).2 (.inl ⟨hu, rfl, rfl⟩)⟩
  · rcases Args.parse_or_fault T args.length args (Nat.le_refl _) [] (by simp [Args.Once]) with
      ⟨ops', ss, h1, h2⟩ | ⟨pre, a, post, ops', ss, s, h1, h2, h3, h4⟩
    · exact .inl ⟨ops', ss, hp, hl, h0, hu, h1, by simpa using h2⟩
    · exact .inr ⟨s, (Args.c52_rejects T hT true prog args hp hl h0 s).2 (.inr ⟨pre, a, post, ops', ss, h1, h2, by simpa using h3, by simpa using h4⟩)⟩

/-- The values of options are parts of the arguments. -/
theorem parse_bytes {T : List (Nat × Args.Kind)} {args ops : List (List Nat)} {ss : List Args.Setting} (h : Args.Parse T args ops ss)
    {P : Nat → Prop} (hP : ∀ a ∈ args, ∀ b ∈ a, P b) : ∀ s ∈ ss, ∀ b ∈ s.given, P b := by
  induction h with
  | nil => intro s hs; cases hs
  | operand _ _ ih => exact ih (fun a ha => hP a (by simp [ha]))
  | flag _ _ _ ih =>
    intro s hs
    rcases List.mem_cons.1 hs with rfl | hs
    · intro b hb; cases hb
    · exact ih (fun a ha => hP a (by simp [ha])) s hs
  | attached _ _ _ ih =>
    intro s hs
    rcases List.mem_cons.1 hs with rfl | hs
    · intro b hb; exact hP _ (List.mem_cons_self ..) b (by simp only [List.mem_cons] at hb ⊢; tauto)
    · exact ih (fun a ha => hP a (by simp [ha])) s hs
  | separate _ _ _ ih =>
    intro s hs
    rcases List.mem_cons.1 hs with rfl | hs
    · intro b hb; exact hP _ (List.mem_cons_of_mem _ (List.mem_cons_self ..)) b hb
    · exact ih (fun a ha => hP a (by simp [ha])) s hs

theorem texts_total {U : Unicode} {junk : List Nat} (hj : Bytes junk) (P : Textopt → List (List Nat) → Prop)
    (hstop : ∀ b file files msg, read_text U junk [] file { textopt with found_header := b } = .err msg →
      P { textopt with found_header := b } (file :: files))
    (hstep : ∀ b b' file files text, Bytes file → read_text U junk [] file { textopt with found_header := b } = .ok (text, { textopt with found_header := b' }) →
      P { textopt with found_header := b' } files → P { textopt with found_header := b } (file :: files)) :
    ∀ (files : List (List Nat)) (b : Bool), (∀ f ∈ files, Bytes f) →
      (∃ texts, Texts U junk { textopt with found_header := b } files texts ∧ (texts.map List.length).sum ≤ (files.map List.length).sum ∧
        ∀ t ∈ texts, ∀ c ∈ t, c.value < 0x110000) ∨
      P { textopt with found_header := b } files
  | [], b, _ => .inl ⟨[], .nil, by simp, by simp⟩
  | file :: files, b, hf => by
    have hb := hf file (by simp)
    rcases read_total U junk [] file { textopt with found_header := b } hb hj with ⟨⟨t, o⟩, e⟩ | ⟨msg, e⟩
    · obtain ⟨hl, hv, b', rfl⟩ := read_bounds hb hj e
      rcases texts_total hj P hstop hstep files b' (fun f h => hf f (by simp [h])) with ⟨texts, h1, h2, h3⟩ | h
      · refine .inl ⟨t :: texts, .cons e h1, by simp only [List.map_cons, List.sum_cons]; omega, ?_⟩
        intro u hu c hc
        rcases List.mem_cons.1 hu with rfl | hu
        · exact (hv c hc).1
        · exact h3 u hu c hc
      · exact .inr (hstep b b' file files t hb e h)
    · exact .inr (hstop b file files msg e)

theorem windows_length (n : Nat) (texts : List (List Ch)) (hn : 1 ≤ n) :
    (texts.flatMap (Ngram.windows n)).length ≤ (texts.map List.length).sum := by
  induction texts with
  | nil => simp
  | cons t texts ih =>
    have : (Ngram.windows n t).length ≤ t.length := by
      unfold Ngram.windows; rw [List.length_map, List.length_range]; omega
    rw [List.flatMap_cons, List.length_append, List.map_cons, List.sum_cons]
    omega

/-- C64 (ngram, all runs).  Whatever the arguments and the files, a run ends with the listings or with a message, provided that the files
together have less than 2^31 bytes. -/
theorem c64_ngram_total (U : Unicode) (F : UnicodeFacts U) (signed : Bool) (junk : List Nat) (hj : Bytes junk) (fs : Fs)
    (hfs : ∀ name file, fs name = some file → Bytes file) (prog : List Nat) (args : List (List Nat)) (hprog : prog.length ≤ 32768)
    (hargs : args.length < 32768) (hnul : ∀ a ∈ args, ∀ b ∈ a, 0 < b ∧ b < 256)
    (hsize : ∀ names ss files, CommandLine [(110, .value 0)] prog args names ss →
      List.Forall₂ (fun name file => fs name = some file) names files → (files.map List.length).sum < 2^31) :
    (∃ out, ngramProgram U signed junk fs (prog :: args) = .ok out) ∨ ∃ msg, ngramProgram U signed junk fs (prog :: args) = .err msg := by
  rcases line_or_refused table_ngram hprog hargs (fun a ha h => by have := hnul a ha 0 h; omega) with ⟨names, ss, hc⟩ | ⟨msg, e⟩
  · obtain ⟨b, V, e, hV⟩ := init_args table_ngram hc
    have hs : ∀ s, V.string 0 = some s → ∀ b ∈ s, 0 < b ∧ b < 256 := by
      intro s hs
      exact parse_bytes hc.parse hnul _ ((hV.1 0 s).1 hs)
    have opt := Ngram.c44_option signed (V.string 0) hs
    have key : ngramProgram U signed junk fs (prog :: args) = (if names.length = 0 then .err "no text files specified" else do
        let n ← Ngram.get_n signed (V.string 0)
        let (_, t) ← forFiles fs (ngramFile U junk n) names (Ngram.textopt, ⟨[], 0, 0⟩)
        let bytes ← Ngram.write_report t
        return ⟨none, bytes⟩) := by
      unfold ngramProgram
      rw [show Args.initialize_ (some Args.ngramOptions) true (prog :: args) start = _ from e, bind_ok]
    by_cases hn : ∃ n, Ngram.Selected (V.string 0) n
    · obtain ⟨n, hn⟩ := hn
      have hn' : 1 ≤ n ∧ n ≤ 3 := by
        rcases hn with ⟨_, rfl⟩ | ⟨h1, h3, _⟩
        · omega
        · exact ⟨h1, h3⟩
      have over : ∀ files : List (List Nat), (∀ f ∈ files, Bytes f) →
          (∃ texts, Texts U junk Ngram.textopt files texts ∧ (texts.map List.length).sum ≤ (files.map List.length).sum) ∨
          ∃ msg, Ngram.processFiles U junk n Ngram.textopt files ⟨[], 0, 0⟩ = .err msg := by
        intro files hb
        rcases texts_total (U := U) hj
            (fun o files => ∀ W t, Ngram.TI U W t → Ngram.Grams n W → ∃ msg, Ngram.processFiles U junk n o files t = .err msg)
            (by
              intro b file files msg e W t _ _
              refine ⟨msg, ?_⟩
              unfold Ngram.processFiles
              rw [e]; rfl)
            (by
              intro b b' file files text hbf e ih W t hT hW
              obtain ⟨t', e', hT', hW'⟩ := Ngram.process_spec F hj hn'.1 hn'.2 (opt := { textopt with found_header := b }) rfl
                (.cons e .nil) (by intro f hf; rw [List.mem_singleton.1 hf]; exact hbf) W t hT hW
              obtain ⟨msg, em⟩ := ih _ _ hT' hW'
              refine ⟨msg, ?_⟩
              unfold Ngram.processFiles at e' ⊢
              rw [e, bind_ok] at e' ⊢
              simp only at e' ⊢
              obtain ⟨t2, e2, e3⟩ := bind_eq_ok.1 e'
              unfold Ngram.processFiles at e3
              cases e3
              rw [e2, bind_ok, em])
            files false hb with ⟨texts, h1, h2, _⟩ | h
        · exact .inl ⟨texts, h1, h2⟩
        · exact .inr (h [] ⟨[], 0, 0⟩ ⟨Store.tallied_nil _ _, rfl, rfl⟩ (by intro w hw; cases hw))
      have bytes : ∀ {names files : List (List Nat)}, List.Forall₂ (fun name file => fs name = some file) names files →
          ∀ f ∈ files, Bytes f := by
        intro names files hf
        induction hf with
        | nil => simp
        | cons h _ ih => intro f hm; rcases List.mem_cons.1 hm with rfl | hm; exact hfs _ _ h; exact ih f hm
      rcases opened_or fs names with ⟨files, hf⟩ | ⟨pre, name, post, files, rfl, hf, hx⟩
      · have hsz := hsize names ss files hc hf
        have hb := bytes hf
        rw [ngram_eq (show Args.initialize_ (some Args.ngramOptions) true (prog :: args) start = _ from e) hf]
        by_cases hfe : files = []
        · subst hfe; exact .inr ⟨_, rfl⟩
        rcases over files hb with ⟨texts, h1, h2⟩ | ⟨msg, em⟩
        · obtain ⟨_, _, er, _⟩ := Ngram.c44_report U F signed junk hj (V.string 0) n hn files hfe hb texts h1 (by
            have hw := windows_length n texts hn'.1
            omega)
          rw [er]; exact .inl ⟨_, rfl⟩
        · right
          refine ⟨msg, ?_⟩
          unfold Ngram.ngramMain
          rw [if_neg (by intro h; exact hfe (List.length_eq_zero_iff.1 h)), opt.1 n hn, bind_ok, em]
          rfl
      · right
        rw [key, if_neg (by simp), opt.1 n hn, bind_ok, forFiles_missing hf hx]
        rcases over files (bytes hf) with ⟨texts, h1, h2⟩ | ⟨msg, em⟩
        · obtain ⟨t, e1, _⟩ := Ngram.process_spec F hj hn'.1 hn'.2 (opt := Ngram.textopt) rfl h1 (bytes hf) [] ⟨[], 0, 0⟩
            ⟨Store.tallied_nil _ _, rfl, rfl⟩ (by intro w hw; cases hw)
          rw [ngram_process] at e1
          obtain ⟨a, e2, _⟩ := bind_eq_ok.1 e1
          rw [e2]; exact ⟨_, rfl⟩
        · rw [ngram_process] at em
          refine ⟨msg, ?_⟩
          revert em
          cases overFiles (ngramFile U junk n) files (Ngram.textopt, ⟨[], 0, 0⟩) with
          | err m => intro h; cases h; rfl
          | ok | ub | fuel => intro h; cases h
    · right
      rw [key]
      split
      · exact ⟨_, rfl⟩
      · rw [opt.2 hn]; exact ⟨_, rfl⟩
  · unfold ngramProgram
    rw [show Args.initialize_ (some Args.ngramOptions) true (prog :: args) start = _ from e]
    exact .inr ⟨msg, rfl⟩

/-! ## wordfreq -/

/-- C64 (wordfreq).  `wordfreq file ...`: two listings of the words of all the files, each once, with the number of its occurrences; first
in the order of the words, then the most frequent first.  The total is the number of words. -/
theorem c64_wordfreq (U : Unicode) (prop : Nat → Word.WB) (nfc : List Nat → Option (List Nat)) (junk : List Nat) (junk' : Nat) (fs : Fs)
    (prog : List Nat) (args names : List (List Nat)) (ss : List Args.Setting) (hc : CommandLine [] prog args names ss)
    (files : List (List Nat)) (hf : List.Forall₂ (fun name file => fs name = some file) names files)
    (texts : List (List Ch)) (ht : List.Forall₂ (HoldsText U true) files texts)
    (wss : List (List (List Nat))) (hw : List.Forall₂ (HasWords U prop nfc) texts wss)
    (hnul : ∀ w ∈ wss.flatten, 0 ∉ w) (hl : wss.flatten.length < 2^31) :
    ∃ rows1 rows2, wordfreqProgram U prop nfc junk junk' fs (prog :: args) =
        .ok ⟨none, Wordfreq.listing rows1 wss.flatten.length ++ ascii "\n\n" ++ Wordfreq.listing rows2 wss.flatten.length⟩ ∧
      Wordfreq.Counted wss.flatten rows1 ∧ rows1.Pairwise (fun x y => x.1 < y.1) ∧
      Wordfreq.Counted wss.flatten rows2 ∧ rows2.Pairwise (fun x y => y.2 < x.2 ∨ (x.2 = y.2 ∧ x.1 < y.1)) := by
  obtain ⟨b, V, e⟩ := init_none hc
  have hne : names ≠ [] := by
    rintro rfl
    have := hc.parse
    cases hp : args with
    | nil => exact hc.some hp
    | cons a args => rw [hp] at this; cases this <;> rename_i h _ <;> simp at h
  obtain ⟨rows1, rows2, e1, h1, _, h2, h3, _, h4⟩ := Wordfreq.c45_report U prop nfc junk junk' files
    (by rintro rfl; exact hne (by cases hf; rfl)) texts (texts_eq ht false) wss (hw.imp (fun _ _ h => words_eq h))
    (by intro w hw c hc e; exact hnul w hw (e ▸ hc)) hl
  refine ⟨rows1, rows2, ?_, h1, h2, h3, h4⟩
  rw [wordfreq_eq e hf, e1]
  rfl

/-- C64 (wordfreq, refusals).  There is no output if some file cannot be opened; if the files before the first such one hold texts made of
words, this is the message. -/
theorem c64_wordfreq_refuses (U : Unicode) (prop : Nat → Word.WB) (nfc : List Nat → Option (List Nat)) (junk : List Nat) (junk' : Nat) (fs : Fs)
    (prog : List Nat) (args names : List (List Nat)) (ss : List Args.Setting) (hc : CommandLine [] prog args names ss) :
    (∀ name ∈ names, fs name = none → ∀ out, wordfreqProgram U prop nfc junk junk' fs (prog :: args) ≠ .ok out) ∧
    (∀ pre name post files texts wss, names = pre ++ name :: post → fs name = none →
      List.Forall₂ (fun name file => fs name = some file) pre files → List.Forall₂ (HoldsText U true) files texts →
      List.Forall₂ (HasWords U prop nfc) texts wss →
      wordfreqProgram U prop nfc junk junk' fs (prog :: args) = .err "unable to open file") := by
  obtain ⟨b, V, e⟩ := init_none hc
  have key : wordfreqProgram U prop nfc junk junk' fs (prog :: args) = (if names.length = 0 then .err "no text files specified" else do
      let (_, t) ← forFiles fs (wordfreqFile U prop nfc junk junk') names (Wordfreq.textopt, [])
      let bytes ← Wordfreq.write_report t
      return ⟨none, bytes⟩) := by
    unfold wordfreqProgram
    rw [e, bind_ok]
  rw [key]
  constructor
  · intro name hm hn out h
    rw [if_neg (by intro h0; rw [List.length_eq_zero_iff.1 h0] at hm; cases hm)] at h
    obtain ⟨a, h, _⟩ := bind_eq_ok.1 h
    exact forFiles_none hm hn _ _ h
  · rintro pre name post files texts wss rfl hn hf ht hw
    obtain ⟨t, e1, _⟩ := Wordfreq.process_spec (prop := prop) (nfc := nfc) (junk' := junk') (opt := Wordfreq.textopt) (texts_eq ht false) wss
      (hw.imp (fun _ _ h => words_eq h)) [] [] (Store.tallied_nil _ _)
    rw [wordfreq_process] at e1
    obtain ⟨a, e2, _⟩ := bind_eq_ok.1 e1
    rw [if_neg (by simp), forFiles_missing hf hn, e2]
    rfl

/-! ## Non-vacuity -/

theorem ngram_line : CommandLine [(110, .value 0)] (ascii "ngram") [ascii "-n", ascii "2", ascii "a", ascii "h"] [ascii "a", ascii "h"]
    [⟨.value 0, ascii "2"⟩] :=
  ⟨by decide +kernel, by decide +kernel, by decide +kernel, by simp,
    .separate (by unfold Args.Help; decide +kernel) (by decide) (.operand (by rintro ⟨c, r, e⟩; simp [ascii] at e)
      (.operand (by rintro ⟨c, r, e⟩; simp [ascii] at e) .nil)), by simp [Args.Once]⟩

/-- `ngram -n 2 a h`: 44 pairs of characters, two of them with the suspect `m`. -/
example : ∃ rows1 rows2, ngramProgram sampleUnicode true [] sampleFs [ascii "ngram", ascii "-n", ascii "2", ascii "a", ascii "h"] =
      .ok ⟨none, Ngram.listing rows1 44 2 ++ ascii "\n\n" ++ Ngram.listing rows2 44 2⟩ ∧
    Ngram.Counted sampleUnicode ([sampleText0, sampleText2].flatMap (Ngram.windows 2)) rows1 ∧
    ⟨ascii "at", [97, 116], 6, 0⟩ ∈ rows2 := by
  obtain ⟨rows1, rows2, h1, h2, _, h4, _⟩ := c64_ngram sampleUnicode sampleFacts true [] (by intro b hb; cases hb) sampleFs (ascii "ngram") _ _ _
    ngram_line (by simp) (some (ascii "2")) (by intro x; simp [eq_comm]) 2 (.inr ⟨by omega, by omega, rfl⟩)
    [ascii "The cat sat\n on  the mat.", TITLE ++ DIVIDER ++ DIVIDER ++ ascii "The cat sat\non the ^mat."]
    (.cons (by decide +kernel) (.cons (by decide +kernel) .nil))
    (by
      intro f hf
      simp only [List.mem_cons, List.not_mem_nil, or_false] at hf
      rcases hf with rfl | rfl
      · exact bytes_ascii (by decide +kernel)
      · exact bytes_ascii (by decide +kernel))
    _ sample_texts _ rfl (by decide +kernel)
  have e1 : ([sampleText0, sampleText2].flatMap (Ngram.windows 2)).length = 44 := by decide +kernel
  have e2 : ([sampleText0, sampleText2].flatMap (Ngram.windows 2)).countP (fun w => w.any Ch.suspect) = 2 := by decide +kernel
  rw [e1, e2] at h1
  refine ⟨rows1, rows2, h1, h2, ?_⟩
  obtain ⟨r, hr, e⟩ := List.mem_map.1 ((h4.occur [97, 116]).2 (by decide +kernel))
  have c1 := h4.count r hr; have c2 := h4.suspect r hr; have c3 := h4.key r hr
  rw [e] at c1 c2 c3
  rw [show Ngram.occurrences ([sampleText0, sampleText2].flatMap (Ngram.windows 2)) [97, 116] = 6 by decide +kernel] at c1
  rw [show Ngram.suspects ([sampleText0, sampleText2].flatMap (Ngram.windows 2)) [97, 116] = 0 by decide +kernel] at c2
  rw [show Ngram.ngramKey sampleUnicode [97, 116] = .ok (ascii "at") by decide +kernel] at c3
  have : r = ⟨ascii "at", [97, 116], 6, 0⟩ := by
    cases r
    simp only [Res.ok.injEq] at e c1 c2 c3
    rw [e, c1, c2, ← c3]; rfl
  rw [← this]; exact hr

example : ngramProgram sampleUnicode true [] sampleFs [ascii "ngram", ascii "-n", ascii "4", ascii "a"] = .err "invalid value" ∧
    ngramProgram sampleUnicode true [] sampleFs [ascii "ngram", ascii "-n2"] = .err "no text files specified" ∧
    ngramProgram sampleUnicode true [] sampleFs [ascii "ngram", ascii "-n2", ascii "a", ascii "x"] = .err "unable to open file" ∧
    ngramProgram sampleUnicode true [] sampleFs [ascii "ngram", ascii "-n4", ascii "x"] = .err "invalid value" := by
  decide +kernel

/-- `wordfreq a b report`. -/
example : ∃ rows1 rows2, wordfreqProgram sampleUnicode Word.wbProp some [] 0 sampleFs [ascii "wordfreq", ascii "a", ascii "b", ascii "report"] =
      .ok ⟨none, Wordfreq.listing rows1 19 ++ ascii "\n\n" ++ Wordfreq.listing rows2 19⟩ ∧ (ascii "the", 6) ∈ rows1 := by
  obtain ⟨rows1, rows2, h1, h2, _⟩ := c64_wordfreq sampleUnicode Word.wbProp some [] 0 sampleFs (ascii "wordfreq") _ _ _
    (sample_line [] "wordfreq" (by decide +kernel))
    _ (.cons (by decide +kernel) (.cons (by decide +kernel) (.cons (by decide +kernel) .nil)))
    _ (.cons (.inl ⟨not_headed_a, page_a⟩) (.cons (.inl ⟨not_headed_b, page_b⟩) (.cons (.inl ⟨not_headed_a, page_a⟩) .nil)))
    _ (.cons words_a (.cons words_b (.cons words_a .nil))) (by decide +kernel) (by decide +kernel)
  refine ⟨rows1, rows2, h1, ?_⟩
  obtain ⟨r, hr, e⟩ := List.mem_map.1 ((h2.occur (ascii "the")).2 (by decide +kernel))
  have c1 := h2.count r hr
  rw [e] at c1
  rw [show r = (ascii "the", 6) from Prod.ext e (c1.trans (by decide +kernel))] at hr
  exact hr

end Ocr.Prog
