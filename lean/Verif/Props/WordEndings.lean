import Verif.Proof.WordEndings
import Verif.Props.TextEndings

/-!
# C74: how wordacc, groupacc and nonstopacc end, whatever the files
-/

namespace Ocr.Ending
open Text Res Prog Spec AnyText AnyReport

section
variable (U : Unicode) (junk : List Nat) (hj : Bytes junk) (fs : Fs)
  (hfs : ∀ name file, fs name = some file → Bytes file) (prog : List Nat) (args : List (List Nat))
  (hprog : prog.length ≤ 32768) (hargs : args.length < 32768) (hnul : ∀ a ∈ args, 0 ∉ a)
include hj hfs hprog hargs hnul

/-- C74 (wordacc).  There is a report exactly if the stopwords, and then the words of both texts, are read, at most 65535 of the
correct words occur in the other text, and no correct word is longer than 50 bytes.  The program goes astray exactly if a word that
cannot be normalized is met first, or a correct word is too long. -/
theorem c74_wordacc (L : Lower U) (prop : Nat → Word.WB) (nfc : List Nat → Option (List Nat)) (pct : Int → Int → List Nat) (junk' : Nat) :
    EndsAs (wordaccMain U prop nfc pct junk junk' fs (prog :: args))
    (∃ names ss, CommandLine [(83, .value 0)] prog args names ss ∧ (names.length = 2 ∨ names.length = 3) ∧ ∃ s, Given ss 0 s ∧
      Stops fs (fun f => ∃ ws, ReadsList U prop nfc f ws) s ∧
      ∃ f0 n1, Correct fs names f0 n1 ∧ ∃ f1, fs n1 = some f1 ∧ ∃ u v, ReadsWords U prop nfc f0 u ∧ ReadsWords U prop nfc f1 v ∧
        common u v ≤ 65535 ∧ ∀ w ∈ u, w.length ≤ 50)
    (∃ names ss, CommandLine [(83, .value 0)] prog args names ss ∧ (names.length = 2 ∨ names.length = 3) ∧ ∃ s, Given ss 0 s ∧
      (BadStops fs (BadList U prop nfc) s ∨ Stops fs (fun f => ∃ ws, ReadsList U prop nfc f ws) s ∧
      ∃ f0 n1, Correct fs names f0 n1 ∧ (BadWords U prop nfc f0 ∨ ∃ u, ReadsWords U prop nfc f0 u ∧ ∃ f1, fs n1 = some f1 ∧
        (BadWords U prop nfc f1 ∨ ∃ v, ReadsWords U prop nfc f1 v ∧ common u v ≤ 65535 ∧ ∃ w ∈ u, 50 < w.length)))) := by
  refine options_end table_wordacc hprog hargs hnul
    (main := fun names V => if names.length < 2 ∨ names.length > 3 then .err "invalid number of files" else
      initStopwords U prop nfc junk junk' fs (V.string 0) >>= fun S => readWords U prop nfc junk junk' fs names >>= fun p =>
        Wordacc.wordacc (fun w => decide (Stopword.is_stopword w S = .ok true)) p.1 p.2 >>= fun D =>
          Wac.write_wacrpt pct D >>= fun bytes => .ok (⟨names[2]?, bytes⟩ : Output)) rfl (fun names ss V _ hV => two_files ?_)
  have given : ∀ s, Given ss 0 s ↔ s = V.string 0 := given_iff hV 0
  simp only [given, exists_eq_left]
  rintro n0 n1 rest rfl
  refine ((init_ends U L hj prop nfc junk' hfs (V.string 0)).then (fun S _ =>
    (readWords_gives U L hj prop nfc junk' hfs n0 n1 rest).then (fun p _ =>
      (wordacc_ends _ p.1 p.2).bind (fun D _ => by
        obtain ⟨bytes, e⟩ := write_wacrpt_total pct D
        exact ⟨_, by rw [e, bind_ok]⟩)))).imp ?_ ?_
  · refine and_congr_right' ⟨?_, ?_⟩
    · rintro ⟨⟨u, v⟩, ⟨f0, ⟨h0, hh⟩, hu, f1, h1, hv⟩, hm, hw⟩
      exact ⟨f0, n1, ⟨n0, rest, rfl, h0, hh⟩, f1, h1, u, v, hu, hv, hm, hw⟩
    · rintro ⟨f0, n1', ⟨n0', rest', e, h0, hh⟩, f1, h1, u, v, hu, hv, hm, hw⟩
      cases e
      exact ⟨(u, v), ⟨f0, ⟨h0, hh⟩, hu, f1, h1, hv⟩, hm, hw⟩
  · refine or_congr_right (and_congr_right' ⟨?_, ?_⟩)
    · rintro (⟨f0, ⟨h0, hh⟩, hb | ⟨⟨u, hu⟩, f1, h1, hb⟩⟩ | ⟨⟨u, v⟩, ⟨f0, ⟨h0, hh⟩, hu, f1, h1, hv⟩, hm, hw⟩)
      · exact ⟨f0, n1, ⟨n0, rest, rfl, h0, hh⟩, .inl hb⟩
      · exact ⟨f0, n1, ⟨n0, rest, rfl, h0, hh⟩, .inr ⟨u, hu, f1, h1, .inl hb⟩⟩
      · exact ⟨f0, n1, ⟨n0, rest, rfl, h0, hh⟩, .inr ⟨u, hu, f1, h1, .inr ⟨v, hv, hm, hw⟩⟩⟩
    · rintro ⟨f0, n1', ⟨n0', rest', e, h0, hh⟩, hb | ⟨u, hu, f1, h1, hb | ⟨v, hv, hm, hw⟩⟩⟩
      · cases e
        exact .inl ⟨f0, ⟨h0, hh⟩, .inl hb⟩
      · cases e
        exact .inl ⟨f0, ⟨h0, hh⟩, .inr ⟨⟨u, hu⟩, f1, h1, hb⟩⟩
      · cases e
        exact .inr ⟨(u, v), ⟨f0, ⟨h0, hh⟩, hu, f1, h1, hv⟩, hm, hw⟩

/-- C74 (groupacc).  There is a report exactly if the list of characters and then the accuracy report are read and the list does not
contain U+10FFFF.  The program goes astray exactly if it does in reading the report, or both are read and the list contains
U+10FFFF. -/
theorem c74_groupacc (F : UnicodeFacts U) (pct : Int → Int → List Nat) : EndsAs (groupaccProgram U pct junk fs (prog :: args))
    (∃ names ss, CommandLine [] prog args names ss ∧ (names.length = 2 ∨ names.length = 3) ∧
      ∃ n0 n1 rest g t r, names = n0 :: n1 :: rest ∧ fs n0 = some g ∧ IsList U true false g t ∧ fs n1 = some r ∧
        (∃ o, ReadsAccuracy r o) ∧ ∀ c ∈ t, c.value ≠ 0x10FFFF)
    (∃ names ss, CommandLine [] prog args names ss ∧ (names.length = 2 ∨ names.length = 3) ∧
      ∃ n0 n1 rest g t r, names = n0 :: n1 :: rest ∧ fs n0 = some g ∧ IsList U true false g t ∧ fs n1 = some r ∧
        (BadAccuracy r ∨ (∃ o, ReadsAccuracy r o) ∧ ∃ c ∈ t, c.value = 0x10FFFF)) := by
  refine line_ends hprog hargs hnul (main := fun names => if names.length < 2 ∨ names.length > 3 then .err "invalid number of files" else
    rd names 0 >>= fun name0 => readFile U junk fs name0 Groupacc.textopt >>= fun p => rd names 1 >>= fun name1 =>
      open_file fs name1 >>= fun report => Acc.read_accrpt Acc.Accdata.zero report >>= fun D =>
        Groupacc.write_report U pct p.1 D >>= fun bytes => .ok (⟨names[2]?, bytes⟩ : Output)) rfl (fun names => two_files ?_)
  rintro n0 n1 rest rfl
  rw [show rd (n0 :: n1 :: rest) 0 = .ok n0 from rfl, bind_ok]
  unfold readFile
  rw [Prog.assoc]
  refine ((open_gives fs n0).then (fun g hg => (list_gives U hj true false (hfs _ _ hg)).then
    (good := fun p => ∃ r, fs n1 = some r ∧ (∃ o, ReadsAccuracy r o) ∧ ∀ c ∈ p.1, c.value ≠ 0x10FFFF)
    (bad := fun p => ∃ r, fs n1 = some r ∧ (BadAccuracy r ∨ (∃ o, ReadsAccuracy r o) ∧ ∃ c ∈ p.1, c.value = 0x10FFFF)) ?_)).imp ?_ ?_
  · rintro ⟨t, o⟩ ⟨ht, _⟩
    rw [show rd (n0 :: n1 :: rest) 1 = .ok n1 from rfl, bind_ok]
    have hv := list_value' ht
    refine ((open_gives fs n1).then (good := fun r => (∃ o, ReadsAccuracy r o) ∧ ∀ c ∈ t, c.value ≠ 0x10FFFF)
      (bad := fun r => BadAccuracy r ∨ (∃ o, ReadsAccuracy r o) ∧ ∃ c ∈ t, c.value = 0x10FFFF) (fun r hr =>
      (accuracy_gives (hfs _ _ hr)).then (fun D _ => EndsAs.map ?_ _))).imp Iff.rfl (by simp)
    by_cases hx : ∃ c ∈ t, c.value = 0x10FFFF
    · refine .ub ?_ (fun g => ?_) hx
      · unfold Groupacc.write_report
        rw [group_last pct D t 0 0 hv hx]
        rfl
      · obtain ⟨c, hc, hl⟩ := hx
        exact g c hc hl
    · obtain ⟨str, hstr⟩ := Groupacc.strings_exist U
      exact .ok _ (Groupacc.c51_report U F pct t D (fun c hc => by
        have h1 := hv c hc
        have h2 : c.value ≠ 0x10FFFF := fun h => hx ⟨c, hc, h⟩
        omega) str hstr) (fun c hc h => hx ⟨c, hc, h⟩) hx
  · constructor
    · rintro ⟨g, h0, ⟨t, o⟩, ⟨ht, _⟩, r, h1, h2, h3⟩
      exact ⟨n0, n1, rest, g, t, r, rfl, h0, ht, h1, h2, h3⟩
    · rintro ⟨n0', n1', rest', g, t, r, e, h0, ht, h1, h2, h3⟩
      cases e
      exact ⟨g, h0, (t, _), ⟨ht, rfl⟩, r, h1, h2, h3⟩
  · constructor
    · rintro (h | ⟨g, h0, h | ⟨⟨t, o⟩, ⟨ht, _⟩, r, h1, h2⟩⟩)
      · exact h.elim
      · exact h.elim
      · exact ⟨n0, n1, rest, g, t, r, rfl, h0, ht, h1, h2⟩
    · rintro ⟨n0', n1', rest', g, t, r, e, h0, ht, h1, h2⟩
      cases e
      exact .inr ⟨g, h0, .inr ⟨(t, _), ⟨ht, rfl⟩, r, h1, h2⟩⟩

/-- C74 (nonstopacc).  There is output exactly if the list of words and then the report of word accuracy are read, and no word that
cannot be normalized is reached before all words of the report are taken off. -/
theorem c74_nonstopacc (L : Lower U) (prop : Nat → Word.WB) (nfc : List Nat → Option (List Nat)) (pct : Int → Int → List Nat) (junk' : Nat) :
    EndsAs (nonstopaccProgram U prop nfc pct junk junk' fs (prog :: args))
    (∃ names ss, CommandLine [] prog args names ss ∧
      ∃ n0 n1 l t ws r p, names = [n0, n1] ∧ fs n0 = some l ∧ IsList U false true l t ∧ Strings U prop nfc t ws ∧ fs n1 = some r ∧
        wordacc (lines r) = some p ∧ p.Sound ∧ ¬ Reached p ws)
    (∃ names ss, CommandLine [] prog args names ss ∧
      ∃ n0 n1 l t ws r p, names = [n0, n1] ∧ fs n0 = some l ∧ IsList U false true l t ∧ Strings U prop nfc t ws ∧ fs n1 = some r ∧
        wordacc (lines r) = some p ∧ (p.Sound → Reached p ws)) := by
  refine line_ends hprog hargs hnul (main := fun names => if names.length ≠ 2 then .err "invalid number of files" else
    rd names 0 >>= fun name0 => readFile U junk fs name0 Nonstopacc.textopt >>= fun q => Word.find_words U prop nfc junk' q.1 >>= fun words =>
      rd names 1 >>= fun name1 => open_file fs name1 >>= fun report => Wac.read_wacrpt Wac.Wacdata.zero report >>= fun D =>
        Nonstopacc.write_results pct D words >>= fun bytes => .ok (⟨none, bytes⟩ : Output)) rfl (fun names => ?_)
  by_cases hn : names.length ≠ 2
  · rw [if_pos hn]
    refine .err _ rfl ?_ ?_
    · rintro ⟨n0, n1, l, t, ws, r, p, rfl, _⟩; exact hn rfl
    · rintro ⟨n0, n1, l, t, ws, r, p, rfl, _⟩; exact hn rfl
  rw [if_neg hn]
  obtain ⟨n0, n1, rfl⟩ : ∃ n0 n1, names = [n0, n1] := by
    rcases names with _ | ⟨n0, _ | ⟨n1, _ | ⟨n2, rest⟩⟩⟩
    · simp at hn
    · simp at hn
    · exact ⟨n0, n1, rfl⟩
    · simp at hn
  rw [show rd [n0, n1] 0 = .ok n0 from rfl, bind_ok]
  unfold readFile
  rw [Prog.assoc]
  refine ((open_gives fs n0).then (fun l hl => (list_gives U hj false true (hfs _ _ hl)).then
    (good := fun q => ∃ ws, Strings U prop nfc q.1 ws ∧ ∃ r, fs n1 = some r ∧ ∃ p, wordacc (lines r) = some p ∧ p.Sound ∧ ¬ Reached p ws)
    (bad := fun q => ∃ ws, Strings U prop nfc q.1 ws ∧ ∃ r, fs n1 = some r ∧ ∃ p, wordacc (lines r) = some p ∧ (p.Sound → Reached p ws))
    ?_)).imp ?_ ?_
  · rintro ⟨t, o⟩ ⟨ht, _⟩
    refine ((find_gives U prop nfc junk' (list_value L ht)).then
      (good := fun ws => ∃ r, fs n1 = some r ∧ ∃ p, wordacc (lines r) = some p ∧ p.Sound ∧ ¬ Reached p ws)
      (bad := fun ws => ∃ r, fs n1 = some r ∧ ∃ p, wordacc (lines r) = some p ∧ (p.Sound → Reached p ws)) (fun ws _ => ?_)).imp Iff.rfl (by simp)
    rw [show rd [n0, n1] 1 = .ok n1 from rfl, bind_ok]
    refine ((open_gives fs n1).then (good := fun r => ∃ p, wordacc (lines r) = some p ∧ p.Sound ∧ ¬ Reached p ws)
      (bad := fun r => ∃ p, wordacc (lines r) = some p ∧ (p.Sound → Reached p ws)) (fun r hr => ?_)).imp Iff.rfl (by simp)
    have k := c69_wordacc Wac.Wacdata.zero r
    cases hp : wordacc (lines r) with
    | none =>
      rw [hp] at k
      simp only at k
      rw [k]
      exact .err _ rfl (by simp) (by simp)
    | some p =>
      rw [hp] at k
      simp only at k
      by_cases hs : p.Sound
      · obtain ⟨D, e, h⟩ := nonstop_end pct hp hs ws
        rw [e, bind_ok]
        refine (h.map _).imp ?_ ?_
        · constructor
          · intro h; exact ⟨p, rfl, hs, h⟩
          · rintro ⟨p', e, _, h⟩; cases e; exact h
        · constructor
          · intro h; exact ⟨p, rfl, fun _ => h⟩
          · rintro ⟨p', e, h⟩; cases e; exact h hs
      · rw [k.2 hs]
        refine .ub rfl ?_ ⟨p, rfl, fun h => absurd h hs⟩
        rintro ⟨p', e, h, _⟩
        cases e
        exact hs h
  · constructor
    · rintro ⟨l, h0, ⟨t, o⟩, ⟨ht, _⟩, ws, hw, r, h1, p, h2, h3, h4⟩
      exact ⟨n0, n1, l, t, ws, r, p, rfl, h0, ht, hw, h1, h2, h3, h4⟩
    · rintro ⟨n0', n1', l, t, ws, r, p, e, h0, ht, hw, h1, h2, h3, h4⟩
      cases e
      exact ⟨l, h0, (t, _), ⟨ht, rfl⟩, ws, hw, r, h1, p, h2, h3, h4⟩
  · constructor
    · rintro (h | ⟨l, h0, h | ⟨⟨t, o⟩, ⟨ht, _⟩, ws, hw, r, h1, p, h2, h3⟩⟩)
      · exact h.elim
      · exact h.elim
      · exact ⟨n0, n1, l, t, ws, r, p, rfl, h0, ht, hw, h1, h2, h3⟩
    · rintro ⟨n0', n1', l, t, ws, r, p, e, h0, ht, hw, h1, h2, h3⟩
      cases e
      exact .inr ⟨l, h0, .inr ⟨(t, _), ⟨ht, rfl⟩, ws, hw, r, h1, p, h2, h3⟩⟩

end

/-! ## Non-vacuity -/

theorem list_of {marks fold : Bool} {file : List Nat} {t : List Ch} (hb : file.all (fun b => decide (b < 256)) = true)
    (h : read_text sampleUnicode [] [] file ⟨false, marks, 0, true, fold, false⟩ = .ok (t, ⟨false, marks, 0, true, fold, false⟩)) :
    IsList sampleUnicode marks fold file t :=
  ((read_list sampleUnicode [] marks fold file (bytes_ascii hb) (by simp [Bytes]) t _).1 h).1

/-- A word of 51 letters. -/
def longWord : List Nat := List.replicate 51 97

theorem words_x' : ReadsWords sampleUnicode Word.wbProp noB textX [ascii "the", ascii "cat"] :=
  ⟨plain "the cat", text_of (by decide +kernel) (pageText true) (by decide +kernel), strings_of (by decide +kernel) (by decide +kernel)⟩

theorem words_long : ReadsWords sampleUnicode Word.wbProp noB longWord [longWord] :=
  ⟨longWord.map (fun v => ⟨false, v⟩), text_of (by decide +kernel) (pageText true) (by decide +kernel),
    strings_of (by decide +kernel) (by decide +kernel)⟩

theorem bad_y : BadWords sampleUnicode Word.wbProp noB textY :=
  ⟨plain "a " ++ [⟨true, 98⟩], [some (ascii "a"), none], text_of (by decide +kernel) (pageText true) (by decide +kernel),
    strings_of (by decide +kernel) (by decide +kernel), by simp⟩

theorem bad_list : BadList sampleUnicode Word.wbProp noB (ascii "a b") :=
  ⟨plain "a b", [some (ascii "a"), none], list_of (by decide +kernel) (by decide +kernel), strings_of (by decide +kernel) (by decide +kernel), by simp⟩

theorem reads_the : ReadsList sampleUnicode Word.wbProp noB (ascii "The") [ascii "the"] :=
  ⟨plain "the", list_of (by decide +kernel) (by decide +kernel), strings_of (by decide +kernel) (by decide +kernel)⟩

/-- The words of two texts are compared, with a list of stopwords; a word of 51 letters, a word of the second text or a stopword
that cannot be normalized lead astray. -/
example (pct : Int → Int → List Nat) :
    (∃ out, wordaccMain sampleUnicode Word.wbProp noB pct [] 0 (threeFiles textX textX (ascii "The"))
      [ascii "wordacc", ascii "-S", ascii "z", ascii "x", ascii "y"] = .ok out) ∧
    wordaccMain sampleUnicode Word.wbProp noB pct [] 0 (threeFiles textX textX (ascii "a b"))
      [ascii "wordacc", ascii "-S", ascii "z", ascii "x", ascii "y"] = .ub ∧
    wordaccMain sampleUnicode Word.wbProp noB pct [] 0 (threeFiles textX textY []) [ascii "wordacc", ascii "x", ascii "y"] = .ub ∧
    wordaccMain sampleUnicode Word.wbProp noB pct [] 0 (threeFiles longWord textX []) [ascii "wordacc", ascii "x", ascii "y"] = .ub := by
  have L : CommandLine [(83, .value 0)] (ascii "wordacc") [ascii "-S", ascii "z", ascii "x", ascii "y"] [ascii "x", ascii "y"]
      [⟨.value 0, ascii "z"⟩] :=
    ⟨by decide +kernel, by decide +kernel, by decide +kernel, by simp,
      .separate (by unfold Args.Help; decide +kernel) (by decide) (.operand (by rintro ⟨c, r, e⟩; simp [ascii] at e)
        (.operand (by rintro ⟨c, r, e⟩; simp [ascii] at e) .nil)), by simp [Args.Once]⟩
  have L' := pair_line [(83, .value 0)] "wordacc" "x" "y" (by decide +kernel) (by decide +kernel) (by decide +kernel)
  have bx : Bytes textX := bytes_ascii (by decide +kernel)
  have hx : ¬ Headed textX := by unfold Headed; decide +kernel
  have hl : ¬ Headed longWord := by unfold Headed; decide +kernel
  have gz : Given [⟨.value 0, ascii "z"⟩] 0 (some (ascii "z")) := by intro x; simp [eq_comm]
  have gn : Given [] 0 none := by intro x; simp
  refine ⟨(c74_wordacc _ [] (by simp [Bytes]) _ (three_bytes bx bx (bytes_ascii (by decide +kernel))) _ _ L.prog L.many L.nul lower_sample _ _ _ _).output.2
      ⟨_, _, L, by simp, _, gz, ?_, _, _, ⟨_, _, rfl, rfl, hx⟩, _, file_y _ _ _, _, _, words_x', words_x', by decide +kernel, by decide +kernel⟩,
    (c74_wordacc _ [] (by simp [Bytes]) _ (three_bytes bx bx (bytes_ascii (by decide +kernel))) _ _ L.prog L.many L.nul lower_sample _ _ _ _).astray.2
      ⟨_, _, L, by simp, _, gz, .inl ⟨_, _, rfl, file_z _ _ _, bad_list⟩⟩,
    (c74_wordacc _ [] (by simp [Bytes]) _ (three_bytes bx (bytes_ascii (by decide +kernel)) (by simp [Bytes])) _ _ L'.prog L'.many L'.nul
      lower_sample _ _ _ _).astray.2
      ⟨_, _, L', by simp, _, gn, .inr ⟨by rintro _ ⟨⟩, _, _, ⟨_, _, rfl, rfl, hx⟩, .inr ⟨_, words_x', _, file_y _ _ _, .inl bad_y⟩⟩⟩,
    (c74_wordacc _ [] (by simp [Bytes]) _ (three_bytes (bytes_ascii (by decide +kernel)) bx (by simp [Bytes])) _ _ L'.prog L'.many L'.nul
      lower_sample _ _ _ _).astray.2
      ⟨_, _, L', by simp, _, gn, .inr ⟨by rintro _ ⟨⟩, _, _, ⟨_, _, rfl, rfl, hl⟩, .inr ⟨_, words_long, _, file_y _ _ _,
        .inr ⟨_, words_x', by decide +kernel, by decide +kernel⟩⟩⟩⟩⟩
  rintro name ⟨⟩
  exact ⟨_, file_z _ _ _, _, reads_the⟩

/-- A list with a mark, and one with U+10FFFF. -/
example (pct : Int → Int → List Nat) :
    (∃ out, groupaccProgram sampleUnicode pct [] (threeFiles textY oddTop []) [ascii "groupacc", ascii "x", ascii "y"] = .ok out) ∧
    groupaccProgram sampleUnicode pct [] (threeFiles textZ oddTop []) [ascii "groupacc", ascii "x", ascii "y"] = .ub ∧
    groupaccProgram sampleUnicode pct [] (threeFiles textY cutTop []) [ascii "groupacc", ascii "x", ascii "y"] = .ub := by
  have L := pair_line [] "groupacc" "x" "y" (by decide +kernel) (by decide +kernel) (by decide +kernel)
  have by' : Bytes textY := bytes_ascii (by decide +kernel)
  have bz : Bytes textZ := bytes_ascii (by decide +kernel)
  have b1 : Bytes oddTop := by unfold Bytes; decide +kernel
  have b2 : Bytes cutTop := by unfold Bytes; decide +kernel
  have ly : IsList sampleUnicode true false textY (plain "A " ++ [⟨true, 98⟩]) := list_of (by decide +kernel) (by decide +kernel)
  have lz : IsList sampleUnicode true false textZ [⟨false, 99⟩, ⟨false, 0x10FFFF⟩] := list_of (by decide +kernel) (by decide +kernel)
  exact ⟨(c74_groupacc _ [] (by simp [Bytes]) _ (three_bytes by' b1 (by simp [Bytes])) _ _ L.prog L.many L.nul sampleFacts _).output.2
      ⟨_, _, L, by simp, _, _, _, _, _, _, rfl, rfl, ly, file_y _ _ _, ⟨_, reads_top⟩, by decide +kernel⟩,
    (c74_groupacc _ [] (by simp [Bytes]) _ (three_bytes bz b1 (by simp [Bytes])) _ _ L.prog L.many L.nul sampleFacts _).astray.2
      ⟨_, _, L, by simp, _, _, _, _, _, _, rfl, rfl, lz, file_y _ _ _, .inr ⟨⟨_, reads_top⟩, ⟨false, 0x10FFFF⟩, by simp, rfl⟩⟩,
    (c74_groupacc _ [] (by simp [Bytes]) _ (three_bytes by' b2 (by simp [Bytes])) _ _ L.prog L.many L.nul sampleFacts _).astray.2
      ⟨_, _, L, by simp, _, _, _, _, _, _, rfl, rfl, ly, file_y _ _ _, .inl bad_cut⟩⟩

/-- A report of three words, all of them `the`. -/
def theReport : List Nat := Wac.TITLE ++ Wac.DIVIDER ++ ascii "3\n1\n\n\n\n\n       3        1    66.67    Total\n\n" ++
  List.replicate 11 10 ++ ascii "       3        1    66.67   the\n"

def theParts : WordaccParts :=
  ⟨3, 1, [⟨3, 1, ascii "       3        1    66.67    Total\n"⟩], [], [], [], [⟨3, 1, ascii "       3        1    66.67   the\n"⟩], []⟩

/-- Without `the` no word is left, and it does no harm that the next one on the list cannot be normalized; with a report that does
not have it, it does. -/
example (pct : Int → Int → List Nat) :
    (∃ out, nonstopaccProgram sampleUnicode Word.wbProp noB pct [] 0 (threeFiles (ascii "The b") theReport [])
      [ascii "nonstopacc", ascii "x", ascii "y"] = .ok out) ∧
    nonstopaccProgram sampleUnicode Word.wbProp noB pct [] 0 (threeFiles (ascii "The b") (briefWordacc "3" "1") [])
      [ascii "nonstopacc", ascii "x", ascii "y"] = .ub := by
  have L := pair_line [] "nonstopacc" "x" "y" (by decide +kernel) (by decide +kernel) (by decide +kernel)
  have l : IsList sampleUnicode false true (ascii "The b") (plain "the b") := list_of (by decide +kernel) (by decide +kernel)
  have w : Strings sampleUnicode Word.wbProp noB (plain "the b") [some (ascii "the"), none] := strings_of (by decide +kernel) (by decide +kernel)
  have e : wordacc (lines theReport) = some theParts := by decide +kernel
  have s : theParts.Sound := ⟨by unfold InArray; decide +kernel, by unfold InArray; decide +kernel, by unfold InArray; decide +kernel,
    by unfold InArray; decide +kernel, by unfold HasNames; decide +kernel, by unfold HasNames; decide +kernel⟩
  refine ⟨(c74_nonstopacc _ [] (by simp [Bytes]) _ (three_bytes (bytes_ascii (by decide +kernel)) (bytes_ascii (by decide +kernel)) (by simp [Bytes]))
      _ _ L.prog L.many L.nul lower_sample _ _ _ _).output.2 ⟨_, _, L, _, _, _, _, _, _, _, rfl, rfl, l, w, file_y _ _ _, e, s, ?_⟩,
    (c74_nonstopacc _ [] (by simp [Bytes]) _ (three_bytes (bytes_ascii (by decide +kernel)) (bytes_ascii (by decide +kernel)) (by simp [Bytes]))
      _ _ L.prog L.many L.nul lower_sample _ _ _ _).astray.2
      ⟨_, _, L, _, _, _, _, _, _, ⟨3, 1, [], [], [], [], [], []⟩, rfl, rfl, l, w, file_y _ _ _, by decide +kernel,
        fun _ => ⟨[ascii "the"], [], rfl, fun i _ => ?_⟩⟩⟩
  · rintro ⟨pre, post, e, h⟩
    obtain ⟨rfl, rfl⟩ : pre = [ascii "the"] ∧ post = [] := by
      rcases pre with _ | ⟨a, _ | ⟨b, pre⟩⟩
      · cases e
      · cases e; exact ⟨rfl, rfl⟩
      · rw [List.map_cons, List.map_cons, List.cons_append, List.cons_append] at e
        cases e
    exact h 1 (by simp) (by decide +kernel)
  · rename_i hi
    rcases i with _ | _ | i
    · decide +kernel
    · decide +kernel
    · simp at hi

end Ocr.Ending
