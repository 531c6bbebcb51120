import Verif.Proof.TextEndings
import Verif.Props.Endings

/-!
# C73: how the programs that compare and count end, whatever the files
-/

namespace Ocr.Ending
open Text Res Prog Spec AnyText

section
variable (U : Unicode) (F : UnicodeFacts U) (junk : List Nat) (hj : Bytes junk) (fs : Fs)
  (hfs : ∀ name file, fs name = some file → Bytes file) (prog : List Nat) (args : List (List Nat))
  (hprog : prog.length ≤ 32768) (hargs : args.length < 32768) (hnul : ∀ a ∈ args, 0 ∉ a)
include hj hfs hprog hargs hnul

include F in
/-- C73 (accuracy).  There is a report exactly if two texts can be compared and the correct one does not contain U+10FFFF; with
this character the program goes astray; in all other cases there is a message. -/
theorem c73_accuracy (pct : Int → Int → List Nat) : EndsAs (accuracyMain U pct junk fs (prog :: args))
    (∃ names ss, CommandLine [] prog args names ss ∧ ∃ t0 t1, Compared U false fs names t0 t1 ∧ ∀ c ∈ t0, c.value ≠ 0x10FFFF)
    (∃ names ss, CommandLine [] prog args names ss ∧ ∃ t0 t1, Compared U false fs names t0 t1 ∧ ∃ c ∈ t0, c.value = 0x10FFFF) := by
  refine line_ends hprog hargs hnul (main := fun names => if names.length < 2 ∨ names.length > 3 then .err "invalid number of files" else
    readPair U junk fs names >>= fun p => Acc.accuracy U p.1 p.2 >>= fun D => Acc.write_accrpt U pct D >>= fun bytes => .ok ⟨names[2]?, bytes⟩)
    rfl (fun names => pair_ends U hj hfs names _ (fun t0 t1 h => ?_))
  obtain ⟨n0, n1, rest, f0, f1, rfl, _, h0, _, p0, h1, p1⟩ := h
  have c0 := textOf_value (hfs _ _ h0) p0
  have c1 := textOf_value (hfs _ _ h1) p1
  by_cases hx : ∃ c ∈ t0, c.value = 0x10FFFF
  · refine .ub ?_ (fun g => ?_) hx
    · show (Acc.accuracy U t0 t1 >>= _) = _
      rw [Acc.c21_last U t0 t1 c0 c1 hx]
      rfl
    · obtain ⟨c, hc, hv⟩ := hx
      exact g c hc hv
  · have i0 : Acc.InTables t0 := by
      intro c hm
      have h1 := c0 c hm
      have h2 : c.value ≠ 0x10FFFF := fun e => hx ⟨c, hm, e⟩
      omega
    obtain ⟨D, e, hD⟩ := Acc.c21_consistent U t0 t1 i0 c1
    obtain ⟨bytes, e'⟩ := Acc.write_accrpt_total F pct (accuracy_known hD)
    refine .ok (⟨(n0 :: n1 :: rest)[2]?, bytes⟩ : Output) ?_ (fun c hc hv => hx ⟨c, hc, hv⟩) hx
    show (Acc.accuracy U t0 t1 >>= _) = _
    rw [e, bind_ok, e', bind_ok]

/-- C73 (editop).  There is a report exactly if two texts can be compared, otherwise a message. -/
theorem c73_editop : EndsAs (editopMain U junk fs (prog :: args))
    (∃ names ss, CommandLine [(68, .flag 0)] prog args names ss ∧ ∃ t0 t1, Compared U false fs names t0 t1) False := by
  refine (options_end table_editop hprog hargs hnul (main := fun names _ => if names.length < 2 ∨ names.length > 3 then
    .err "invalid number of files" else readPair U junk fs names >>= fun p =>
      Edo.editop (p.1.map Ch.value) (p.2.map Ch.value) >>= fun D => .ok (⟨names[2]?, Edo.write_edorpt D⟩ : Output))
    rfl (fun names ss V _ _ => pair_ends U hj hfs names _ (good := fun _ _ => True) (bad := fun _ _ => False) (fun t0 t1 _ => ?_))).imp
    (by simp [and_comm]) (by simp)
  obtain ⟨D, e, _, _⟩ := Edo.c56_differences (t0.map Ch.value) (t1.map Ch.value)
  refine .ok (⟨names[2]?, Edo.write_edorpt D⟩ : Output) ?_ trivial id
  show (Edo.editop _ _ >>= _) = _
  rw [e, bind_ok]

/-- C73 (wordfreq).  There is output exactly if all files are text and all their words can be normalized.  The program goes astray
exactly if the first file for which this is not so is text with a word that cannot be normalized. -/
theorem c73_wordfreq (L : Lower U) (prop : Nat → Word.WB) (nfc : List Nat → Option (List Nat)) (junk' : Nat) :
    EndsAs (wordfreqProgram U prop nfc junk junk' fs (prog :: args))
    (∃ names ss, CommandLine [] prog args names ss ∧ names ≠ [] ∧ ∃ wss, AllRead fs (ReadsWords U prop nfc) names wss)
    (∃ names ss, CommandLine [] prog args names ss ∧ names ≠ [] ∧ Astray fs (ReadsWords U prop nfc) (BadWords U prop nfc) names) := by
  refine line_ends hprog hargs hnul (main := fun names => if names.length = 0 then .err "no text files specified" else
    forFiles fs (wordfreqFile U prop nfc junk junk') names (Wordfreq.textopt, []) >>= fun a =>
      Wordfreq.write_report a.2 >>= fun bytes => .ok ⟨none, bytes⟩)
    rfl (fun names => (EndsAs.guard _ ?_).imp (and_congr_left' (not_congr List.length_eq_zero_iff))
      (and_congr_left' (not_congr List.length_eq_zero_iff)))
  have step : ∀ (b : Bool) (T : List Term) (f : List Nat), Bytes f → ∀ t ws, TextOf U true f t → Strings U prop nfc t ws →
      wordfreqFile U prop nfc junk junk' ({ pageText true with found_header := b }, T) f =
        Wordfreq.addWords ws T >>= fun T => .ok ({ pageText true with found_header := decide (Headed f) }, T) := by
    intro b T f hf t ws ht hw
    unfold wordfreqFile
    rw [((read_gives U hj true b hf).value (t, _)).2 ⟨ht, rfl⟩, bind_ok]
    simp only
    rw [((find_gives U prop nfc junk' (textOf_lower L hf ht)).value ws).2 hw, bind_ok]
    rfl
  refine (forFiles_ends (P := Bytes) (J := fun _ a => ∃ b, a.1 = { pageText true with found_header := b }) (fun f o _ => words_x f o) hfs
    ?_ ?_ ?_ names [] _ ⟨false, rfl⟩).total (fun f o _ => words_x f o) hfs words_u (fun os a _ => ?_)
  · rintro os ⟨opt, T⟩ f o ⟨b, rfl⟩ hf ⟨t, ht, hw⟩
    obtain ⟨T', e⟩ := addWords_some o T
    exact ⟨_, by rw [step b T f hf t _ ht hw, e, bind_ok], _, rfl⟩
  · rintro os ⟨opt, T⟩ f ⟨b, rfl⟩ hf ⟨t, ws, ht, hw, hn⟩
    rw [step b T f hf t _ ht hw, addWords_none T hn, bind_ub]
  · rintro os ⟨opt, T⟩ f ⟨b, rfl⟩ hf h1 h2
    by_cases hw : WellFormed f
    · exfalso
      obtain ⟨t, ht⟩ := (textOf_iff U true f).2 hw
      obtain ⟨ws, hs⟩ := strings_exist U prop nfc (textOf_lower L hf ht)
      rcases some_or_none ws with ⟨us, rfl⟩ | hn
      · exact h1 ⟨us, t, ht, hs⟩
      · exact h2 ⟨t, ws, ht, hs, hn⟩
    · obtain ⟨msg, e⟩ := read_refused U junk true b f hf hj hw
      unfold wordfreqFile
      rw [e]
      exact ⟨msg, rfl⟩
  · obtain ⟨bytes, e⟩ := wordfreq_report a.2
    exact ⟨_, by rw [e, bind_ok]⟩

end

/-- C73 (ngram).  There is output exactly if the option is valid, at least one file is named and all are text; otherwise a message. -/
theorem c73_ngram (U : Unicode) (F : UnicodeFacts U) (signed : Bool) (junk : List Nat) (hj : Bytes junk) (fs : Fs)
    (hfs : ∀ name file, fs name = some file → Bytes file) (prog : List Nat) (args : List (List Nat)) (hprog : prog.length ≤ 32768)
    (hargs : args.length < 32768) (hbytes : ∀ a ∈ args, ∀ b ∈ a, 0 < b ∧ b < 256) : EndsAs (ngramProgram U signed junk fs (prog :: args))
    (∃ names ss, CommandLine [(110, .value 0)] prog args names ss ∧ names ≠ [] ∧ (∃ s n, Given ss 0 s ∧ Ngram.Selected s n) ∧
      ∃ ts, AllRead fs (TextOf U false) names ts) False := by
  refine (options_end table_ngram hprog hargs (fun a ha h => by have := hbytes a ha 0 h; omega)
    (main := fun names V => if names.length = 0 then .err "no text files specified" else
      Ngram.get_n signed (V.string 0) >>= fun n => forFiles fs (ngramFile U junk n) names (Ngram.textopt, ⟨[], 0, 0⟩) >>= fun a =>
        Ngram.write_report a.2 >>= fun bytes => .ok (⟨none, bytes⟩ : Output)) rfl
    (bad := fun _ _ => False) (good := fun names ss => names ≠ [] ∧ (∃ s n, Given ss 0 s ∧ Ngram.Selected s n) ∧
      ∃ ts, AllRead fs (TextOf U false) names ts) (fun names ss V hc hV => (EndsAs.guard _ (good := (∃ s n, Given ss 0 s ∧ Ngram.Selected s n) ∧
      ∃ ts, AllRead fs (TextOf U false) names ts) (bad := False) ?_).imp
        (and_congr_left' (not_congr List.length_eq_zero_iff)) (by simp))).imp Iff.rfl (by simp)
  have given : ∀ s, Given ss 0 s ↔ s = V.string 0 := by
    intro s
    constructor
    · intro h
      cases hv : V.string 0 with
      | none =>
        cases s with
        | none => rfl
        | some x => rw [(hV.1 0 x).2 ((h x).1 rfl)] at hv; cases hv
      | some x => exact (h x).2 ((hV.1 0 x).1 hv)
    · rintro rfl
      exact hV.1 0
  have hs : ∀ s, V.string 0 = some s → ∀ b ∈ s, 0 < b ∧ b < 256 := by
    intro s hs
    exact parse_bytes hc.parse hbytes _ ((hV.1 0 s).1 hs)
  have opt := Ngram.c44_option signed (V.string 0) hs
  by_cases hn : ∃ n, Ngram.Selected (V.string 0) n
  · obtain ⟨n, hn⟩ := hn
    have hn' : 1 ≤ n ∧ n ≤ 3 := by
      rcases hn with ⟨_, rfl⟩ | ⟨h1, h3, _⟩
      · omega
      · exact ⟨h1, h3⟩
    rw [opt.1 n hn, bind_ok]
    refine ((forFiles_ends (P := Bytes) (R := TextOf U false) (B := fun _ => False)
      (J := fun _ a => (∃ b, a.1 = { pageText false with found_header := b }) ∧ ∃ W, Ngram.TI U W a.2 ∧ Ngram.Grams n W) (fun f o _ _ => id) hfs
      ?_ (fun _ _ _ _ _ h => h.elim) ?_ names [] _ ⟨⟨false, rfl⟩, [], ⟨Store.tallied_nil _ _, rfl, rfl⟩, by intro w hw; cases hw⟩).total
      (fun f o _ _ => id) hfs (fun f o o' h h' => textOf_unique h h') (fun os a _ => ?_)).imp ?_ ?_
    · rintro os ⟨opt, T⟩ f o ⟨⟨b, rfl⟩, W, h1, h2⟩ hf ht
      obtain ⟨T', e, h1', h2'⟩ := Ngram.startLoop_spec F hn'.1 hn'.2 o W T h1 h2 (textOf_value hf ht)
      refine ⟨({ pageText false with found_header := decide (Headed f) }, T'), ?_, ⟨_, rfl⟩, _, h1', h2'⟩
      unfold ngramFile
      rw [((read_gives U hj false b hf).value (o, _)).2 ⟨ht, rfl⟩, bind_ok]
      simp only
      rw [e, bind_ok]
      rfl
    · rintro os ⟨opt, T⟩ f ⟨⟨b, rfl⟩, W, h1, h2⟩ hf h3 _
      obtain ⟨msg, e⟩ := read_refused U junk false b f hf hj (fun hw => h3 ((textOf_iff U false f).2 hw))
      unfold ngramFile
      rw [e]
      exact ⟨msg, rfl⟩
    · obtain ⟨bytes, e⟩ := ngram_report a.2
      exact ⟨_, by rw [e, bind_ok]⟩
    · constructor
      · exact fun h => ⟨⟨_, n, (given _).2 rfl, hn⟩, h⟩
      · exact fun h => h.2
    · constructor
      · rintro ⟨_, _, _, _, _, _, _, _, h⟩; exact h
      · exact False.elim
  · rw [opt.2 hn, bind_err]
    refine .err _ rfl ?_ id
    rintro ⟨⟨s, n, h1, h2⟩, _⟩
    rw [(given s).1 h1] at h2
    exact hn ⟨n, h2⟩

/-! ## Non-vacuity -/

theorem text_of {fold : Bool} {file : List Nat} {t : List Ch} (hb : file.all (fun b => decide (b < 256)) = true) (opt : Textopt)
    (h : read_text sampleUnicode [] [] file { pageText fold with found_header := false } = .ok (t, opt)) : TextOf sampleUnicode fold file t :=
  ((read_any sampleUnicode [] fold false file (bytes_ascii hb) (by simp [Bytes]) t opt).1 h).1

theorem lower_sample : Lower sampleUnicode := by
  intro v hv
  simp only [sampleUnicode]
  split <;> omega

def textX : List Nat := ascii "The cat"
def textY : List Nat := ascii "A ^b"
/-- `c` and U+10FFFF. -/
def textZ : List Nat := [99, 0xF4, 0x8F, 0xBF, 0xBF]

theorem xyz_bytes : ∀ name file, threeFiles textX textY textZ name = some file → Bytes file :=
  three_bytes (bytes_ascii (by decide +kernel)) (bytes_ascii (by decide +kernel)) (bytes_ascii (by decide +kernel))

theorem of_x : TextOf sampleUnicode false textX (plain "The cat") := text_of (by decide +kernel) (pageText false) (by decide +kernel)
theorem of_y : TextOf sampleUnicode false textY (plain "A " ++ [⟨true, 98⟩]) := text_of (by decide +kernel) (pageText false) (by decide +kernel)
theorem of_z : TextOf sampleUnicode false textZ [⟨false, 99⟩, ⟨false, 0x10FFFF⟩] := text_of (by decide +kernel) (pageText false) (by decide +kernel)

theorem pair_line (T : List (Nat × Args.Kind)) (prog a b : String) (hp : (ascii prog).length ≤ 32768) (ha : 0 ∉ ascii a ∧ 45 ∉ ascii a)
    (hb : 0 ∉ ascii b ∧ 45 ∉ ascii b) : CommandLine T (ascii prog) [ascii a, ascii b] [ascii a, ascii b] [] :=
  ⟨hp, by simp, by intro x hx; simp at hx; rcases hx with rfl | rfl; exact ha.1; exact hb.1, by simp,
    .operand (by rintro ⟨c, r, e⟩; rw [e] at ha; simp at ha) (.operand (by rintro ⟨c, r, e⟩; rw [e] at hb; simp at hb) .nil),
    by simp [Args.Once]⟩

theorem x_and_y : Compared sampleUnicode false (threeFiles textX textY textZ) [ascii "x", ascii "y"] (plain "The cat") (plain "A " ++ [⟨true, 98⟩]) :=
  ⟨_, _, [], _, _, rfl, by simp, rfl, by unfold Headed; decide +kernel, of_x, file_y _ _ _, of_y⟩

theorem z_and_y : Compared sampleUnicode false (threeFiles textX textY textZ) [ascii "z", ascii "y"] [⟨false, 99⟩, ⟨false, 0x10FFFF⟩]
    (plain "A " ++ [⟨true, 98⟩]) :=
  ⟨_, _, [], _, _, rfl, by simp, file_z _ _ _, by unfold Headed; decide +kernel, of_z, file_y _ _ _, of_y⟩

/-- Two texts are compared; with U+10FFFF in the correct one accuracy goes astray. -/
example : (∃ out, accuracyMain sampleUnicode Acc.samplePct [] (threeFiles textX textY textZ) [ascii "accuracy", ascii "x", ascii "y"] = .ok out) ∧
    accuracyMain sampleUnicode Acc.samplePct [] (threeFiles textX textY textZ) [ascii "accuracy", ascii "z", ascii "y"] = .ub ∧
    (∃ out, editopMain sampleUnicode [] (threeFiles textX textY textZ) [ascii "editop", ascii "x", ascii "y"] = .ok out) := by
  have L1 := pair_line [] "accuracy" "x" "y" (by decide +kernel) (by decide +kernel) (by decide +kernel)
  have L2 := pair_line [] "accuracy" "z" "y" (by decide +kernel) (by decide +kernel) (by decide +kernel)
  have L3 := pair_line [(68, .flag 0)] "editop" "x" "y" (by decide +kernel) (by decide +kernel) (by decide +kernel)
  exact ⟨(c73_accuracy _ sampleFacts [] (by simp [Bytes]) _ xyz_bytes _ _ L1.prog L1.many L1.nul _).output.2
      ⟨_, _, L1, _, _, x_and_y, by decide +kernel⟩,
    (c73_accuracy _ sampleFacts [] (by simp [Bytes]) _ xyz_bytes _ _ L2.prog L2.many L2.nul _).astray.2
      ⟨_, _, L2, _, _, z_and_y, ⟨false, 0x10FFFF⟩, by simp, rfl⟩,
    (c73_editop _ [] (by simp [Bytes]) _ xyz_bytes _ _ L3.prog L3.many L3.nul).output.2 ⟨_, _, L3, _, _, x_and_y⟩⟩

/-- Pairs of characters are counted. -/
example : ∃ out, ngramProgram sampleUnicode true [] (threeFiles textX textY textZ) [ascii "ngram", ascii "-n", ascii "2", ascii "x", ascii "z"] = .ok out :=
  have L : CommandLine [(110, .value 0)] (ascii "ngram") [ascii "-n", ascii "2", ascii "x", ascii "z"] [ascii "x", ascii "z"] [⟨.value 0, ascii "2"⟩] :=
    ⟨by decide +kernel, by decide +kernel, by decide +kernel, by simp,
    .separate (by unfold Args.Help; decide +kernel) (by decide) (.operand (by rintro ⟨c, r, e⟩; simp [ascii] at e)
      (.operand (by rintro ⟨c, r, e⟩; simp [ascii] at e) .nil)), by simp [Args.Once]⟩
  (c73_ngram _ sampleFacts true [] (by simp [Bytes]) _ xyz_bytes _ _ L.prog L.many (by decide +kernel)).output.2
    ⟨_, _, L, by simp, ⟨some (ascii "2"), 2, by intro x; simp [eq_comm], .inr ⟨by omega, by omega, by decide +kernel⟩⟩,
      [plain "The cat", [⟨false, 99⟩, ⟨false, 0x10FFFF⟩]], .cons ⟨_, rfl, of_x⟩ (.cons ⟨_, file_z _ _ _, of_z⟩ .nil)⟩

/-- A normalization that does not know the word `b`. -/
def noB (s : List Nat) : Option (List Nat) := if s = ascii "b" then none else some s

theorem strings_of {t : List Ch} {nfc : List Nat → Option (List Nat)} {ws : List (Option (List Nat))} (h1 : ∀ c ∈ t, c.value < 0x110000)
    (h : Word.find_words sampleUnicode Word.wbProp nfc 0 t = .ok ws) : Strings sampleUnicode Word.wbProp nfc t ws :=
  ((find_gives sampleUnicode Word.wbProp nfc 0 h1).value ws).1 h

/-- The words of the first file are counted; in the second there is one that cannot be normalized. -/
example : (∃ out, wordfreqProgram sampleUnicode Word.wbProp noB [] 0 (threeFiles textX textY textZ) [ascii "wordfreq", ascii "x", ascii "x"] = .ok out) ∧
    wordfreqProgram sampleUnicode Word.wbProp noB [] 0 (threeFiles textX textY textZ) [ascii "wordfreq", ascii "x", ascii "y"] = .ub := by
  have L1 := pair_line [] "wordfreq" "x" "x" (by decide +kernel) (by decide +kernel) (by decide +kernel)
  have L2 := pair_line [] "wordfreq" "x" "y" (by decide +kernel) (by decide +kernel) (by decide +kernel)
  have rx : ReadsWords sampleUnicode Word.wbProp noB textX [ascii "the", ascii "cat"] :=
    ⟨plain "the cat", text_of (by decide +kernel) (pageText true) (by decide +kernel), strings_of (by decide +kernel) (by decide +kernel)⟩
  have ry : BadWords sampleUnicode Word.wbProp noB textY :=
    ⟨plain "a " ++ [⟨true, 98⟩], [some (ascii "a"), none], text_of (by decide +kernel) (pageText true) (by decide +kernel),
      strings_of (by decide +kernel) (by decide +kernel), by simp⟩
  exact ⟨(c73_wordfreq _ [] (by simp [Bytes]) _ xyz_bytes _ _ L1.prog L1.many L1.nul lower_sample _ _ _).output.2
      ⟨_, _, L1, by simp, _, .cons ⟨_, rfl, rx⟩ (.cons ⟨_, rfl, rx⟩ .nil)⟩,
    (c73_wordfreq _ [] (by simp [Bytes]) _ xyz_bytes _ _ L2.prog L2.many L2.nul lower_sample _ _ _).astray.2
      ⟨_, _, L2, by simp, astray_second rx ry⟩⟩

end Ocr.Ending
