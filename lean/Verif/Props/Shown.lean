import Verif.Proof.Header
import Verif.Spec.Confusions
import Verif.Spec.Synctext
import Verif.Spec.Ngram
import Verif.Props.Text
import Verif.Spec.Shown
import Mathlib.Data.Nat.Digits.Lemmas

/-!
# C101: how a character is shown
-/

namespace Ocr.Text

theorem is_combining_iff {U v} : is_combining U v = true ↔ Mark U v := by
  unfold is_combining Mark
  cases U.cat v <;> simp

theorem is_graphic_iff {U v} : is_graphic U v = true ↔ Printable U v := by
  unfold is_graphic Printable
  by_cases h : v = 32
  · simp [h]
  · cases U.cat v <;> simp [h]

theorem hexUpper_digits (v : Nat) (h : 0 < v) : hexUpper v = (Nat.digits 16 v).reverse.map hexDigit := by
  induction v using Nat.strongRecOn with
  | ind v ih =>
    rw [hexUpper, Nat.digits_def' (by omega) h]
    split
    · rename_i h16
      rw [Nat.div_eq_of_lt h16, Nat.mod_eq_of_lt h16]
      simp
    · rw [ih (v / 16) (by omega) (by omega)]
      simp

theorem hexPad_upper {w v : Nat} (hw : 0 < w) : UpperHex w v (hexPad w v) := by
  have e : hexPad w v = (List.replicate (w - (Nat.digits 16 v).length) 0 ++ (Nat.digits 16 v).reverse).map hexDigit := by
    rcases Nat.eq_zero_or_pos v with rfl | h
    · unfold hexPad
      rw [hexUpper]
      simp only [Nat.digits_zero, List.length_nil, List.reverse_nil, List.append_nil, List.map_replicate, Nat.sub_zero]
      obtain ⟨k, rfl⟩ : ∃ k, w = k + 1 := ⟨w - 1, by omega⟩
      simp [hexDigit, List.replicate_succ']
    · unfold hexPad
      rw [hexUpper_digits v h]
      simp [hexDigit]
  refine ⟨List.replicate (w - (Nat.digits 16 v).length) 0 ++ (Nat.digits 16 v).reverse, ?_, ?_, ?_⟩
  · rw [e, List.forall₂_map_left_iff, List.forall₂_same]
    intro d hd
    have : d < 16 := by
      rcases List.mem_append.1 hd with hd | hd
      · have := List.eq_of_mem_replicate hd; omega
      · exact Nat.digits_lt_base (by omega) (List.mem_reverse.1 hd)
    unfold UpperDigit hexDigit
    split <;> omega
  · simp [Nat.ofDigits_append_replicate_zero, Nat.ofDigits_digits]
  · rw [e]; simp; omega

theorem upper_unique {w n : Nat} {s s' : List Nat} (h : UpperHex w n s) (h' : UpperHex w n s') : s = s' := by
  obtain ⟨ds, a, b, c⟩ := h
  obtain ⟨ds', a', b', c'⟩ := h'
  have key : ∀ {s ds : List Nat}, List.Forall₂ UpperDigit s ds → s = ds.map hexDigit ∧ ∀ d ∈ ds, d < 16 := by
    intro s ds h
    induction h with
    | nil => simp
    | cons h _ ih =>
      refine ⟨?_, ?_⟩
      · rw [ih.1]; simp only [List.map_cons]; congr 1
        unfold UpperDigit at h; unfold hexDigit; split <;> omega
      · intro d hd
        rcases List.mem_cons.1 hd with rfl | hd
        · unfold UpperDigit at h; omega
        · exact ih.2 d hd
  have hl : ds.length = ds'.length := by rw [← a.length_eq, ← a'.length_eq, c, c']
  have := Nat.ofDigits_inj_of_len_eq (b := 16) (by omega) (L1 := ds.reverse) (L2 := ds'.reverse) (by simpa using hl)
    (by intro d hd; exact (key a).2 d (by simpa using hd)) (by intro d hd; exact (key a').2 d (by simpa using hd)) (by rw [← b, ← b'])
  rw [(key a).1, (key a').1, List.reverse_injective this]

theorem upper_ne0 {w n : Nat} {s : List Nat} (h : UpperHex w n s) : 0 ∉ s := by
  obtain ⟨ds, a, -, -⟩ := h
  intro h0
  induction a with
  | nil => simp at h0
  | cons h _ ih =>
    rcases List.mem_cons.1 h0 with rfl | h0
    · unfold UpperDigit at h; omega
    · exact ih h0

/-- **C101.** The text by which a character is shown is determined. -/
theorem c101_unique {U : Unicode} {fake : Bool} {v : Nat} {s s' : List Nat} (h : Shown U fake v s) (h' : Shown U fake v s') :
    s = s' := by
  have inj : ∀ c c' : Char, c.toNat = v → c'.toNat = v → c = c' := by
    intro c c' h1 h2
    exact Char.ext (UInt32.toNat_inj.1 (h1.trans h2.symm))
  cases h with
  | newline a b => cases h' <;> simp_all
  | fake a b => cases h' <;> simp_all
  | plain c a b d e =>
    cases h' with
    | plain c' a' b' d' e' => rw [inj c c' e e']
    | _ => contradiction
  | mark c a b d e =>
    cases h' with
    | mark c' a' b' d' e' => rw [inj c c' e e']
    | _ => contradiction
  | number s a b d =>
    cases h' with
    | number s' a' b' d' => rw [upper_unique d d']
    | _ => contradiction

theorem scalar_of {v : Nat} (h : v < 0xD800 ∨ (0xE000 ≤ v ∧ v < 0x110000)) : ∃ c : Char, c.toNat = v := by
  have hvalid : v.isValidChar := by simp [Nat.isValidChar]; omega
  exact ⟨Char.ofNat v, by simp [Char.ofNat, hvalid, Char.ofNatAux, Char.toNat]⟩

theorem charString_shown {U : Unicode} {v : Nat} (hv : v < 0x110000) (hs : 0xD800 ≤ v → v < 0xE000 → ¬ Printable U v)
    (suspect fake : Bool) :
    ∃ s, Shown U fake v s ∧ charString U suspect v fake = .ok ((if suspect then ascii "^" else []) ++ s) := by
  have hm : markBytes suspect = (if suspect then ascii "^" else []) := by cases suspect <;> rfl
  by_cases hn : v = 10
  · cases fake with
    | false => exact ⟨_, .newline hn rfl, by unfold charString; rw [mark_eq, hm]; simp [hn, NEWLINE]; rfl⟩
    | true => exact ⟨_, .fake hn rfl, by unfold charString; rw [mark_eq, hm]; simp [hn, NEWLINE]⟩
  by_cases hp : Printable U v
  · have hg := is_graphic_iff.2 hp
    obtain ⟨c, hc⟩ := scalar_of (v := v) (by
      by_cases h1 : v < 0xD800
      · exact .inl h1
      · exact .inr ⟨by by_contra h2; exact hs (by omega) (by omega) hp, hv⟩)
    have e := charString_graphic (U := U) (v := v) (by simp [Escaped, NEWLINE, hn, hg]) hv suspect fake
    by_cases hk : Mark U v
    · refine ⟨_, .mark c hn hp hk hc, ?_⟩
      rw [e, hm, baseCps, if_pos (is_combining_iff.2 hk)]
      simp only [utf8_cons, hc, List.cons_append, List.nil_append, List.flatMap_cons, List.flatMap_nil]
      rfl
    · refine ⟨_, .plain c hn hp hk hc, ?_⟩
      rw [e, hm, baseCps, if_neg (fun h => hk (is_combining_iff.1 h))]
      simp only [utf8_cons, hc, List.nil_append, List.flatMap_cons, List.flatMap_nil]
      rfl
  · have hg : is_graphic U v = false := by
      cases h : is_graphic U v with
      | false => rfl
      | true => exact absurd (is_graphic_iff.1 h) hp
    by_cases h256 : v < 256
    · refine ⟨_, .number (hexPad 2 v) hn hp (by rw [if_pos h256]; exact hexPad_upper (by omega)), ?_⟩
      unfold charString; rw [mark_eq, hm]; simp [hn, NEWLINE, hg, h256]
    · refine ⟨_, .number (hexPad 4 v) hn hp (by rw [if_neg h256]; exact hexPad_upper (by omega)), ?_⟩
      unfold charString; rw [mark_eq, hm]; simp [hn, NEWLINE, hg, h256]

/-- **C101.** `char_to_string` writes the text by which the character is shown, after `^` if it is suspect; it overruns the buffer of
the callers exactly for suspect characters from U+100000 on that are not printable. -/
theorem c101_char (U : Unicode) (c : Ch) (fake : Bool) (hv : c.value < 0x110000)
    (hs : 0xD800 ≤ c.value → c.value < 0xE000 → ¬ Printable U c.value) :
    ∃ s, ShownCh U fake c s ∧ char_to_string U STRING_SIZE c.suspect c.value fake =
      (open Classical in if c.suspect = true ∧ 0x100000 ≤ c.value ∧ ¬ Printable U c.value then .ub else .ok s) := by
  obtain ⟨s, h1, h2⟩ := charString_shown hv hs c.suspect fake
  obtain ⟨t, h3, h4⟩ := charString_len (U := U) hv c.suspect fake
  rw [h2] at h3
  have h3 := Res.ok.inj h3
  refine ⟨_, ⟨s, h1, rfl⟩, ?_⟩
  rw [← h3] at h4
  unfold char_to_string
  rw [h2]
  simp only [Res.bind_ok, Res.pure_eq]
  have hg : is_graphic U c.value = false ↔ ¬ Printable U c.value := by rw [← is_graphic_iff]; simp
  by_cases hbad : c.suspect = true ∧ 0x100000 ≤ c.value ∧ ¬ Printable U c.value
  · rw [if_pos hbad, if_neg]
    intro h
    exact h4.1 h ⟨hbad.1, by have := hbad.2.1; unfold NEWLINE; omega, hg.2 hbad.2.2, hbad.2.1⟩
  · rw [if_neg hbad, if_pos]
    refine h4.2 ?_
    rintro ⟨a, -, b, d⟩
    exact hbad ⟨a, d, hg.1 b⟩

theorem shown_ne0 {U : Unicode} {fake : Bool} {v : Nat} {s : List Nat} (h0 : ¬ Printable U 0) (h : Shown U fake v s) : 0 ∉ s := by
  cases h with
  | newline _ _ => simp
  | fake _ _ => decide
  | plain c _ hp _ hc =>
    have : v ≠ 0 := by rintro rfl; exact h0 hp
    simp only [utf8_cons, hc, List.mem_append, not_or]
    exact ⟨fun h => Ngram.encode_nz this 0 h rfl, by simp [utf8]⟩
  | mark c _ hp _ hc =>
    have : v ≠ 0 := by rintro rfl; exact h0 hp
    simp only [utf8_cons, hc, List.mem_append, not_or]
    exact ⟨by decide, fun h => Ngram.encode_nz this 0 h rfl, by simp [utf8]⟩
  | number s _ _ hx =>
    have := upper_ne0 hx
    simp only [List.mem_append, not_or]
    exact ⟨⟨by decide, this⟩, by decide⟩

/-- **C101.** The file that `write_text` writes consists of these texts, one after the other. -/
theorem c101_file (U : Unicode) (h0 : ¬ Printable U 0) (text : List Ch)
    (h : ∀ c ∈ text, c.value < 0x110000 ∧ (0xD800 ≤ c.value → c.value < 0xE000 → ¬ Printable U c.value) ∧
      ¬ (c.suspect = true ∧ 0x100000 ≤ c.value ∧ ¬ Printable U c.value)) :
    ∃ ss, List.Forall₂ (ShownCh U false) text ss ∧ write_text U text none = .ok ss.flatten := by
  have key : ∃ ss, List.Forall₂ (ShownCh U false) text ss ∧ writeLoop U text = .ok ss.flatten := by
    induction text with
    | nil => exact ⟨[], .nil, rfl⟩
    | cons c text ih =>
      obtain ⟨ss, h1, h2⟩ := ih (fun x hx => h x (by simp [hx]))
      obtain ⟨a, b, d⟩ := h c (by simp)
      obtain ⟨s, hs, e⟩ := c101_char U c false a b
      rw [if_neg d] at e
      refine ⟨s :: ss, .cons hs h1, ?_⟩
      have hc : cstr s = s := by
        apply Ngram.cstr_self
        rintro x hx rfl
        obtain ⟨t, ht, rfl⟩ := hs
        rcases List.mem_append.1 hx with hx | hx
        · split at hx
          · revert hx; decide
          · simp at hx
        · exact shown_ne0 h0 ht hx
      unfold writeLoop
      rw [e]
      simp only [Res.bind_ok, h2, Res.pure_eq, hc, List.flatten_cons]
  obtain ⟨ss, h1, h2⟩ := key
  exact ⟨ss, h1, by unfold write_text; rw [h2]; simp⟩

theorem named_charString {U : Unicode} {v : Nat} (hv : v < 0x110000) :
    charString U false v true = .ok (Acc.named U v) ∧ charString U false v false = .ok (Synctext.drawn U v) := by
  by_cases hn : v = 10
  · subst hn; constructor <;> rfl
  by_cases hg : is_graphic U v = true
  · have e := fun fn => charString_graphic (U := U) (v := v) (by simp [Escaped, NEWLINE, hn, hg]) hv false fn
    constructor
    · rw [e, Acc.named, if_neg hn, if_pos hg, baseCps]
      split <;> simp [markBytes, DOTTED_CIRCLE]
    · rw [e, Synctext.drawn, if_neg hn, if_pos hg, baseCps]
      split <;> simp [markBytes, DOTTED_CIRCLE]
  · unfold charString Acc.named Synctext.drawn
    constructor <;> by_cases h256 : v < 256 <;> simp [hn, NEWLINE, hg, h256, ascii]

/-- **C101.** The names of characters in the statements about reports and printouts (C67, C55) are these texts. -/
theorem c101_names (U : Unicode) (v : Nat) (hv : v < 0x110000) (hs : 0xD800 ≤ v → v < 0xE000 → ¬ Printable U v) :
    Shown U true v (Acc.named U v) ∧ Shown U false v (Synctext.drawn U v) := by
  obtain ⟨e1, e2⟩ := named_charString (U := U) hv
  obtain ⟨s, h1, h2⟩ := charString_shown hv hs false true
  obtain ⟨t, h3, h4⟩ := charString_shown hv hs false false
  rw [e1] at h2; rw [e2] at h4
  rw [Res.ok.inj h2, Res.ok.inj h4]
  exact ⟨by simpa using h1, by simpa using h3⟩

theorem keyLoop_shown {U : Unicode} (h0 : ¬ Printable U 0) (size : Nat) (vs : List Nat) : ∀ key : List Nat,
    (∀ v ∈ vs, v < 0x110000 ∧ (0xD800 ≤ v → v < 0xE000 → ¬ Printable U v)) → key.length + 8 * vs.length + 1 ≤ size →
    ∃ ss, List.Forall₂ (Shown U true) vs ss ∧ Ngram.keyLoop U size key vs = .ok (key ++ ss.flatten) := by
  induction vs with
  | nil => intro key _ _; exact ⟨[], .nil, by simp [Ngram.keyLoop]⟩
  | cons v vs ih =>
    intro key hv hl
    obtain ⟨a, b⟩ := hv v (by simp)
    obtain ⟨s, ⟨t, hs, hst⟩, e⟩ := c101_char U ⟨false, v⟩ true a b
    rw [if_neg (by simp)] at e
    have hst : t = s := by simpa using hst.symm
    rw [hst] at hs
    have hc : cstr s = s := by
      apply Ngram.cstr_self
      rintro x hx rfl
      exact shown_ne0 h0 hs hx
    have h8 : s.length ≤ 8 := by
      unfold char_to_string at e
      obtain ⟨t, h1, h2⟩ := Res.bind_eq_ok.1 e
      split at h2
      · rename_i h
        have := Res.ok.inj h2
        subst this
        unfold STRING_SIZE at h; omega
      · cases h2
    simp only [List.length_cons] at hl
    obtain ⟨ss, k1, k2⟩ := ih (key ++ s) (fun x hx => hv x (by simp [hx])) (by rw [List.length_append]; omega)
    refine ⟨s :: ss, .cons hs k1, ?_⟩
    unfold Ngram.keyLoop
    rw [e]
    simp only [Res.bind_ok, hc]
    rw [if_pos (by rw [List.length_append]; omega), k2]
    simp

/-- **C101.** The key of an n-gram in the output of `ngram` consists of these texts, one after the other. -/
theorem c101_ngram (U : Unicode) (h0 : ¬ Printable U 0) (vs : List Nat) (hl : vs.length ≤ 3)
    (h : ∀ v ∈ vs, v < 0x110000 ∧ (0xD800 ≤ v → v < 0xE000 → ¬ Printable U v)) :
    ∃ ss, List.Forall₂ (Shown U true) vs ss ∧ Ngram.ngramKey U vs = .ok ss.flatten := by
  obtain ⟨ss, h1, h2⟩ := keyLoop_shown h0 (Ngram.MAX_N * STRING_SIZE) vs [] h (by
    unfold Ngram.MAX_N STRING_SIZE; simp only [List.length_nil]; omega)
  exact ⟨ss, h1, by unfold Ngram.ngramKey; rw [h2]; simp⟩

/-! ## Non-vacuity -/

/-- A suspect accent is shown as `^` and the accent on a dotted circle. -/
example : ShownCh sampleUnicode true ⟨true, 0x301⟩ (ascii "^" ++ utf8 ['◌', '́']) :=
  ⟨_, .mark '́' (by decide) (by unfold Printable; decide) (by unfold Mark; decide) (by decide), rfl⟩

/-- An em space is shown as `<2003>`, an escape character as `<1B>`. -/
example : Shown sampleUnicode false 0x2003 (ascii "<2003>") ∧ Shown sampleUnicode false 0x1B (ascii "<1B>") :=
  ⟨.number (ascii "2003") (by decide) (by unfold Printable; decide)
      ⟨[2, 0, 0, 3], by simp [ascii, UpperDigit], by simp [Nat.ofDigits_cons], by simp [ascii]⟩,
    .number (ascii "1B") (by decide) (by unfold Printable; decide)
      ⟨[1, 11], by simp [ascii, UpperDigit], by simp [Nat.ofDigits_cons], by simp [ascii]⟩⟩

/-- The hypotheses of `c101_file` hold for a text with a letter, a suspect accent, a newline and an unassigned code point. -/
example : ∃ ss, List.Forall₂ (ShownCh sampleUnicode false) [⟨false, 65⟩, ⟨true, 0x301⟩, ⟨false, 10⟩, ⟨false, 0x10FFFF⟩] ss ∧
    write_text sampleUnicode [⟨false, 65⟩, ⟨true, 0x301⟩, ⟨false, 10⟩, ⟨false, 0x10FFFF⟩] none = .ok ss.flatten :=
  c101_file _ (by unfold Printable; decide) _ (by unfold Printable; decide)

example : ∃ ss, List.Forall₂ (Shown sampleUnicode true) [65, 10, 0x301] ss ∧ Ngram.ngramKey sampleUnicode [65, 10, 0x301] = .ok ss.flatten :=
  c101_ngram _ (by unfold Printable; decide) _ (by decide) (by unfold Printable; decide)

example : Shown sampleUnicode true 0x301 (Acc.named sampleUnicode 0x301) ∧ Shown sampleUnicode false 0x301 (Synctext.drawn sampleUnicode 0x301) :=
  c101_names _ _ (by decide) (by omega)

end Ocr.Text
