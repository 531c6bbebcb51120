import Verif.Model.ReadChar
import Verif.Proof.Text
import Mathlib.Tactic.Ring
import Mathlib.Tactic.NormNum

namespace Ocr

theorem hexVal_digit {d : Nat} (h : d < 16) : hexVal? (Text.hexDigit d) = some d := by
  unfold hexVal? Text.hexDigit
  by_cases h1 : d < 10
  · rw [if_pos h1, if_pos (by omega)]; congr 1; omega
  · rw [if_neg h1, if_neg (by omega), if_pos (by omega)]; congr 1; omega

/-- Upper-case hexadecimal digits. -/
def HexDig (b : Nat) : Prop := (48 ≤ b ∧ b ≤ 57) ∨ (65 ≤ b ∧ b ≤ 70)

theorem hexDigit_dig {d : Nat} (h : d < 16) : HexDig (Text.hexDigit d) := by
  unfold HexDig Text.hexDigit; split <;> omega

theorem hexUpper_dig (v : Nat) : ∀ b ∈ Text.hexUpper v, HexDig b := by
  induction v using Nat.strongRecOn with
  | ind v ih =>
    rw [Text.hexUpper]
    split
    · intro b hb; simp at hb; subst hb; exact hexDigit_dig (by assumption)
    · intro b hb
      rcases List.mem_append.1 hb with hb | hb
      · exact ih (v / 16) (by omega) b hb
      · simp at hb; subst hb; exact hexDigit_dig (by omega)

theorem hexPad_dig (w v : Nat) : ∀ b ∈ Text.hexPad w v, HexDig b := by
  intro b hb
  rcases List.mem_append.1 hb with hb | hb
  · have := List.eq_of_mem_replicate hb; subst this; left; omega
  · exact hexUpper_dig v b hb

theorem hexPad_len (w v : Nat) : (Text.hexPad w v).length = max w (Text.hexUpper v).length := by
  simp [Text.hexPad]; omega

theorem hexUpper_len_le (k : Nat) : ∀ v, v < 16 ^ (k + 1) → (Text.hexUpper v).length ≤ k + 1 := by
  induction k with
  | zero => intro v h; rw [Text.hexUpper, if_pos (by simpa using h)]; simp
  | succ k ih =>
    intro v h
    rw [Text.hexUpper]
    split
    · simp
    · have := ih (v / 16) (by rw [Nat.div_lt_iff_lt_mul (by omega)]; rw [pow_succ] at h; omega)
      simp; omega

theorem hexUpper_len_ge (k : Nat) : ∀ v, 16 ^ k ≤ v → k + 1 ≤ (Text.hexUpper v).length := by
  induction k with
  | zero =>
    intro v _; rw [Text.hexUpper]; split <;> simp
  | succ k ih =>
    intro v h
    rw [Text.hexUpper, if_neg (by have := Nat.one_le_pow k 16 (by omega); rw [pow_succ] at h; omega)]
    have := ih (v / 16) (by rw [Nat.le_div_iff_mul_le (by omega)]; rw [pow_succ] at h; omega)
    simp; omega

theorem scan_hexUpper (v : Nat) : ∀ (acc n : Nat) (s : List Nat),
    scanHexDigits acc n (Text.hexUpper v ++ s) =
      scanHexDigits (16 ^ (Text.hexUpper v).length * acc + v) (n + (Text.hexUpper v).length) s := by
  induction v using Nat.strongRecOn with
  | ind v ih =>
    intro acc n s
    rw [Text.hexUpper]
    split
    · rename_i h
      simp [scanHexDigits, hexVal_digit h]
    · rename_i h
      rw [List.append_assoc, ih (v / 16) (by omega)]
      simp only [List.cons_append, List.nil_append, scanHexDigits, hexVal_digit (show v % 16 < 16 by omega)]
      congr 1
      · simp only [List.length_append, List.length_cons, List.length_nil, pow_succ]
        have := Nat.div_add_mod v 16
        rw [Nat.mul_add, Nat.add_assoc, this]; ring
      · simp; omega

theorem scan_zeros (k : Nat) : ∀ (n : Nat) (s : List Nat),
    scanHexDigits 0 n (List.replicate k 48 ++ s) = scanHexDigits 0 (n + k) s := by
  induction k with
  | zero => intro n s; simp
  | succ k ih =>
    intro n s
    have : hexVal? 48 = some 0 := by decide
    simp only [List.replicate_succ, List.cons_append, scanHexDigits, this]
    rw [show 16 * 0 + 0 = 0 from rfl, ih]
    congr 1; omega

theorem scan_hexPad (w v : Nat) (b : Nat) (s : List Nat) (hb : hexVal? b = none) :
    scanHexDigits 0 0 (Text.hexPad w v ++ b :: s) = (v, (Text.hexPad w v).length) := by
  unfold Text.hexPad
  rw [List.append_assoc, scan_zeros, scan_hexUpper]
  simp [scanHexDigits, hb]

theorem hexPad_inj {w v v' : Nat} (h : Text.hexPad w v = Text.hexPad w v') : v = v' := by
  have h1 := scan_hexPad w v 62 [] (by decide)
  have h2 := scan_hexPad w v' 62 [] (by decide)
  rw [h, h2] at h1
  exact (Prod.mk.inj h1).1.symm

theorem hexPad_inj2 {w w' v v' : Nat} (h : Text.hexPad w v = Text.hexPad w' v') : v = v' := by
  have h1 := scan_hexPad w v 62 [] (by decide)
  have h2 := scan_hexPad w' v' 62 [] (by decide)
  rw [h, h2] at h1
  exact (Prod.mk.inj h1).1.symm

theorem hexDig_not {b : Nat} (h : HexDig b) : isspace b = false ∧ b ≠ 45 ∧ b ≠ 43 ∧ b ≠ 120 ∧ b ≠ 88 := by
  unfold HexDig at h
  refine ⟨?_, by omega, by omega, by omega, by omega⟩
  simp [isspace]; omega

theorem scanHex_hexPad (w v : Nat) (s : List Nat) (hw : 2 ≤ w) (hv : v < 2 ^ 32) :
    scanHex (Text.hexPad w v ++ 62 :: s) = some (v, (Text.hexPad w v).length) := by
  have hscan := scan_hexPad w v 62 s (by decide)
  have hl : 2 ≤ (Text.hexPad w v).length := by rw [hexPad_len]; omega
  have hd := hexPad_dig w v
  generalize Text.hexPad w v = l at *
  match l, hl with
  | d1 :: d2 :: l, _ =>
    obtain ⟨a1, a2, a3, _, _⟩ := hexDig_not (hd d1 (by simp))
    obtain ⟨_, _, _, b4, b5⟩ := hexDig_not (hd d2 (by simp))
    unfold scanHex
    simp only [List.cons_append] at hscan ⊢
    rw [List.takeWhile_cons_of_neg (by simp [a1]), List.dropWhile_cons_of_neg (by simp [a1])]
    simp only [scanSign, a2, a3, if_false, scanPrefix, b4, b5, or_self, and_false, hscan]
    simp
    omega

end Ocr

namespace Ocr.Text

/-- Characters printed as an escape `<...>` (with `fake_newline`). -/
def Escaped (U : Unicode) (v : Nat) : Prop := v = NEWLINE ∨ is_graphic U v = false

/-- What is between the brackets of an escape. -/
def escBody (v : Nat) : List Nat :=
  if v = NEWLINE then [92, 110] else if v < 256 then hexPad 2 v else hexPad 4 v

theorem escBody_ne (v : Nat) : ∀ b ∈ escBody v, b ≠ 60 ∧ b ≠ 62 ∧ b ≠ DOTTED_CIRCLE ∧ b ≠ 0 ∧ b < 128 := by
  intro b hb
  unfold escBody at hb
  split at hb
  · simp at hb; unfold DOTTED_CIRCLE; omega
  · have : HexDig b := by split at hb <;> exact hexPad_dig _ _ b hb
    unfold HexDig at this; unfold DOTTED_CIRCLE; omega

theorem escBody_len (v : Nat) : 2 ≤ (escBody v).length := by
  unfold escBody
  split
  · simp
  · split <;> rw [hexPad_len] <;> omega

theorem escBody_inj {v v' : Nat} (h : escBody v = escBody v') : v = v' := by
  have key : ∀ v v', v = NEWLINE → escBody v = escBody v' → v = v' := by
    intro v v' hv h
    by_cases hv' : v' = NEWLINE
    · rw [hv, hv']
    · exfalso
      have h92 : (92 : Nat) ∈ escBody v' := by rw [← h]; simp [escBody, hv]
      unfold escBody at h92
      rw [if_neg hv'] at h92
      have : HexDig 92 := by split at h92 <;> exact hexPad_dig _ _ _ h92
      unfold HexDig at this; omega
  by_cases hv : v = NEWLINE
  · exact key v v' hv h
  by_cases hv' : v' = NEWLINE
  · exact (key v' v hv' h.symm).symm
  unfold escBody at h
  rw [if_neg hv, if_neg hv'] at h
  split at h <;> split at h <;> exact hexPad_inj2 h

theorem encode_or_die_ok {v : Nat} (h : v < 0x110000) : encode_or_die v = .ok (encode_char v) := by
  have := encode_ne_nil h
  unfold encode_or_die
  split
  · contradiction
  · rfl

/-- The bytes of the suspect mark. -/
def markBytes (s : Bool) : List Nat := if s then [94] else []

theorem mark_eq (s : Bool) : (if s then encode_or_die SUSPECT_MARKER else pure []) = Res.ok (markBytes s) := by
  cases s <;> rfl

/-- `char_to_string` with fake newlines, on escaped characters. -/
theorem charString_esc {U v} (h : Escaped U v) (s : Bool) :
    charString U s v true = .ok (markBytes s ++ 60 :: escBody v ++ [62]) := by
  unfold charString
  rw [mark_eq]
  simp only [Res.bind_ok, Res.pure_eq]
  have e1 : ascii "<\\n>" = [60, 92, 110, 62] := by decide
  have e2 : ascii "<" = [60] := by decide
  have e3 : ascii ">" = [62] := by decide
  by_cases hn : v = NEWLINE
  · simp [hn, escBody, e1]
  · have hg := h.resolve_left hn
    by_cases hv : v < 256
    · simp [hn, hg, hv, escBody, e2, e3]
    · simp [hn, hg, hv, escBody, e2, e3]

/-- The dotted circle put before combining characters. -/
def baseCps (U : Unicode) (v : Nat) : List Nat := if is_combining U v then [DOTTED_CIRCLE] else []

theorem charString_graphic {U v} (h : ¬ Escaped U v) (hv : v < 0x110000) (s fn : Bool) :
    charString U s v fn = .ok (markBytes s ++ (baseCps U v ++ [v]).flatMap encode_char) := by
  unfold Escaped at h
  simp only [not_or, Bool.not_eq_false] at h
  unfold charString baseCps
  rw [mark_eq]
  simp only [Res.bind_ok, Res.pure_eq, h.1, if_false, h.2, if_true]
  rw [encode_or_die_ok hv]
  split
  · rw [encode_or_die_ok (by decide)]; simp
  · simp

end Ocr.Text
