import Verif.Model.Utf8
import Verif.Spec.Utf8

namespace Ocr

/-- Unicode scalar value. -/
def Scalar (v : Nat) : Prop := v < 0xD800 ∨ (0xE000 ≤ v ∧ v < 0x110000)

theorem scalar_char (c : Char) : Scalar c.toNat := by
  have := c.valid
  unfold Scalar
  simp only [UInt32.isValidChar, Nat.isValidChar] at this
  show c.val.toNat < _ ∨ _ ≤ c.val.toNat ∧ c.val.toNat < _
  omega

theorem enc_eq (c : Char) : (String.utf8EncodeChar c).map UInt8.toNat = encode_char c.toNat := by
  have h := scalar_char c
  unfold Scalar at h
  unfold String.utf8EncodeChar encode_char
  rw [show c.val.toNat = c.toNat from rfl]
  generalize c.toNat = v at *
  by_cases h1 : v ≤ 0x7f
  · simp [h1, show v < 0x80 by omega]; omega
  · by_cases h2 : v ≤ 0x7ff
    · simp [h1, h2, show ¬ v < 0x80 by omega, show v < 0x800 by omega]; omega
    · by_cases h3 : v ≤ 0xffff
      · simp [h1, h2, h3, show ¬ v < 0x80 by omega, show ¬ v < 0x800 by omega, show v < 0x10000 by omega]; omega
      · simp [h1, h2, h3, show ¬ v < 0x80 by omega, show ¬ v < 0x800 by omega, show ¬ v < 0x10000 by omega,
          show v < 0x110000 by omega]; omega

theorem utf8_cons (c : Char) (cs : List Char) : utf8 (c :: cs) = encode_char c.toNat ++ utf8 cs := by
  simp [utf8, enc_eq]

theorem encode_ne_nil {v : Nat} (h : v < 0x110000) : encode_char v ≠ [] := by
  unfold encode_char; repeat' split
  all_goals first | omega | simp

theorem encode_bytes (v : Nat) : Bytes (encode_char v) := by
  intro b hb
  unfold encode_char at hb
  split at hb
  · simp at hb; omega
  · split at hb
    · simp at hb; omega
    · split at hb
      · simp at hb; omega
      · split at hb
        · simp at hb; omega
        · simp at hb

theorem utfCont_iff {b : Nat} : utfCont b = true ↔ 0x80 ≤ b ∧ b < 0xC0 := by simp [utfCont]

theorem iterate_encode {v : Nat} (h : Scalar v) (s : List Nat) :
    iterate (encode_char v ++ s) = some ((encode_char v).length, v) := by
  unfold Scalar at h
  unfold encode_char
  by_cases h1 : v < 0x80
  · simp [h1, iterate]
  · by_cases h2 : v < 0x800
    · simp only [h1, h2, if_false, if_true, List.cons_append, List.nil_append, iterate]
      have e1 : ¬ (0xC0 + v / 64 < 0x80) := by omega
      have e2 : ¬ (0xC0 + v / 64 < 0xC2 ∨ 0xC0 + v / 64 > 0xF4) := by omega
      have e3 : 0xC0 + v / 64 < 0xE0 := by omega
      simp only [e1, e2, e3, if_false, if_true]
      rw [if_pos (utfCont_iff.2 (by omega))]
      simp; omega
    · by_cases h3 : v < 0x10000
      · simp only [h1, h2, h3, if_false, if_true, List.cons_append, List.nil_append, iterate]
        have e1 : ¬ (0xE0 + v / 4096 < 0x80) := by omega
        have e2 : ¬ (0xE0 + v / 4096 < 0xC2 ∨ 0xE0 + v / 4096 > 0xF4) := by omega
        have e3 : ¬ (0xE0 + v / 4096 < 0xE0) := by omega
        have e4 : 0xE0 + v / 4096 < 0xF0 := by omega
        simp only [e1, e2, e3, e4, if_false, if_true]
        rw [if_pos ⟨utfCont_iff.2 (by omega), utfCont_iff.2 (by omega)⟩, if_neg (by omega), if_neg (by omega)]
        simp; omega
      · have h4 : v < 0x110000 := by omega
        simp only [h1, h2, h3, h4, if_false, if_true, List.cons_append, List.nil_append, iterate]
        have e1 : ¬ (0xF0 + v / 262144 < 0x80) := by omega
        have e2 : ¬ (0xF0 + v / 262144 < 0xC2 ∨ 0xF0 + v / 262144 > 0xF4) := by omega
        have e3 : ¬ (0xF0 + v / 262144 < 0xE0) := by omega
        have e4 : ¬ (0xF0 + v / 262144 < 0xF0) := by omega
        simp only [e1, e2, e3, e4, if_false]
        rw [if_pos ⟨utfCont_iff.2 (by omega), utfCont_iff.2 (by omega), utfCont_iff.2 (by omega)⟩,
          if_neg (by omega), if_neg (by omega)]
        simp; omega

theorem iterate_some {bs : List Nat} (hb : Bytes bs) {n v : Nat} (h : iterate bs = some (n, v)) :
    Scalar v ∧ n = (encode_char v).length ∧ bs.take n = encode_char v := by
  unfold Scalar encode_char
  cases bs with
  | nil => simp [iterate] at h
  | cons uc str =>
    have h0 : uc < 256 := hb uc (by simp)
    simp only [iterate] at h
    split at h
    · rename_i h1
      simp at h; obtain ⟨rfl, rfl⟩ := h
      refine ⟨by omega, ?_, ?_⟩ <;> simp [h1]
    · split at h
      · simp at h
      · split at h
        · split at h
          · rename_i h1 h2 h3 _ c1 rest
            split at h
            · rename_i h4
              simp at h; obtain ⟨rfl, rfl⟩ := h
              rw [utfCont_iff] at h4
              have a1 : ¬ (uc % 32 * 64 + c1 % 64 < 0x80) := by omega
              have a2 : uc % 32 * 64 + c1 % 64 < 0x800 := by omega
              refine ⟨by omega, ?_, ?_⟩
              · simp [a1, a2]
              · simp [a1, a2]; omega
            · simp at h
          · simp at h
        · split at h
          · split at h
            · rename_i h1 h2 h3 h4 _ c1 c2 rest
              split at h
              · rename_i h5
                split at h
                · simp at h
                · rename_i h6
                  split at h
                  · simp at h
                  · rename_i h7
                    simp at h; obtain ⟨rfl, rfl⟩ := h
                    simp only [utfCont_iff] at h5
                    have a1 : ¬ (uc % 16 * 4096 + c1 % 64 * 64 + c2 % 64 < 0x80) := by omega
                    have a3 : uc % 16 * 4096 + c1 % 64 * 64 + c2 % 64 < 0x10000 := by omega
                    refine ⟨by omega, ?_, ?_⟩
                    · simp [a1, h7, a3]
                    · simp [a1, h7, a3]; omega
              · simp at h
            · simp at h
          · split at h
            · rename_i h1 h2 h3 h4 _ c1 c2 c3 rest
              split at h
              · rename_i h5
                split at h
                · simp at h
                · split at h
                  · simp at h
                  · rename_i h6 h7
                    simp at h; obtain ⟨rfl, rfl⟩ := h
                    simp only [utfCont_iff] at h5
                    generalize hv : uc % 8 * 262144 + c1 % 64 * 4096 + c2 % 64 * 64 + c3 % 64 = v
                    have a1 : ¬ (v < 0x80) := by omega
                    have a2 : ¬ (v < 0x800) := by omega
                    have a3 : ¬ (v < 0x10000) := by omega
                    have a4 : v < 0x110000 := by omega
                    refine ⟨by omega, ?_, ?_⟩
                    · simp [a1, a2, a3, a4]
                    · simp [a1, a2, a3, a4]; omega
              · simp at h
            · simp at h

theorem utf8class_encode {v : Nat} (h : v < 0x110000) : ∃ b bs, encode_char v = b :: bs ∧ b < 256 ∧
    utf8class b = bs.length + 1 := by
  unfold encode_char
  by_cases h1 : v < 0x80
  · exact ⟨v, [], by simp [h1], by omega, by simp [utf8class, h1]⟩
  · by_cases h2 : v < 0x800
    · refine ⟨0xC0 + v / 64, [0x80 + v % 64], by simp [h1, h2], by omega, ?_⟩
      unfold utf8class
      rw [if_neg (by omega), if_neg (by omega), if_pos (by omega)]; rfl
    · by_cases h3 : v < 0x10000
      · refine ⟨0xE0 + v / 4096, [0x80 + v / 64 % 64, 0x80 + v % 64], by simp [h1, h2, h3], by omega, ?_⟩
        unfold utf8class
        rw [if_neg (by omega), if_neg (by omega), if_neg (by omega), if_pos (by omega)]; rfl
      · refine ⟨0xF0 + v / 262144, [0x80 + v / 4096 % 64, 0x80 + v / 64 % 64, 0x80 + v % 64],
          by simp [h1, h2, h3, h], by omega, ?_⟩
        unfold utf8class
        rw [if_neg (by omega), if_neg (by omega), if_neg (by omega), if_neg (by omega), if_pos (by omega)]; rfl

end Ocr
