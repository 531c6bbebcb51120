import Verif.Model.Vote
import Verif.Proof.Ngram

/-!
# The keys of the digrams counted by vote.c

They are made without fake newlines.
-/

namespace Ocr.Vote
open Text Ngram

/-- Code points of the string of a character, newlines as they are. -/
noncomputable def rawTok (U : Unicode) (v : Nat) : List Nat := if v = 10 then [10] else tok U v

/-- Writes newlines as `<\n>`. -/
def fake (b : Nat) : List Nat := if b = 10 then [60, 92, 110, 62] else [b]

theorem flatMap_fake {l : List Nat} (h : 10 ∉ l) : l.flatMap fake = l := by
  induction l with
  | nil => rfl
  | cons a l ih =>
    simp only [List.mem_cons, not_or] at h
    rw [List.flatMap_cons, ih h.2]
    unfold fake
    rw [if_neg (fun e => h.1 e.symm)]; rfl

theorem tok_fake (U : Unicode) (v : Nat) : (rawTok U v).flatMap fake = tok U v := by
  unfold rawTok
  by_cases h : v = 10
  · rw [if_pos h, tok_esc (.inl h), h]; rfl
  · rw [if_neg h]
    apply flatMap_fake
    by_cases he : Escaped U v
    · rw [tok_esc he]
      simp only [List.cons_append, List.mem_cons, List.mem_append, List.not_mem_nil, or_false, not_or]
      refine ⟨by omega, ?_, by omega⟩
      intro hb
      unfold escBody at hb
      rw [if_neg (show ¬ v = NEWLINE from h)] at hb
      have : HexDig 10 := by split at hb <;> exact hexPad_dig _ _ _ hb
      unfold HexDig at this; omega
    · rw [tok_gr he]
      unfold baseCps
      split <;> simp [DOTTED_CIRCLE] <;> omega

theorem rawTok_inj {U} (F : UnicodeFacts U) {xs ys : List Nat} (hl : xs.length = ys.length) (h4 : xs.length ≤ 4)
    (h : xs.flatMap (rawTok U) = ys.flatMap (rawTok U)) : xs = ys := by
  apply tok_inj F xs ys hl h4
  have hh : ∀ zs : List Nat, (zs.flatMap (rawTok U)).flatMap fake = zs.flatMap (tok U) := by
    intro zs
    rw [List.flatMap_assoc]
    congr 1; funext v; exact tok_fake U v
  rw [← hh, ← hh, h]

theorem rawTok_scalar {U} (F : UnicodeFacts U) {v : Nat} (hv : v < 0x110000) : ∀ b ∈ rawTok U v, Scalar b ∧ b ≠ 0 := by
  intro b hb
  unfold rawTok at hb
  split at hb
  · simp at hb; subst hb; unfold Scalar; omega
  · exact tok_scalar F hv b hb

theorem charString_raw {U v} (hv : v < 0x110000) : charString U false v false = .ok ((rawTok U v).flatMap encode_char) := by
  unfold rawTok
  by_cases h : v = 10
  · rw [if_pos h, h]; rfl
  · rw [if_neg h, ← charString_tok hv]
    unfold charString
    have h' : ¬ v = NEWLINE := h
    simp only [h', if_false]

theorem raw_cstr {U} (F : UnicodeFacts U) {v : Nat} (hv : v < 0x110000) :
    cstr ((rawTok U v).flatMap encode_char) = (rawTok U v).flatMap encode_char := by
  apply cstr_self
  intro b hb
  obtain ⟨c, hc, hb⟩ := List.mem_flatMap.1 hb
  exact encode_nz (rawTok_scalar F hv c hc).2 b hb

theorem char_to_string_raw {U : Unicode} {v : Nat} (hv : v < 0x110000) :
    char_to_string U STRING_SIZE false v false = .ok ((rawTok U v).flatMap encode_char) ∧
      ((rawTok U v).flatMap encode_char).length + 1 ≤ STRING_SIZE := by
  obtain ⟨s, hs, hl⟩ := charString_len (U := U) hv false false
  rw [charString_raw hv] at hs
  have hs := Res.ok.inj hs
  subst hs
  have hl := hl.2 (by simp)
  refine ⟨?_, hl⟩
  unfold char_to_string
  rw [charString_raw hv]
  simp only [Res.bind_ok, if_pos hl]; rfl

theorem keyLoop_eq {U} (F : UnicodeFacts U) (size : Nat) : ∀ (vs key : List Nat), (∀ v ∈ vs, v < 0x110000) →
    key.length + 8 * vs.length + 1 ≤ size →
    keyLoop U size key vs = .ok (key ++ (vs.flatMap (rawTok U)).flatMap encode_char) := by
  intro vs
  induction vs with
  | nil => intro key _ _; simp [keyLoop]
  | cons v vs ih =>
    intro key hv hs
    obtain ⟨h1, h2⟩ := char_to_string_raw (U := U) (hv v (by simp))
    unfold keyLoop
    rw [h1]
    simp only [Res.bind_ok, raw_cstr F (hv v (by simp))]
    simp only [STRING_SIZE, List.length_cons] at h2 hs
    rw [if_pos (by rw [List.length_append]; omega), ih _ (fun x hx => hv x (by simp [hx]))]
    · simp [List.flatMap_append]
    · rw [List.length_append]; omega

/-- The key of a digram. -/
noncomputable def dkey (U : Unicode) (d : Nat × Nat) : List Nat := ([d.1, d.2].flatMap (rawTok U)).flatMap encode_char

theorem dkey_inj {U} (F : UnicodeFacts U) {d e : Nat × Nat} (hd : d.1 < 0x110000 ∧ d.2 < 0x110000)
    (he : e.1 < 0x110000 ∧ e.2 < 0x110000) (h : dkey U d = dkey U e) : d = e := by
  have sc : ∀ d : Nat × Nat, d.1 < 0x110000 ∧ d.2 < 0x110000 → ∀ c ∈ [d.1, d.2].flatMap (rawTok U), Scalar c := by
    intro d hd c hc
    obtain ⟨v, hv, hc⟩ := List.mem_flatMap.1 hc
    refine (rawTok_scalar F ?_ c hc).1
    simp at hv
    rcases hv with rfl | rfl
    · exact hd.1
    · exact hd.2
  have := encode_flat_inj _ _ (sc d hd) (sc e he) h
  have := rawTok_inj F (by simp) (by simp) this
  simp at this
  exact Prod.ext this.1 this.2

theorem digram_key {U} (F : UnicodeFacts U) {a b : Nat} (ha : a < 0x110000) (hb : b < 0x110000) :
    keyLoop U (N * STRING_SIZE) [] [a, b] = .ok (dkey U (a, b)) := by
  have := keyLoop_eq F (N * STRING_SIZE) [a, b] [] (by simp [ha, hb]) (by simp [N, STRING_SIZE])
  simpa [dkey] using this

theorem single_key {U} (F : UnicodeFacts U) {a : Nat} (ha : a < 0x110000) : ∃ k, keyLoop U (N * STRING_SIZE) [] [a] = .ok k :=
  ⟨_, keyLoop_eq F (N * STRING_SIZE) [a] [] (by simp [ha]) (by simp [N, STRING_SIZE])⟩

end Ocr.Vote
