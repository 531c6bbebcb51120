import Verif.Model.Ngram
import Verif.Proof.ReadChar

namespace Ocr

theorem encode_flat_inj : ∀ (xs ys : List Nat), (∀ x ∈ xs, Scalar x) → (∀ y ∈ ys, Scalar y) →
    xs.flatMap encode_char = ys.flatMap encode_char → xs = ys := by
  intro xs
  induction xs with
  | nil =>
    intro ys _ hy h
    cases ys with
    | nil => rfl
    | cons y ys =>
      exfalso
      have hs := hy y (by simp)
      have := encode_ne_nil (v := y) (by unfold Scalar at hs; omega)
      simp [this] at h
  | cons x xs ih =>
    intro ys hx hy h
    have hsx := hx x (by simp)
    cases ys with
    | nil =>
      exfalso
      have := encode_ne_nil (v := x) (by unfold Scalar at hsx; omega)
      simp [this] at h
    | cons y ys =>
      have hsy := hy y (by simp)
      simp only [List.flatMap_cons] at h
      have h1 := iterate_encode hsx (xs.flatMap encode_char)
      have h2 := iterate_encode hsy (ys.flatMap encode_char)
      rw [h, h2] at h1
      simp at h1
      obtain ⟨_, rfl⟩ := h1
      have := List.append_cancel_left h
      rw [ih ys (fun a ha => hx a (by simp [ha])) (fun a ha => hy a (by simp [ha])) this]

namespace Ngram
open Text

open Classical in
/-- Code points of the string of a character. -/
noncomputable def tok (U : Unicode) (v : Nat) : List Nat :=
  if Escaped U v then 60 :: escBody v ++ [62] else baseCps U v ++ [v]

theorem tok_esc {U v} (h : Escaped U v) : tok U v = 60 :: escBody v ++ [62] := if_pos h
theorem tok_gr {U v} (h : ¬ Escaped U v) : tok U v = baseCps U v ++ [v] := if_neg h

theorem tok_ne (U v) : tok U v ≠ [] := by unfold tok; split <;> simp

/-- A token starting with neither `<` nor the dotted circle is that one character. -/
theorem tok_single {U v b t} (h : tok U v = b :: t) (h1 : b ≠ 60) (h2 : b ≠ DOTTED_CIRCLE) : t = [] ∧ v = b := by
  by_cases he : Escaped U v
  · rw [tok_esc he] at h; simp at h; omega
  · rw [tok_gr he] at h
    unfold baseCps at h
    split at h
    · simp at h; omega
    · simp at h; exact ⟨h.2, h.1⟩

theorem peel (U) : ∀ (w r vs : List Nat), (∀ b ∈ w, b ≠ 60 ∧ b ≠ DOTTED_CIRCLE) →
    vs.flatMap (tok U) = w ++ r → w.length ≤ vs.length ∧ (vs.drop w.length).flatMap (tok U) = r := by
  intro w
  induction w with
  | nil => intro r vs _ h; simpa using h
  | cons b w ih =>
    intro r vs hw h
    cases vs with
    | nil => simp at h
    | cons v vs =>
      simp only [List.flatMap_cons] at h
      cases ht : tok U v with
      | nil => exact absurd ht (tok_ne U v)
      | cons b' t =>
        rw [ht] at h
        simp only [List.cons_append, List.cons.injEq] at h
        obtain ⟨rfl, h⟩ := h
        have hb := hw b' (by simp)
        obtain ⟨rfl, -⟩ := tok_single ht hb.1 hb.2
        obtain ⟨i1, i2⟩ := ih r vs (fun b hb => hw b (by simp [hb])) (by simpa using h)
        exact ⟨by simp; omega, by simpa using i2⟩

theorem esc_split {h h' : List Nat} {r r' : List Nat} (hn : ∀ b ∈ h, b ≠ 62) (hn' : ∀ b ∈ h', b ≠ 62)
    (e : h ++ 62 :: r = h' ++ 62 :: r') : h = h' ∧ r = r' := by
  induction h generalizing h' with
  | nil =>
    cases h' with
    | nil => simpa using e
    | cons a h' => simp at e; exact absurd e.1.symm (hn' a (by simp))
  | cons a h ih =>
    cases h' with
    | nil => simp at e; exact absurd e.1 (hn a (by simp))
    | cons a' h' =>
      simp only [List.cons_append, List.cons.injEq] at e
      obtain ⟨rfl, e⟩ := e
      obtain ⟨rfl, rfl⟩ := ih (fun b hb => hn b (by simp [hb])) (fun b hb => hn' b (by simp [hb])) e
      simp

theorem no_mixed {U} {x : Nat} (hx : Escaped U x) {xs ys : List Nat} (hl : xs.length = ys.length) (h3 : ys.length ≤ 3)
    (e : escBody x ++ 62 :: xs.flatMap (tok U) = ys.flatMap (tok U)) : False := by
  have hne := escBody_ne x
  have := peel U (escBody x ++ [62]) (xs.flatMap (tok U)) ys (by
    intro b hb
    rcases List.mem_append.1 hb with hb | hb
    · exact ⟨(hne b hb).1, (hne b hb).2.2.1⟩
    · simp at hb; subst hb; decide) (by rw [← e]; simp)
  obtain ⟨p1, p2⟩ := this
  have hb := escBody_len x
  simp only [List.length_append, List.length_cons, List.length_nil] at p1 p2
  rw [List.drop_eq_nil_of_le (by omega)] at p2
  cases xs with
  | nil => simp at hl; omega
  | cons a xs => simp [tok_ne] at p2

/-- Sequences of up to four characters are determined by the concatenation of their strings. -/
theorem tok_inj {U} (F : UnicodeFacts U) : ∀ (xs ys : List Nat), xs.length = ys.length → xs.length ≤ 4 →
    xs.flatMap (tok U) = ys.flatMap (tok U) → xs = ys := by
  intro xs
  have hcomb : ∀ x, is_combining U x = true → x ≠ 60 := by
    rintro x hx rfl
    rw [F.ascii 60 (by omega)] at hx; simp at hx
  induction xs with
  | nil => intro ys hl _ _; cases ys with
    | nil => rfl
    | cons _ _ => simp at hl
  | cons x xs ih =>
    intro ys hl h4 e
    cases ys with
    | nil => simp at hl
    | cons y ys =>
      have hl' : xs.length = ys.length := by simpa using hl
      have h3 : xs.length ≤ 3 := by simpa using h4
      simp only [List.flatMap_cons] at e
      -- a combining character against a plain dotted circle
      have mixed : ∀ (x y : Nat) (xs ys : List Nat), ¬ Escaped U x → ¬ Escaped U y → is_combining U x = true →
          is_combining U y = false → DOTTED_CIRCLE :: x :: xs.flatMap (tok U) = y :: ys.flatMap (tok U) → False := by
        intro x y xs ys hx hy cx cy e
        simp only [List.cons.injEq] at e
        obtain ⟨rfl, e⟩ := e
        cases ys with
        | nil => simp at e
        | cons z ys =>
          simp only [List.flatMap_cons] at e
          by_cases hz : Escaped U z
          · rw [tok_esc hz] at e
            simp at e
            exact hcomb x cx e.1
          · rw [tok_gr hz] at e
            unfold baseCps at e
            split at e
            · simp at e
              rw [e.1, cy] at cx; simp at cx
            · rename_i hcz
              simp at e
              rw [e.1] at cx
              exact hcz cx
      by_cases hx : Escaped U x <;> by_cases hy : Escaped U y
      · rw [tok_esc hx, tok_esc hy] at e
        simp only [List.cons_append, List.append_assoc, List.nil_append, List.cons.injEq, true_and] at e
        obtain ⟨e1, e2⟩ := esc_split (fun b hb => (escBody_ne x b hb).2.1) (fun b hb => (escBody_ne y b hb).2.1) e
        rw [escBody_inj e1, ih ys hl' (by omega) e2]
      · exfalso
        rw [tok_esc hx, tok_gr hy] at e
        unfold baseCps at e
        split at e
        · simp [DOTTED_CIRCLE] at e
        · simp only [List.cons_append, List.append_assoc, List.nil_append, List.cons.injEq] at e
          exact no_mixed hx hl' (by omega) e.2
      · exfalso
        rw [tok_esc hy, tok_gr hx] at e
        unfold baseCps at e
        split at e
        · simp [DOTTED_CIRCLE] at e
        · simp only [List.cons_append, List.append_assoc, List.nil_append, List.cons.injEq] at e
          exact no_mixed hy hl'.symm (by omega) e.2.symm
      · rw [tok_gr hx, tok_gr hy] at e
        unfold baseCps at e
        by_cases cx : is_combining U x = true <;> by_cases cy : is_combining U y = true
        · simp [cx, cy] at e
          rw [e.1, ih ys hl' (by omega) e.2]
        · exfalso; simp [cx, cy] at e
          exact mixed x y xs ys hx hy cx (by simpa using cy) (by simp [e.1, e.2])
        · exfalso; simp [cx, cy] at e
          exact mixed y x ys xs hy hx cy (by simpa using cx) (by simp [← e.1, ← e.2])
        · simp [cx, cy] at e
          rw [e.1, ih ys hl' (by omega) e.2]

theorem esc_bytes {l : List Nat} (h : ∀ b ∈ l, b < 128) : l.flatMap encode_char = l := by
  induction l with
  | nil => rfl
  | cons a l ih =>
    have ha := h a (by simp)
    have e : encode_char a = [a] := by unfold encode_char; rw [if_pos (by omega)]
    rw [List.flatMap_cons, e, ih (fun b hb => h b (by simp [hb]))]; rfl

theorem charString_tok {U v} (hv : v < 0x110000) :
    charString U false v true = .ok ((tok U v).flatMap encode_char) := by
  by_cases h : Escaped U v
  · rw [charString_esc h, tok_esc h, esc_bytes]
    · simp [markBytes]
    · intro b hb
      simp at hb
      rcases hb with rfl | hb | rfl
      · omega
      · exact (escBody_ne v b hb).2.2.2.2
      · omega
  · rw [charString_graphic h hv, tok_gr h]
    simp [markBytes]

theorem tok_scalar {U} (F : UnicodeFacts U) {v : Nat} (hv : v < 0x110000) : ∀ b ∈ tok U v, Scalar b ∧ b ≠ 0 := by
  intro b hb
  by_cases h : Escaped U v
  · rw [tok_esc h] at hb
    simp at hb
    unfold Scalar
    rcases hb with rfl | hb | rfl
    · omega
    · have := (escBody_ne v b hb).2.2.2; omega
    · omega
  · rw [tok_gr h] at hb
    unfold Escaped at h
    simp only [not_or, Bool.not_eq_false] at h
    have hv0 : v ≠ 0 := by rintro rfl; rw [F.nul] at h; simp at h
    have hsc : Scalar v := by
      unfold Scalar
      by_contra hcon
      have := F.surrogate v (by omega) (by omega)
      rw [this] at h; simp at h
    unfold baseCps at hb
    split at hb
    · simp at hb
      rcases hb with rfl | rfl
      · unfold Scalar DOTTED_CIRCLE; omega
      · exact ⟨hsc, hv0⟩
    · simp at hb; subst hb; exact ⟨hsc, hv0⟩

theorem encode_nz {v : Nat} (h : v ≠ 0) : ∀ b ∈ encode_char v, b ≠ 0 := by
  intro b hb
  by_cases h80 : 0x80 ≤ v
  · have := encode_hi h80 b hb; omega
  · unfold encode_char at hb
    rw [if_pos (by omega)] at hb
    simp at hb; omega

theorem cstr_self {l : List Nat} (h : ∀ b ∈ l, b ≠ 0) : cstr l = l := by
  have := List.takeWhile_append_of_pos (p := fun b : Nat => decide (b ≠ 0)) (l₁ := l) (l₂ := [])
    (by intro b hb; simpa using h b hb)
  simpa [cstr] using this

theorem tok_cstr {U} (F : UnicodeFacts U) {v : Nat} (hv : v < 0x110000) :
    cstr ((tok U v).flatMap encode_char) = (tok U v).flatMap encode_char := by
  apply cstr_self
  intro b hb
  obtain ⟨c, hc, hb⟩ := List.mem_flatMap.1 hb
  exact encode_nz (tok_scalar F hv c hc).2 b hb

theorem char_to_string_plain {U : Unicode} {v : Nat} (hv : v < 0x110000) :
    char_to_string U STRING_SIZE false v true = .ok ((tok U v).flatMap encode_char) ∧
      ((tok U v).flatMap encode_char).length + 1 ≤ STRING_SIZE := by
  obtain ⟨s, hs, hl⟩ := charString_len (U := U) hv false true
  rw [charString_tok hv] at hs
  have hs := Res.ok.inj hs
  subst hs
  have hl := hl.2 (by simp)
  refine ⟨?_, hl⟩
  unfold char_to_string
  rw [charString_tok hv]
  simp only [Res.bind_ok, if_pos hl]; rfl

theorem keyLoop_eq {U} (F : UnicodeFacts U) (size : Nat) : ∀ (vs key : List Nat), (∀ v ∈ vs, v < 0x110000) →
    key.length + 8 * vs.length + 1 ≤ size →
    keyLoop U size key vs = .ok (key ++ (vs.flatMap (tok U)).flatMap encode_char) := by
  intro vs
  induction vs with
  | nil => intro key _ _; simp [keyLoop]
  | cons v vs ih =>
    intro key hv hs
    obtain ⟨h1, h2⟩ := char_to_string_plain (U := U) (hv v (by simp))
    unfold keyLoop
    rw [h1]
    simp only [Res.bind_ok, tok_cstr F (hv v (by simp))]
    simp only [STRING_SIZE, List.length_cons] at h2 hs
    rw [if_pos (by rw [List.length_append]; omega), ih _ (fun x hx => hv x (by simp [hx]))]
    · simp [List.flatMap_append]
    · rw [List.length_append]; omega

end Ngram
end Ocr
