import Mathlib.Data.List.Basic
import Mathlib.Data.Nat.Find

/-!
# Common subsequences along grid paths

`Fwd p i j`: the prefixes of lengths `i`, `j` have a common subsequence that leaves exactly `p` elements unmatched.
`Rest r i j`: the suffixes have one that leaves at most `r` elements unmatched.
-/

namespace Ocr.Lcs
variable {α : Type} {xs ys : List α}

def Fwd (xs ys : List α) (p i j : Nat) : Prop :=
  i ≤ xs.length ∧ j ≤ ys.length ∧ ∃ c : List α, c.Sublist (xs.take i) ∧ c.Sublist (ys.take j) ∧ i + j = p + 2 * c.length

def Rest (xs ys : List α) (r i j : Nat) : Prop :=
  i ≤ xs.length ∧ j ≤ ys.length ∧ ∃ c : List α, c.Sublist (xs.drop i) ∧ c.Sublist (ys.drop j) ∧
    (xs.length - i) + (ys.length - j) ≤ r + 2 * c.length

/-- `L` is the maximum length of a common subsequence. -/
structure Longest (xs ys : List α) (L : Nat) : Prop where
  ex  : ∃ c : List α, c.Sublist xs ∧ c.Sublist ys ∧ c.length = L
  max : ∀ c : List α, c.Sublist xs → c.Sublist ys → c.length ≤ L

theorem exists_longest (xs ys : List α) : ∃ L, Longest xs ys L := by
  classical
  have hb : ∃ L, ∀ c : List α, c.Sublist xs → c.Sublist ys → c.length ≤ L := ⟨xs.length, fun c h _ => h.length_le⟩
  refine ⟨Nat.find hb, ?_, Nat.find_spec hb⟩
  rcases Nat.eq_zero_or_pos (Nat.find hb) with h | h
  · exact ⟨[], by simp, by simp, by simp [h]⟩
  · have := Nat.find_min hb (m := Nat.find hb - 1) (by omega)
    push Not at this
    obtain ⟨c, h1, h2, h3⟩ := this
    have := Nat.find_spec hb c h1 h2
    exact ⟨c, h1, h2, by omega⟩

theorem Rest.mono {r i j : Nat} (h : Rest xs ys r i j) (hi : i < xs.length) (hj : j < ys.length) : Rest xs ys r (i + 1) (j + 1) := by
  obtain ⟨_, _, c, h1, h2, h3⟩ := h
  refine ⟨hi, hj, c.tail, ?_, ?_, ?_⟩
  · rw [← List.tail_drop]; exact h1.tail
  · rw [← List.tail_drop]; exact h2.tail
  · rw [List.length_tail]; omega

theorem Rest.mono_add {r i j : Nat} (h : Rest xs ys r i j) : ∀ t : Nat, i + t ≤ xs.length → j + t ≤ ys.length →
    Rest xs ys r (i + t) (j + t)
  | 0, _, _ => h
  | t + 1, hi, hj => (Rest.mono_add h t (by omega) (by omega)).mono (by omega) (by omega)

theorem Rest.step {r i j : Nat} (h : Rest xs ys r i j) (hn : ¬ (∃ x, xs[i]? = some x ∧ ys[j]? = some x))
    (he : ¬ (i = xs.length ∧ j = ys.length)) :
    1 ≤ r ∧ ((i < xs.length ∧ Rest xs ys (r - 1) (i + 1) j) ∨ (j < ys.length ∧ Rest xs ys (r - 1) i (j + 1))) := by
  obtain ⟨hi, hj, c, h1, h2, h3⟩ := h
  have l1 := h1.length_le
  have l2 := h2.length_le
  rw [List.length_drop] at l1 l2
  by_cases ei : i = xs.length
  · have : c.length = 0 := by omega
    have hj' : j < ys.length := by omega
    refine ⟨by omega, Or.inr ⟨hj', hi, hj', [], by simp, by simp, by simp; omega⟩⟩
  · by_cases ej : j = ys.length
    · refine ⟨by omega, Or.inl ⟨by omega, by omega, hj, [], by simp, by simp, by simp; omega⟩⟩
    · have hi' : i < xs.length := by omega
      have hj' : j < ys.length := by omega
      have d1 := List.drop_eq_getElem_cons hi'
      have d2 := List.drop_eq_getElem_cons hj'
      obtain ⟨x, hx⟩ : ∃ x, xs[i] = x := ⟨_, rfl⟩
      obtain ⟨y, hy⟩ : ∃ y, ys[j] = y := ⟨_, rfl⟩
      rw [hx] at d1
      rw [hy] at d2
      have h1' := h1
      have h2' := h2
      rw [d1] at h1'
      rw [d2] at h2'
      cases h1' with
      | cons _ h1' =>
        have := h1'.length_le
        rw [List.length_drop] at this
        exact ⟨by omega, Or.inl ⟨hi', by omega, hj, c, h1', h2, by omega⟩⟩
      | cons_cons _ h1' =>
        cases h2' with
        | cons _ h2' =>
          have := h2'.length_le
          rw [List.length_drop] at this
          exact ⟨by omega, Or.inr ⟨hj', hi, by omega, _, h1, h2', by omega⟩⟩
        | cons_cons _ h2' =>
          exfalso
          apply hn
          exact ⟨x, by rw [List.getElem?_eq_getElem hi', hx], by rw [List.getElem?_eq_getElem hj', hy]⟩

theorem Rest.diag {r i j : Nat} (h : Rest xs ys r i j) : ys.length + i ≤ r + xs.length + j ∧ xs.length + j ≤ r + ys.length + i := by
  obtain ⟨hi, hj, c, h1, h2, h3⟩ := h
  have l1 := h1.length_le
  have l2 := h2.length_le
  rw [List.length_drop] at l1 l2
  omega

theorem Fwd.total {L p r i j : Nat} (hL : Longest xs ys L) (h : Fwd xs ys p i j) (g : Rest xs ys r i j) :
    xs.length + ys.length ≤ p + r + 2 * L := by
  obtain ⟨hi, hj, c, h1, h2, h3⟩ := h
  obtain ⟨_, _, c', g1, g2, g3⟩ := g
  have := hL.max (c ++ c') (by have := h1.append g1; rwa [List.take_append_drop] at this)
    (by have := h2.append g2; rwa [List.take_append_drop] at this)
  rw [List.length_append] at this
  omega

/-- The end of a row or column: the rest is a straight line. -/
theorem Fwd.right {L p j : Nat} (hL : Longest xs ys L) (h : Fwd xs ys p xs.length j) :
    xs.length + ys.length ≤ p + (ys.length - j) + 2 * L :=
  h.total hL ⟨Nat.le_refl _, h.2.1, [], by simp, by simp, by simp⟩

theorem Fwd.bottom {L p i : Nat} (hL : Longest xs ys L) (h : Fwd xs ys p i ys.length) :
    xs.length + ys.length ≤ p + (xs.length - i) + 2 * L :=
  h.total hL ⟨h.1, Nat.le_refl _, [], by simp, by simp, by simp⟩

theorem Fwd.zero : Fwd xs ys 0 0 0 := ⟨by omega, by omega, [], by simp, by simp, by simp⟩

theorem Fwd.down {p i j : Nat} (h : Fwd xs ys p i j) (hi : i < xs.length) : Fwd xs ys (p + 1) (i + 1) j := by
  obtain ⟨_, hj, c, h1, h2, h3⟩ := h
  exact ⟨hi, hj, c, h1.trans (List.take_sublist_take_left (by omega)), h2, by omega⟩

theorem Fwd.across {p i j : Nat} (h : Fwd xs ys p i j) (hj : j < ys.length) : Fwd xs ys (p + 1) i (j + 1) := by
  obtain ⟨hi, _, c, h1, h2, h3⟩ := h
  exact ⟨hi, hj, c, h1, h2.trans (List.take_sublist_take_left (by omega)), by omega⟩

theorem Fwd.snake {p i j : Nat} (h : Fwd xs ys p i j) {x : α} (hx : xs[i]? = some x) (hy : ys[j]? = some x) :
    Fwd xs ys p (i + 1) (j + 1) := by
  obtain ⟨_, _, c, h1, h2, h3⟩ := h
  obtain ⟨hi, ex⟩ := List.getElem?_eq_some_iff.1 hx
  obtain ⟨hj, ey⟩ := List.getElem?_eq_some_iff.1 hy
  refine ⟨hi, hj, c ++ [x], ?_, ?_, ?_⟩
  · rw [List.take_succ_eq_append_getElem hi, ex]; exact h1.append (List.Sublist.refl _)
  · rw [List.take_succ_eq_append_getElem hj, ey]; exact h2.append (List.Sublist.refl _)
  · rw [List.length_append, List.length_singleton]; omega

end Ocr.Lcs
