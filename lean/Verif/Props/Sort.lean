import Verif.Proof.Sort

/-!
# C03: sort() terminates, stays in bounds, permutes and sorts
-/

namespace Ocr.Sort

variable {α : Type}

/-- C03 for an arbitrary comparison routine, even an inconsistent one: with recursion depth at most the number
of elements, sort() finishes without any out-of-bounds access and leaves a permutation of the elements. -/
theorem c03_sort_permutes (cmp : α → α → Int) (a : List α) (fuel : Nat) (hf : a.length ≤ fuel) :
    ∃ a', sort fuel cmp a = .ok a' ∧ a'.Perm a := by
  unfold sort
  split
  · exact ⟨a, rfl, List.Perm.refl _⟩
  · rename_i h
    obtain ⟨s, e, hp, _⟩ := quicksort_spec cmp fuel a (by rintro rfl; simp at h) hf [] []
    exact ⟨s, by simpa using e, hp⟩

/-- C03: if the comparison routine is a total preorder on the elements, the result is sorted. -/
theorem c03_sort_sorts (cmp : α → α → Int) (a : List α) (hc : TotalPreorderOn (· ∈ a) cmp) (fuel : Nat)
    (hf : a.length ≤ fuel) :
    ∃ a', sort fuel cmp a = .ok a' ∧ a'.Perm a ∧ a'.Pairwise (fun x y => cmp x y ≤ 0) := by
  unfold sort
  split
  · rename_i h
    refine ⟨a, rfl, List.Perm.refl _, ?_⟩
    match a, h with
    | [], _ => simp
    | [x], _ => simp
    | x :: y :: l, h => simp at h; omega
  · rename_i h
    obtain ⟨s, e, hp, hs⟩ := quicksort_spec cmp fuel a (by rintro rfl; simp at h) hf [] []
    exact ⟨s, by simpa using e, hp, hs _ hc (fun _ h => h)⟩

/-! Non-vacuity: subtraction on integers is such a comparison routine, and the model really sorts. -/

example : TotalPreorderOn (· ∈ [5, 2, 8, 2, 9, 1, 7, 5, 3]) (fun x y : Int => x - y) :=
  ⟨by intro x y _ _; omega, by intro x y z _ _ _; omega⟩

example : sort 9 (fun x y : Int => x - y) [5, 2, 8, 2, 9, 1, 7, 5, 3] = .ok [1, 2, 2, 3, 5, 5, 7, 8, 9] := by
  decide

/-- An inconsistent comparison routine ("always smaller") still terminates. -/
example : sort 3 (fun _ _ : Int => -1) [5, 2, 8] = .ok [5, 2, 8] := by decide

end Ocr.Sort
