/-!
# What a comparison routine should satisfy
-/

namespace Ocr.Sort

/-- On the elements satisfying `S`, `cmp` is the comparison routine of a total preorder: its sign flips when the
arguments are exchanged, and "not greater" is transitive. -/
structure TotalPreorderOn {α : Type} (S : α → Prop) (cmp : α → α → Int) : Prop where
  flip  : ∀ x y, S x → S y → (cmp x y < 0 ↔ 0 < cmp y x)
  trans : ∀ x y z, S x → S y → S z → cmp x y ≤ 0 → cmp y z ≤ 0 → cmp x z ≤ 0

end Ocr.Sort
