import Verif.Spec.CList
import Verif.Model.Paths

/-!
# What is allocated between two calls of fastukk_sync
-/

namespace Ocr.Paths
open CList

/-- Both lists are empty, and there is no path, no diagonal and no array. -/
structure Nothing (P : PHeap) : Prop where
  paths : Shows P.links true []
  diags : Shows P.links false []
  path  : ∀ a, P.path a = none
  diag  : ∀ a, P.diag a = none
  arr   : ∀ a, P.arr a = none

end Ocr.Paths
