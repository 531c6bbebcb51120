import Verif.Model.Charclass

/-!
# The documented class of a character
-/

namespace Ocr.Charclass

/-- The name of the last range of the table containing `v`, or "Unassigned". -/
def className (v : Nat) : String :=
  match (ranges.filter (fun r => r.start ≤ v ∧ v ≤ r.stop)).getLast? with
  | some r => r.name
  | none => "Unassigned"

end Ocr.Charclass
