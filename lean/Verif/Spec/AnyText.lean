import Verif.Spec.Page
import Verif.Spec.AnyReport

/-!
# What text any file holds

A file that begins with the title has a header, which ends with the second line that is a divider; if there are fewer than two, the
whole file is header.
-/

namespace Ocr.AnyText
open Text Spec AnyReport

instance (file : List Nat) : Decidable (Headed file) := inferInstanceAs (Decidable (file.take 45 = TITLE.take 45))

/-- The lines after the first divider. -/
def afterDivider (ls : List (List Nat)) : List (List Nat) := (ls.dropWhile (fun l => decide (l ≠ DIVIDER))).drop 1

/-- The file without its header, if it has one. -/
def bodyOf (file : List Nat) : List Nat :=
  if Headed file then (afterDivider (afterDivider ((pieces [] file).drop 1))).flatten else file

/-- The text held by any file. -/
def TextOf (U : Unicode) (fold : Bool) (file : List Nat) (t : List Ch) : Prop := IsPage U fold (bodyOf file) t

/-- The file is text: what remains without the header is well-formed UTF-8. -/
def WellFormed (file : List Nat) : Prop := ∃ cs : List Char, bodyOf file = utf8 cs

end Ocr.AnyText
