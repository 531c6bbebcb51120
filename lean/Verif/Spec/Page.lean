import Verif.Spec.Text
import Verif.Spec.Utf8

/-!
# What text a file holds, from its bytes
-/

namespace Ocr.Spec
open Text

/-- The file begins with the title of the vendor-independent header, its version number aside. -/
def Headed (file : List Nat) : Prop := file.take 45 = TITLE.take 45

/-- `IsPage U fold file t`: the file is well-formed UTF-8, and `t` is its text.  Every `^` marks the character after it as suspect
and is not itself part of the text; the spacing is normalized (see `normalized`); letters are in lower case if `fold`. -/
def IsPage (U : Unicode) (fold : Bool) (file : List Nat) (t : List Ch) : Prop :=
  ∃ cs g0 parts, file = utf8 cs ∧ Gap U g0 ∧ (∀ p ∈ parts, Visible U p.1 ∧ Gap U p.2) ∧
    marked 94 (cs.map Char.toNat) = assemble g0 parts ∧
    t = (normalized parts).map (fun c => if fold then { c with value := U.tolower c.value } else c)

/-- `IsList U marks fold file t`: the same for a file of which no header is taken off; the marks are interpreted only if `marks`. -/
def IsList (U : Unicode) (marks fold : Bool) (file : List Nat) (t : List Ch) : Prop :=
  ∃ cs g0 parts, file = utf8 cs ∧ Gap U g0 ∧ (∀ p ∈ parts, Visible U p.1 ∧ Gap U p.2) ∧
    (if marks then marked 94 (cs.map Char.toNat) else cs.map (fun c => ⟨false, c.toNat⟩)) = assemble g0 parts ∧
    t = (normalized parts).map (fun c => if fold then { c with value := U.tolower c.value } else c)

/-- A header line: no newline, short enough for the line buffer, and not the divider. -/
def PlainLine (l : List Nat) : Prop := 10 ∉ l ∧ l.length ≤ 97 ∧ l ++ [10] ≠ DIVIDER

/-- The file consists of a header, which ends with its second divider line, and a body. -/
def HeaderThen (file body : List Nat) : Prop :=
  ∃ (title : List Nat) (before after : List (List Nat)), title.take 45 = TITLE.take 45 ∧ 10 ∉ title ∧ title.length ≤ 97 ∧
    (∀ l ∈ before, PlainLine l) ∧ (∀ l ∈ after, PlainLine l) ∧
    file = title ++ [10] ++ before.flatMap (· ++ [10]) ++ DIVIDER ++ after.flatMap (· ++ [10]) ++ DIVIDER ++ body

/-- The text held by a file with or without a header. -/
def HoldsText (U : Unicode) (fold : Bool) (file : List Nat) (t : List Ch) : Prop :=
  (¬ Headed file ∧ IsPage U fold file t) ∨ ∃ body, HeaderThen file body ∧ IsPage U fold body t

end Ocr.Spec
