import Verif.Spec.TextEndings
import Verif.Spec.Vote

/-!
# How a run that prints characters can end
-/

namespace Ocr.Ending
open Text Spec AnyText

/-- A marked character whose writing is too long: it is written as `^<10....>`, nine bytes, and there is room for eight. -/
def TooLong (U : Unicode) (c : Ch) : Prop := c.suspect = true ∧ c.value ≠ 10 ∧ is_graphic U c.value = false ∧ 0x100000 ≤ c.value

/-- File names for which the lines of a printout can be laid out. -/
def Nameable (names : List (List Nat)) : Prop := (∃ f ∈ names, f ≠ []) ∧ ∀ f ∈ names, f.length < 10 ^ 16

/-- A run of synctext with texts `ts`: the right number of files is named, and all are text.  Flag 1 is `-i`, flag 3 `-T`. -/
def Synchronized (U : Unicode) (fs : List Nat → Option (List Nat)) (names : List (List Nat)) (ss : List Args.Setting) (ts : List (List Ch)) : Prop :=
  2 ≤ names.length ∧ names.length ≤ (if ⟨.flag 3, []⟩ ∈ ss then 2 else 16) ∧
    AllRead fs (TextOf U (decide (⟨.flag 1, []⟩ ∈ ss))) names ts

end Ocr.Ending
