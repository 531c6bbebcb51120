import Verif.Spec.Vote
import Verif.Model.Stdio

/-!
# The ranking of voters
-/

namespace Ocr.Vote
open Text

/-- `s` is half of `d` with one digit after the decimal point, preceded by blanks to fill eleven columns. -/
def HalfText (d : Int) (s : List Nat) : Prop :=
  ∃ k n r : Nat, s = List.replicate k 32 ++ decDigits n ++ [46, 48 + 5 * r] ∧ d = 2 * n + r ∧ r < 2 ∧ 11 ≤ s.length ∧
    (k = 0 ∨ s.length = 11)

/-- The line for voter `i`: its distance from the expected counts, a blank, the name of its file. -/
def RankLine (names : List (List Nat)) (texts : List (List Ch)) (i : Nat) (line : List Nat) : Prop :=
  ∃ s name, HalfText (distance2 texts (texts.getD i [])) s ∧ names[i]? = some name ∧ line = s ++ [32] ++ name ++ [10]

/-- The lines for all voters, the closest first. -/
def Ranking (names : List (List Nat)) (texts : List (List Ch)) (order : List Nat) (lines : List (List Nat)) : Prop :=
  order.Perm (List.range texts.length) ∧ order.Pairwise (Closer texts) ∧ List.Forall₂ (RankLine names texts) order lines

end Ocr.Vote
