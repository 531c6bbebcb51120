import Verif.Model.Editop

/-!
# Block moves

A block is given by its number in the correct order and its length.
-/

namespace Ocr.Edo

/-- The number of characters in some consecutive blocks. -/
def chars (g : List (Nat × Int)) : Int := (g.map Prod.snd).sum

/-- `Moves L ls R`: the sequence of blocks `L` can be turned into `R` by moving some consecutive blocks to another place,
once for every element of `ls`, which is the number of characters moved. -/
inductive Moves : List (Nat × Int) → List Int → List (Nat × Int) → Prop
  | done (L) : Moves L [] L
  | right (a b c d ls R) : Moves (a ++ c ++ b ++ d) ls R → Moves (a ++ b ++ c ++ d) (chars b :: ls) R
  | left (a b c d ls R) : Moves (a ++ c ++ b ++ d) ls R → Moves (a ++ b ++ c ++ d) (chars c :: ls) R

/-- `D'` is `D` with moves of the lengths `ls` counted: a length above 100 is counted as 100. -/
structure Recorded (D : Edodata) (ls : List Int) (D' : Edodata) : Prop where
  insertions : D'.total_insertions = D.total_insertions
  deletions  : D'.total_deletions = D.total_deletions
  moves      : D'.total_moves = D.total_moves + ls.length
  lengths    : ∀ i, D'.moves i = D.moves i + ls.countP (fun l : Int => min l 100 = i)

end Ocr.Edo
