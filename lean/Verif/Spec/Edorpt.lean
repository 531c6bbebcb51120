import Verif.Model.Edorpt

/-!
# What edit operation reports mean
-/

namespace Ocr.Edo

/-- Data that a report can represent: no negative number of moves, moves only of length 1 to 100, and no moves by length
without a positive total. -/
structure Edodata.Valid (D : Edodata) : Prop where
  longs     : Report.IsLong D.total_insertions ∧ Report.IsLong D.total_deletions ∧ Report.IsLong D.total_moves
  moves_nn  : ∀ i, 0 ≤ D.moves i ∧ Report.IsLong (D.moves i)
  support   : ∀ i, D.moves i ≠ 0 → 1 ≤ i ∧ i ≤ 100
  positive  : (∃ i, D.moves i ≠ 0) → 0 < D.total_moves

/-- The sum of some data, field by field. -/
def Edodata.total (Ds : List Edodata) : Edodata where
  total_insertions := (Ds.map (·.total_insertions)).sum
  total_deletions := (Ds.map (·.total_deletions)).sum
  total_moves := (Ds.map (·.total_moves)).sum
  moves := fun i => (Ds.map (·.moves i)).sum

/-- The cost of a set of moves if a move of length `l` is done by re-inserting at most `T` characters. -/
def cost (D : Edodata) (T : Nat) : Int :=
  D.total_insertions + ((List.range 101).map (fun l => (min l T : Nat) * D.moves l)).sum

/-- The moves by length add up to the number of moves. -/
def Edodata.Balanced (D : Edodata) : Prop := D.total_moves = ((List.range 101).map D.moves).sum

end Ocr.Edo
