import Verif.Spec.Editop

/-!
# Choosing block moves

A block is given by its number in the correct order and its length.
-/

namespace Ocr.Edo

/-- The block `x` in front of some groups of blocks: it joins the first group if that begins with the next number. -/
def joinStep (x : Nat × Int) : List (Nat × Int) → List (Nat × Int)
  | [] => [x]
  | y :: r => if y.1 = x.1 + 1 then (x.1, x.2 + y.2) :: r else x :: y :: r

/-- The longest runs of blocks with consecutive numbers: the first number and the number of characters of each. -/
def groups (L : List (Nat × Int)) : List (Nat × Int) := L.foldr joinStep []

/-- The blocks that result when every run becomes one block; they are numbered again from 1. -/
def joined (L : List (Nat × Int)) : List (Nat × Int) :=
  (groups L).map (fun b => ((groups L).countP (fun c => c.1 ≤ b.1), b.2))

/-- `M` is `L` with block `b` put at some (other) place. -/
def Moved (L : List (Nat × Int)) (b : Nat × Int) (M : List (Nat × Int)) : Prop :=
  ∃ p q u v, L = p ++ b :: q ∧ p ++ q = u ++ v ∧ M = u ++ b :: v

/-- `M` is the result of a best move of a block `b` of `L`. -/
structure Best (L : List (Nat × Int)) (b : Nat × Int) (M : List (Nat × Int)) : Prop where
  moved  : Moved L b M
  /-- It is put after the block before it in the correct order; the first block is put before the second. -/
  place  : ∃ u v c, (b.1 = 1 ∧ c.1 = 2 ∧ M = u ++ b :: c :: v) ∨ (b.1 = c.1 + 1 ∧ M = u ++ c :: b :: v)
  /-- No move of one block leaves fewer blocks. -/
  fewest : ∀ c N, Moved L c N → (joined M).length ≤ (joined N).length
  /-- Of the blocks with such a move, it is the shortest; of those, the one with the lowest number. -/
  first  : ∀ c N, Moved L c N → (joined N).length = (joined M).length → b.2 < c.2 ∨ b.2 = c.2 ∧ b.1 ≤ c.1

/-- `Trace L ls tr`: best moves bring `L` into the correct order.  The lengths of the blocks moved are `ls`; `tr` lists the
blocks after each move and after joining them again, with labels. -/
inductive Trace : List (Nat × Int) → List Int → List (List Nat × List (Nat × Int)) → Prop
  | done (L) : L.length ≤ 1 → Trace L [] []
  | move (L b M ls tr) : 1 < L.length → Best L b M → Trace (joined M) ls tr →
      Trace L (b.2 :: ls) ((ascii "moved " ++ decDigits b.1, M) :: (ascii "combined", joined M) :: tr)

/-- A line of the trace, and an empty line: the label in nine columns, then number and length of each block. -/
def shown (d : List Nat × List (Nat × Int)) : List Nat :=
  d.1 ++ List.replicate (9 - d.1.length) 32 ++ ascii ":" ++
    d.2.flatMap (fun b => ascii " {" ++ decDigits b.1 ++ ascii ":" ++ fmtInt b.2 ++ ascii "}") ++ [10, 10]

end Ocr.Edo
