import Verif.Model.Sort
import Verif.Model.Wordfreq
import Verif.Model.NgramMain

/-!
# Model of the work done by sort.c

The functions of `Model/Sort.lean` with two more results: the number of calls of the comparison routine and, for `quicksort`, the number
of activations that exist at the same time.
-/

namespace Ocr.Sort

variable {α : Type}

/-- sort.c:41-42, with the number of comparisons. -/
def scanJW (cmp : α → α → Int) (a : List α) (ref : α) (i : Nat) : (j : Nat) → Res (Nat × Nat)
  | 0 => .ok (0, 0)
  | j + 1 =>
    if i < j + 1 then do
      let x ← rd a (j + 1)
      if cmp ref x < 0 then do
        let (j, c) ← scanJW cmp a ref i j
        pure (j, c + 1)
      else .ok (j + 1, 1)
    else .ok (j + 1, 0)

/-- sort.c:45-46, with the number of comparisons. -/
def scanIW (cmp : α → α → Int) (a : List α) (ref : α) (j : Nat) : (fuel i : Nat) → Res (Nat × Nat)
  | fuel, i =>
    if i < j then do
      let x ← rd a i
      if cmp ref x > 0 then
        match fuel with
        | 0 => .fuel
        | fuel + 1 => do
          let (i, c) ← scanIW cmp a ref j fuel (i + 1)
          pure (i, c + 1)
      else .ok (i, 1)
    else .ok (i, 0)

/-- sort.c:39-49: the partitioning loop, with the number of comparisons. -/
def partitionW (cmp : α → α → Int) (ref : α) : (fuel : Nat) → List α → Nat → Nat → Res ((List α × Nat × Nat) × Nat)
  | fuel, a, i, j =>
    if i < j then
      match fuel with
      | 0 => .fuel
      | fuel + 1 => do
        let (j, c1) ← scanJW cmp a ref i j
        let (a, i) ← (if i ≠ j then do
            let x ← rd a j
            let a ← wr a i x
            pure (a, i + 1)
          else pure (a, i))
        let (i, c2) ← scanIW cmp a ref j a.length i
        let (a, j) ← (if i ≠ j then do
            let x ← rd a i
            let a ← wr a j x
            pure (a, j - 1)
          else pure (a, j))
        let (r, c) ← partitionW cmp ref fuel a i j
        pure (r, c1 + c2 + c)
    else .ok ((a, i, j), 0)

/-- sort.c:30-54 `quicksort`, with the number of comparisons and the depth of the recursion. -/
def quicksortW (cmp : α → α → Int) : (fuel : Nat) → List α → (left right : Nat) → Res (List α × Nat × Nat)
  | 0, _, _, _ => .fuel
  | fuel + 1, a, left, right => do
      let ref ← rd a left
      let ((a, i, j), c) ← partitionW cmp ref a.length a left right
      let a ← wr a j ref
      let (a, c1, d1) ← (if (left : Int) < (j : Int) - 1 then quicksortW cmp fuel a left (j - 1) else pure (a, 0, 0))
      let (a, c2, d2) ← (if i + 1 < right then quicksortW cmp fuel a (i + 1) right else pure (a, 0, 0))
      pure (a, c + c1 + c2, 1 + max d1 d2)

/-- sort.c:57-67 `sort`, with the number of comparisons and the depth of the recursion. -/
def sortW (fuel : Nat) (cmp : α → α → Int) (a : List α) : Res (List α × Nat × Nat) :=
  if a.length < 2 then .ok (a, 0, 0) else quicksortW cmp fuel a 0 (a.length - 1)

end Ocr.Sort

namespace Ocr

/-- wordfreq.c:82-90 `write_report`: the work of the two sorts, as comparisons and depth. -/
def Wordfreq.reportWork (t : List Term) : Res ((Nat × Nat) × (Nat × Nat)) := do
  let array := Store.in_array Term.key t
  let (array, w1) ← Sort.sortW array.length compare_term array
  let (_, w2) ← Sort.sortW array.length wf_order_by_count array
  return (w1, w2)

/-- ngram.c:156-164 `write_report`: the work of the two sorts, as comparisons and depth. -/
def Ngram.reportWork (t : Seqtable) : Res ((Nat × Nat) × (Nat × Nat)) := do
  let array := Store.in_array Sequence.key t.entries
  let (array, w1) ← Sort.sortW array.length ng_order_by_value array
  let (_, w2) ← Sort.sortW array.length ng_order_by_count array
  return (w1, w2)

end Ocr
