import Verif.Model.CLib

/-!
# Model of sort.c

The array is a list accessed by checked reads and writes; `cmp` is an arbitrary comparison routine returning a
signed integer.
-/

namespace Ocr.Sort

variable {α : Type}

/-- sort.c:41-42: `while (i < j && (*cmp)(ref, a[j]) < 0) j--;`. -/
def scanJ (cmp : α → α → Int) (a : List α) (ref : α) (i : Nat) : (j : Nat) → Res Nat
  | 0 => .ok 0
  | j + 1 =>
    if i < j + 1 then do
      let x ← rd a (j + 1)
      if cmp ref x < 0 then scanJ cmp a ref i j else .ok (j + 1)
    else .ok (j + 1)

/-- sort.c:45-46: `while (i < j && (*cmp)(ref, a[i]) > 0) i++;`. -/
def scanI (cmp : α → α → Int) (a : List α) (ref : α) (j : Nat) : (fuel i : Nat) → Res Nat
  | fuel, i =>
    if i < j then do
      let x ← rd a i
      if cmp ref x > 0 then
        match fuel with
        | 0 => .fuel
        | fuel + 1 => scanI cmp a ref j fuel (i + 1)
      else .ok i
    else .ok i

/-- sort.c:39-49: the partitioning loop; returns the array and the final `i` and `j`. -/
def partition (cmp : α → α → Int) (ref : α) : (fuel : Nat) → List α → Nat → Nat → Res (List α × Nat × Nat)
  | fuel, a, i, j =>
    if i < j then
      match fuel with
      | 0 => .fuel
      | fuel + 1 => do
        let j ← scanJ cmp a ref i j
        let (a, i) ← if i ≠ j then do
            let x ← rd a j
            let a ← wr a i x
            pure (a, i + 1)
          else pure (a, i)
        let i ← scanI cmp a ref j a.length i
        let (a, j) ← if i ≠ j then do
            let x ← rd a i
            let a ← wr a j x
            pure (a, j - 1)
          else pure (a, j)
        partition cmp ref fuel a i j
    else .ok (a, i, j)

/-- sort.c:30-54 `quicksort`.  The decrement of `j` may give -1, so the test is made on integers; `j` is
used as an index only when it is greater than `left`. -/
def quicksort (cmp : α → α → Int) : (fuel : Nat) → List α → (left right : Nat) → Res (List α)
  | 0, _, _, _ => .fuel
  | fuel + 1, a, left, right => do
      let ref ← rd a left
      let (a, i, j) ← partition cmp ref a.length a left right
      let a ← wr a j ref
      let a ← (if (left : Int) < (j : Int) - 1 then quicksort cmp fuel a left (j - 1) else pure a)
      if i + 1 < right then quicksort cmp fuel a (i + 1) right else pure a

/-- sort.c:57-67 `sort`, applied to all elements of the array. -/
def sort (fuel : Nat) (cmp : α → α → Int) (a : List α) : Res (List α) :=
  if a.length < 2 then .ok a else quicksort cmp fuel a 0 (a.length - 1)

end Ocr.Sort
