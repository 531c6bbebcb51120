import Verif.Model.CList
import Mathlib.Data.List.FinRange

/-!
# Pointer-level model of table.c

Tables are indexed by an arbitrary type `τ`; the bucket lists of table `t` are the lists `(t, i)` of the heap
of `Ocr.CList`, so all tables share one heap.  The `key` field of an entry (table.h:60-62) is given by
`key : Addr → List Nat` (the bytes of the C string without the terminating NUL); the callers never change the
key of an entry while it is in a table.
-/

namespace Ocr.Table

open Ocr.CList

/-- table.h:58. -/
def TABLE_SIZE : Nat := 503

variable {τ : Type} [DecidableEq τ]

/-- table.h:67-76: per table, the bucket lists (in `mem`), `array` and `count`. -/
structure TMem (τ : Type) where
  mem   : Mem (τ × Fin TABLE_SIZE)
  array : τ → Option (List (Option Addr))
  count : τ → Int

/-- Assignment to the array pointer of a table (as in table.c:36-44). -/
def setArray (M : TMem τ) (t : τ) (a : Option (List (Option Addr))) : TMem τ :=
  { M with array := fun x => if x = t then a else M.array x }

/-- Assignment to the count of a table (as in table.c:36-44). -/
def setCount (M : TMem τ) (t : τ) (c : Int) : TMem τ :=
  { M with count := fun x => if x = t then c else M.count x }

/-- The loop of table.c:39-40, over the list of bucket numbers. -/
def initBuckets (t : τ) : List (Fin TABLE_SIZE) → Mem (τ × Fin TABLE_SIZE) → Mem (τ × Fin TABLE_SIZE)
  | [], m => m
  | i :: is, m => initBuckets t is (list_initialize m (t, i))

/-- table.c:36-44 `table_initialize`. -/
def table_initialize (M : TMem τ) (t : τ) : TMem τ :=
  let M := { M with mem := initBuckets t (List.finRange TABLE_SIZE) M.mem }
  let M := setArray M t none
  setCount M t 0

/-- table.c:47-56 `table_index`: the bytes are taken as unsigned, so the sum is never negative. -/
def table_index (key : List Nat) : Fin TABLE_SIZE := ⟨key.sum % TABLE_SIZE, Nat.mod_lt _ (by decide)⟩

/-- The search loop of table.c:64-65: `strcmp` is 0 exactly for equal strings. -/
def searchChain (m : Mem (τ × Fin TABLE_SIZE)) (keyOf : Addr → List Nat) (key : List Nat) :
    (fuel : Nat) → Option Addr → Res (Option Addr)
  | _, none => .ok none
  | 0, some _ => .fuel
  | fuel + 1, some e =>
    if key = keyOf e then .ok (some e) else searchChain m keyOf key fuel (m.cell e).next

/-- table.c:59-67 `table_lookup`. -/
def table_lookup (fuel : Nat) (keyOf : Addr → List Nat) (M : TMem τ) (t : τ) (key : List Nat) :
    Res (Option Addr) :=
  searchChain M.mem keyOf key fuel (M.mem.hdr (t, table_index key)).first

/-- table.c:70-78 `free_array`. -/
def tfree_array (M : TMem τ) (t : τ) : TMem τ :=
  match M.array t with
  | some _ => setArray M t none
  | none => M

/-- table.c:81-88 `table_insert`. -/
def table_insert (keyOf : Addr → List Nat) (M : TMem τ) (t : τ) (e : Addr) : TMem τ :=
  let M := { M with mem := list_insert_first M.mem (t, table_index (keyOf e)) e }
  let M := tfree_array M t
  setCount M t (M.count t + 1)

/-- table.c:91-98 `table_remove`. -/
def table_remove (keyOf : Addr → List Nat) (M : TMem τ) (t : τ) (e : Addr) : TMem τ :=
  let M := { M with mem := list_remove M.mem (t, table_index (keyOf e)) e }
  let M := tfree_array M t
  setCount M t (M.count t - 1)

/-- The inner loop of table.c:110-111; `cap` slots of the array are left, writing more is out of bounds.
Returns the slots written and the number of slots left. -/
def fillChain (cell : Addr → Cell) : (cap : Nat) → Option Addr → Res (List (Option Addr) × Nat)
  | cap, none => .ok ([], cap)
  | 0, some _ => .ub
  | cap + 1, some a => do
      let (rest, left) ← fillChain cell cap (cell a).next
      return (some a :: rest, left)

/-- The outer loop of table.c:109, over the list of bucket numbers; at the end the remaining slots are still
NULL (`NEW_ARRAY` zero-fills). -/
def fillBuckets (m : Mem (τ × Fin TABLE_SIZE)) (t : τ) :
    List (Fin TABLE_SIZE) → (cap : Nat) → Res (List (Option Addr))
  | [], cap => .ok (List.replicate cap none)
  | i :: is, cap => do
      let (xs, cap) ← fillChain m.cell cap (m.hdr (t, i)).first
      let rest ← fillBuckets m t is cap
      return xs ++ rest

/-- table.c:101-112 `table_in_array`. -/
def table_in_array (M : TMem τ) (t : τ) : Res (TMem τ) :=
  if (M.array t).isSome ∨ M.count t = 0 then .ok M
  else do
    let arr ← fillBuckets M.mem t (List.finRange TABLE_SIZE) (M.count t).toNat
    return setArray M t (some arr)

/-- The loop of table.c:120-121. -/
def emptyBuckets (junk : Addr → Cell) (fuel : Nat) (t : τ) :
    List (Fin TABLE_SIZE) → Mem (τ × Fin TABLE_SIZE) → Res (Mem (τ × Fin TABLE_SIZE) × List Addr)
  | [], m => .ok (m, [])
  | i :: is, m => do
      let (m, xs) ← list_empty junk fuel m (t, i)
      let (m, ys) ← emptyBuckets junk fuel t is m
      return (m, xs ++ ys)

/-- table.c:115-124 `table_empty`; also returns the entries handed to the callback. -/
def table_empty (junk : Addr → Cell) (fuel : Nat) (M : TMem τ) (t : τ) : Res (TMem τ × List Addr) := do
  let (m, xs) ← emptyBuckets junk fuel t (List.finRange TABLE_SIZE) M.mem
  let M := tfree_array { M with mem := m } t
  return (setCount M t 0, xs)

/-- One call that changes a table (table.c:36-124). -/
inductive Op (τ : Type) where
  | insert (t : τ) (e : Addr)
  | remove (t : τ) (e : Addr)
  | inArray (t : τ)
  | empty (t : τ) (junk : Addr → Cell)

/-- Execute one call (table.c:81-124). -/
def exec (keyOf : Addr → List Nat) (fuel : Nat) (M : TMem τ) : Op τ → Res (TMem τ)
  | .insert t e => .ok (table_insert keyOf M t e)
  | .remove t e => .ok (table_remove keyOf M t e)
  | .inArray t => table_in_array M t
  | .empty t junk => do
      let (M, _) ← table_empty junk fuel M t
      return M

/-- Execute a history of calls (table.c:81-124). -/
def execAll (keyOf : Addr → List Nat) (fuel : Nat) (M : TMem τ) : List (Op τ) → Res (TMem τ)
  | [] => .ok M
  | op :: ops => do
      let M ← exec keyOf fuel M op
      execAll keyOf fuel M ops

end Ocr.Table
