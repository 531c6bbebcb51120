import Verif.Model.CLib

/-!
# Pointer-level model of list.c

A memory holds one `prev`/`next` cell per item address (list.h:55-60, list.c:28-29; the payload
fields of an item are not touched by list.c and are omitted) and one header per list (list.h:64-69).  A `NULL`
pointer is `none`.  Lists are indexed by an arbitrary type `ι`, so several lists share one heap.
-/

namespace Ocr.CList

/-- The address of an item (list.h:55-62). -/
abbrev Addr := Nat

/-- list.h:55-59 `BEGIN_ITEM`: the two link fields. -/
structure Cell where
  prev : Option Addr
  next : Option Addr
  deriving DecidableEq, Repr

/-- list.h:64-69 `BEGIN_LIST_OF`: list header.  `array = none` is the NULL array pointer; otherwise the
allocated array of item pointers. -/
structure Hdr where
  first : Option Addr
  last  : Option Addr
  array : Option (List (Option Addr))
  count : Int
  deriving DecidableEq, Repr

/-- All items and all lists of the program (list.h:55-72). -/
structure Mem (ι : Type) where
  cell : Addr → Cell
  hdr  : ι → Hdr

variable {ι : Type} [DecidableEq ι]

/-- Assignment to the links of an item (as in list.c:56-72). -/
def setCell (m : Mem ι) (a : Addr) (c : Cell) : Mem ι :=
  { m with cell := fun x => if x = a then c else m.cell x }

/-- Assignment to a list header (as in list.c:36-42). -/
def setHdr (m : Mem ι) (l : ι) (h : Hdr) : Mem ι :=
  { m with hdr := fun x => if x = l then h else m.hdr x }

/-- list.c:36-42 `list_initialize`. -/
def list_initialize (m : Mem ι) (l : ι) : Mem ι :=
  setHdr m l { first := none, last := none, array := none, count := 0 }

/-- list.c:45-53 `free_array`. -/
def free_array (m : Mem ι) (l : ι) : Mem ι :=
  match (m.hdr l).array with
  | some _ => setHdr m l { m.hdr l with array := none }
  | none => m

/-- list.c:56-72 `list_insert`, statement by statement. -/
def list_insert (m : Mem ι) (l : ι) (ref1 : Option Addr) (item : Addr) (ref2 : Option Addr) : Mem ι :=
  let m := setCell m item { m.cell item with prev := ref1 }
  let m := setCell m item { m.cell item with next := ref2 }
  let m := match ref1 with
    | some r1 => setCell m r1 { m.cell r1 with next := some item }
    | none => setHdr m l { m.hdr l with first := some item }
  let m := match ref2 with
    | some r2 => setCell m r2 { m.cell r2 with prev := some item }
    | none => setHdr m l { m.hdr l with last := some item }
  let m := free_array m l
  setHdr m l { m.hdr l with count := (m.hdr l).count + 1 }

/-- list.c:75-80 `list_insert_first`. -/
def list_insert_first (m : Mem ι) (l : ι) (item : Addr) : Mem ι :=
  list_insert m l none item (m.hdr l).first

/-- list.c:83-88 `list_insert_last`. -/
def list_insert_last (m : Mem ι) (l : ι) (item : Addr) : Mem ι :=
  list_insert m l (m.hdr l).last item none

/-- list.c:91-96 `list_insert_before`. -/
def list_insert_before (m : Mem ι) (l : ι) (item ref : Addr) : Mem ι :=
  list_insert m l (m.cell ref).prev item (some ref)

/-- list.c:99-104 `list_insert_after`. -/
def list_insert_after (m : Mem ι) (l : ι) (ref item : Addr) : Mem ι :=
  list_insert m l (some ref) item (m.cell ref).next

/-- list.c:107-122 `list_remove`, statement by statement. -/
def list_remove (m : Mem ι) (l : ι) (item : Addr) : Mem ι :=
  let m := match (m.cell item).prev with
    | some p => setCell m p { m.cell p with next := (m.cell item).next }
    | none => setHdr m l { m.hdr l with first := (m.cell item).next }
  let m := match (m.cell item).next with
    | some n => setCell m n { m.cell n with prev := (m.cell item).prev }
    | none => setHdr m l { m.hdr l with last := (m.cell item).prev }
  let m := setCell m item { prev := none, next := none }
  let m := free_array m l
  setHdr m l { m.hdr l with count := (m.hdr l).count - 1 }

/-- The copying loop of list.c:133-134: writing more than `cap` elements overruns the array. -/
def fill (cell : Addr → Cell) : (cap : Nat) → Option Addr → Res (List (Option Addr))
  | cap, none => .ok (List.replicate cap none)
  | 0, some _ => .ub
  | cap + 1, some a => do
      let rest ← fill cell cap (cell a).next
      return some a :: rest

/-- list.c:125-135 `list_in_array` (`NEW_ARRAY` zero-fills, so unwritten slots are NULL). -/
def list_in_array (m : Mem ι) (l : ι) : Res (Mem ι) :=
  if (m.hdr l).array.isSome ∨ (m.hdr l).count = 0 then .ok m
  else do
    let arr ← fill m.cell (m.hdr l).count.toNat (m.hdr l).first
    return setHdr m l { m.hdr l with array := some arr }

/-- list.c:138-149 `list_empty`.  The callback may destroy the removed item (it is usually `free`):
`junk` is the arbitrary content of its links afterwards.  Returns the processed items in order. -/
def list_empty (junk : Addr → Cell) : (fuel : Nat) → Mem ι → ι → Res (Mem ι × List Addr)
  | fuel, m, l =>
    match (m.hdr l).first with
    | none => .ok (m, [])
    | some item =>
      match fuel with
      | 0 => .fuel
      | fuel + 1 => do
        let m := list_remove m l item
        let m := setCell m item (junk item)
        let (m, done) ← list_empty junk fuel m l
        return (m, item :: done)

/-- One API call (list.c:36-149). -/
inductive Op (ι : Type) where
  | insertFirst (l : ι) (a : Addr)
  | insertLast (l : ι) (a : Addr)
  | insertBefore (l : ι) (a ref : Addr)
  | insertAfter (l : ι) (ref a : Addr)
  | remove (l : ι) (a : Addr)
  | inArray (l : ι)
  | empty (l : ι) (junk : Addr → Cell)

/-- Execute one call; `fuel` bounds the loop of `list_empty` (list.c:36-149). -/
def exec (fuel : Nat) (m : Mem ι) : Op ι → Res (Mem ι)
  | .insertFirst l a => .ok (list_insert_first m l a)
  | .insertLast l a => .ok (list_insert_last m l a)
  | .insertBefore l a r => .ok (list_insert_before m l a r)
  | .insertAfter l r a => .ok (list_insert_after m l r a)
  | .remove l a => .ok (list_remove m l a)
  | .inArray l => list_in_array m l
  | .empty l junk => do
      let (m, _) ← list_empty junk fuel m l
      return m

/-- Execute a history of calls (list.c:36-149). -/
def execAll (fuel : Nat) (m : Mem ι) : List (Op ι) → Res (Mem ι)
  | [] => .ok m
  | op :: ops => do
      let m ← exec fuel m op
      execAll fuel m ops

end Ocr.CList
