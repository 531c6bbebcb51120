import Verif.Model.Heap

/-!
# The paths of fastukk_sync on a heap

`Model/Sync.lean` has lists of paths and diagonals.  Here `pathlist` and `diaglist` (sync.c:37-53) are linked lists of objects that are
allocated and freed, and so are the arrays `f` of the paths.  Using or freeing what is not allocated is undefined behaviour.  The
lists are named `true` (`pathlist`) and `false` (`diaglist`); they share one address space.
-/

namespace Ocr.Paths
open Text Sync CList

/-- sync.c:47-50 `Path`, without the links. -/
structure PathObj where
  p       : Int
  start_k : Int
  stop_k  : Int
  f       : Option Addr
  deriving DecidableEq, Repr

/-- The objects of sync.c:37-53, and the static variables `min_k` and `max_k` (sync.c:58). -/
structure PHeap where
  links   : Mem Bool
  path    : Addr → Option PathObj
  diag    : Addr → Option Int
  arr     : Addr → Option (List Int)
  next    : Nat
  nextArr : Nat
  min_k   : Int
  max_k   : Int

/-- sync.c:44, 53: static, so that the lists are empty when a program starts. -/
def PHeap.start : PHeap := ⟨⟨fun _ => ⟨none, none⟩, fun _ => ⟨none, none, none, 0⟩⟩, fun _ => none, fun _ => none, fun _ => none, 0, 0, 0, 0⟩

/-- `*path` (as in sync.c:321). -/
def pobj (h : PHeap) (a : Addr) : Res PathObj :=
  match h.path a with
  | some o => .ok o
  | none => .ub

/-- Assignment to members of `*path` (as in sync.c:332). -/
def setPath (h : PHeap) (a : Addr) (o : PathObj) : Res PHeap := do
  let _ ← pobj h a
  return { h with path := fun x => if x = a then some o else h.path x }

/-- `path->f` as an array (as in sync.c:289). -/
def getArr (h : PHeap) (f : Option Addr) : Res (List Int) :=
  match f with
  | none => .ub
  | some p =>
    match h.arr p with
    | none => .ub
    | some xs => .ok xs

/-- Assignment to `path->f[i]` (sync.c:400). -/
def setArr (h : PHeap) (f : Option Addr) (i : Nat) (v : Int) : Res PHeap :=
  match f with
  | none => .ub
  | some p =>
    match h.arr p with
    | none => .ub
    | some xs => do
      let ys ← wr xs i v
      return { h with arr := fun x => if x = p then some ys else h.arr x }

/-- `diag->f` (sync.c:400). -/
def getDiag (h : PHeap) (a : Addr) : Res Int :=
  match h.diag a with
  | some v => .ok v
  | none => .ub

/-- `free(path)` (sync.c:431). -/
def freePath (h : PHeap) (a : Addr) : Res PHeap :=
  match h.path a with
  | none => .ub
  | some _ => .ok { h with path := fun x => if x = a then none else h.path x }

/-- `free(path->f)` (sync.c:430). -/
def freeArr (h : PHeap) (f : Option Addr) : Res PHeap :=
  match f with
  | none => .ok h
  | some p =>
    match h.arr p with
    | none => .ub
    | some _ => .ok { h with arr := fun x => if x = p then none else h.arr x }

/-- `free(diag)` (sync.c:401). -/
def freeDiag (h : PHeap) (a : Addr) : Res PHeap :=
  match h.diag a with
  | none => .ub
  | some _ => .ok { h with diag := fun x => if x = a then none else h.diag x }

/-- `NEW(Path)` (sync.c:367): filled with zeros. -/
def newPath (h : PHeap) : Addr × PHeap :=
  (h.next, { h with
    links := setCell h.links h.next ⟨none, none⟩
    path := fun x => if x = h.next then some ⟨0, 0, 0, none⟩ else h.path x
    next := h.next + 1 })

/-- `NEW(Diag)` and the assignment to `diag->f` (sync.c:328-329). -/
def newDiag (f : Int) (h : PHeap) : Addr × PHeap :=
  (h.next, { h with
    links := setCell h.links h.next ⟨none, none⟩
    diag := fun x => if x = h.next then some f else h.diag x
    next := h.next + 1 })

/-- `NEW_ARRAY(n, F)` (sync.c:394): filled with zeros. -/
def newArr (n : Nat) (h : PHeap) : Addr × PHeap :=
  (h.nextArr, { h with arr := fun x => if x = h.nextArr then some (List.replicate n 0) else h.arr x, nextArr := h.nextArr + 1 })

/-- A pointer that is NULL or to an allocated item of list `l` (as in list.c:61-68). -/
def live (h : PHeap) (l : Bool) (p : Option Addr) : Bool :=
  match p with
  | none => true
  | some a => if l then (h.path a).isSome else (h.diag a).isSome

/-- list.c:56-72 `list_insert`. -/
def insert (h : PHeap) (l : Bool) (ref1 : Option Addr) (item : Addr) (ref2 : Option Addr) : Res PHeap :=
  if live h l ref1 ∧ live h l (some item) ∧ live h l ref2 then .ok { h with links := list_insert h.links l ref1 item ref2 } else .ub

/-- list.c:75-80 `list_insert_first`. -/
def insert_first (h : PHeap) (l : Bool) (item : Addr) : Res PHeap := insert h l none item (h.links.hdr l).first

/-- list.c:83-88 `list_insert_last`. -/
def insert_last (h : PHeap) (l : Bool) (item : Addr) : Res PHeap := insert h l (h.links.hdr l).last item none

/-- list.c:107-122 `list_remove`. -/
def remove (h : PHeap) (l : Bool) (item : Addr) : Res PHeap :=
  if live h l (some item) ∧ live h l (h.links.cell item).prev ∧ live h l (h.links.cell item).next then
    .ok { h with links := list_remove h.links l item }
  else .ub

/-- sync.c:287-297: the loop of `initial_f`. -/
def initialLoop (h : PHeap) (k : Int) (prev : Addr) : (count : Nat) → (i result : Int) → (prev_k : Option Int) → Res (Int × Option Int)
  | 0, _, result, prev_k => .ok (result, prev_k)
  | count + 1, i, result, prev_k => do
    let o ← pobj h prev
    let f ← getArr h o.f
    let v ← rdI f (i - o.start_k)
    let value := if i ≥ k then v + 1 else v
    if value ≥ result then initialLoop h k prev count (i + 1) value (some i)
    else initialLoop h k prev count (i + 1) result prev_k

/-- sync.c:276-300 `initial_f`. -/
def initial_f (h : PHeap) (k : Int) (prev_path : Option Addr) : Res (Int × Option Int) :=
  match prev_path with
  | none => .ok (0, none)
  | some prev => do
    let o ← pobj h prev
    let start := max (k - 1) o.start_k
    let stop  := min (k + 1) o.stop_k
    if start > stop then .err "internal synchronization error"
    else initialLoop h k prev (stop - start + 1).toNat start 0 none

/-- sync.c:303-346 `compute_f`, for the path at address `path`. -/
def compute_f (a b : List Nat) (k : Int) (path : Addr) (h : PHeap) : Res PHeap := do
  let o ← pobj h path
  let (i0, _) ← initial_f h k (h.links.cell path).prev
  let i ← extendLoop a b a.length i0 (i0 + k)
  let j := i + k
  let m : Int := a.length
  let n : Int := b.length
  let n_m := n - m
  let min_k := if i = m then k + 1 else h.min_k
  let max_k := if j = n then k - 1 else h.max_k
  let bound := o.p + max m (n - k) - i
  let value := (1 - bound + n_m) / 2
  let min_k := if value > min_k then value else min_k
  let value := (bound + n_m) / 2
  let max_k := if value < max_k then value else max_k
  let (diag, h) := newDiag i { h with min_k := min_k, max_k := max_k }
  if (h.links.hdr false).count = 0 then do
    let h ← setPath h path { o with start_k := k, stop_k := k }
    insert_last h false diag
  else if k < o.start_k then do
    let h ← setPath h path { o with start_k := k }
    insert_first h false diag
  else do
    let h ← setPath h path { o with stop_k := k }
    insert_last h false diag

/-- sync.c:372-373, 381-382: the loops over decreasing `k`. -/
def downLoop (a b : List Nat) (p : Int) (path : Addr) : (fuel : Nat) → (k : Int) → PHeap → Res PHeap
  | fuel, k, h =>
    if k ≥ max h.min_k (-p) then
      match fuel with
      | 0 => .fuel
      | fuel + 1 => do
        let h ← compute_f a b k path h
        downLoop a b p path fuel (k - 1) h
    else .ok h

/-- sync.c:374-375, 379-380: the loops over increasing `k`. -/
def upLoop (a b : List Nat) (p : Int) (path : Addr) : (fuel : Nat) → (k : Int) → PHeap → Res PHeap
  | fuel, k, h =>
    if k ≤ min h.max_k p then
      match fuel with
      | 0 => .fuel
      | fuel + 1 => do
        let h ← compute_f a b k path h
        upLoop a b p path fuel (k + 1) h
    else .ok h

/-- sync.c:370-383: the cells of level `p`. -/
def computeLevel (a b : List Nat) (p : Nat) (path : Addr) (h : PHeap) : Res PHeap := do
  let n_m : Int := b.length - a.length
  let fuel := 2 * p + 1
  if a.length ≤ b.length then do
    let h ← downLoop a b p path fuel (min n_m p) h
    upLoop a b p path fuel (n_m + 1) h
  else do
    let h ← upLoop a b p path fuel (max n_m (-p)) h
    downLoop a b p path fuel (n_m - 1) h

/-- sync.c:396-402: the diagonals are moved into the array. -/
def collectLoop (path : Addr) : (fuel : Nat) → (i : Nat) → PHeap → Res PHeap
  | fuel, i, h =>
    match (h.links.hdr false).first with
    | none => .ok h
    | some diag =>
      match fuel with
      | 0 => .fuel
      | fuel + 1 => do
        let h ← remove h false diag
        let o ← pobj h path
        let v ← getDiag h diag
        let h ← setArr h o.f i v
        let h ← freeDiag h diag
        collectLoop path fuel (i + 1) h

/-- sync.c:394-402. -/
def collect (path : Addr) (h : PHeap) : Res PHeap := do
  let count := (h.links.hdr false).count
  let (f, h) := newArr count.toNat h
  let o ← pobj h path
  let h ← setPath h path { o with f := some f }
  collectLoop path count.toNat 0 h

/-- sync.c:365-403: the while loop of `compute_pathlist`. -/
def pathLoop (a b : List Nat) : (fuel : Nat) → (p : Nat) → PHeap → Res PHeap
  | fuel, p, h =>
    if h.min_k ≤ (b.length : Int) - a.length then
      match fuel with
      | 0 => .fuel
      | fuel + 1 => do
        let (path, h) := newPath h
        let o ← pobj h path
        let h ← setPath h path { o with p := p }
        let h ← insert_last h true path
        let h ← computeLevel a b p path h
        let h ← collect path h
        pathLoop a b fuel (p + 1) h
    else .ok h

/-- sync.c:349-409 `compute_pathlist`. -/
def compute_pathlist (a b : List Nat) (h : PHeap) : Res PHeap :=
  pathLoop a b (a.length + b.length + 1) 0 { h with min_k := -a.length, max_k := b.length }

/-- sync.c:412-434 `obtain_matches`; `k` is `none` if `prev_k` was not assigned. -/
def obtain_matches (l : Bool) : (fuel : Nat) → (k : Option Int) → PHeap → Heap.Heap → Res (PHeap × Heap.Heap)
  | fuel, k, P, h =>
    match (P.links.hdr true).last with
    | none => .ok (P, h)
    | some path =>
      match fuel with
      | 0 => .fuel
      | fuel + 1 =>
        match k with
        | none => .ub
        | some k => do
          let o ← pobj P path
          let fs ← getArr P o.f
          let f ← rdI fs (k - o.start_k)
          let (start0, prev_k) ← initial_f P k (P.links.cell path).prev
          let h ← (if f > start0 then do
              let sync ← Edo.nonNull (h.links.hdr l).first
              let (c, h) := Heap.newLong h
              Heap.save_match l 2 sync [start0, start0 + k] (f - start0) c h
            else pure h)
          let P ← remove P true path
          let P ← freeArr P o.f
          let P ← freePath P path
          obtain_matches l fuel prev_k P h

/-- sync.c:437-447 `fastukk_sync` (no text has more than `MAX_F`, that is 2^63 - 1, characters). -/
def fastukk_sync (l : Bool) (text0 text1 : List Ch) (P : PHeap) (h : Heap.Heap) : Res (PHeap × Heap.Heap) := do
  let h ← Heap.initialize_synclist l [text0.length, text1.length] h
  let a := text0.map Ch.value
  let b := text1.map Ch.value
  let P ← compute_pathlist a b P
  let (P, h) ← obtain_matches l P.next (some ((b.length : Int) - a.length)) P h
  let h ← Heap.number_matches l h
  return (P, h)

end Ocr.Paths
