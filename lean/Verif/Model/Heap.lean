import Verif.Model.CList
import Verif.Model.EditopDebug

/-!
# sync.c and editop.c on a heap

`Model/Sync.lean` and `Model/Editop.lean` have lists instead of pointers and no `free`.  Here the items of a `Synclist` are objects
that are allocated and freed, linked by pointers (list.c on `CList.Mem`), and dereferencing or freeing a pointer to an object that is
not allocated is undefined behaviour.  Addresses are not used again after `free`, so that every use of a dangling pointer is seen.  There
is one address space for each type of object.  The two lists of a program are named `true` and `false`.
-/

namespace Ocr.Heap
open Text Sync CList

/-- sync.h:48-54 `Sync`, without the links. -/
structure Obj where
  substr : Addr
  mtch   : Option Addr
  deriving DecidableEq, Repr

/-- What is allocated (util.c:51-59 `allocate`; `calloc`, so that the objects are filled with zeros). -/
structure Heap where
  links    : Mem Bool
  sync     : Addr → Option Obj
  subs     : Addr → Option (List Substr)
  long     : Addr → Option Int
  nextSync : Nat
  nextSubs : Nat
  nextLong : Nat

/-- Nothing is allocated when a program starts (editop.c:231: the headers of the lists are not initialized). -/
def Heap.start (hdr : Bool → Hdr) : Heap := ⟨⟨fun _ => ⟨none, none⟩, hdr⟩, fun _ => none, fun _ => none, fun _ => none, 0, 0, 0⟩

/-- `*sync` (as in sync.c:85). -/
def obj (h : Heap) (a : Addr) : Res Obj :=
  match h.sync a with
  | some o => .ok o
  | none => .ub

/-- `sync->next` (as in sync.c:185). -/
def next (h : Heap) (a : Addr) : Res (Option Addr) := do
  let _ ← obj h a
  return (h.links.cell a).next

/-- `sync->prev` (as in sync.c:218). -/
def prev (h : Heap) (a : Addr) : Res (Option Addr) := do
  let _ ← obj h a
  return (h.links.cell a).prev

/-- `sync->substr[0]`, ..., `sync->substr[n - 1]` (as in sync.c:84-86). -/
def substrs (h : Heap) (n : Nat) (a : Addr) : Res (List Substr) := do
  let o ← obj h a
  match h.subs o.substr with
  | none => .ub
  | some s => if n ≤ s.length then .ok (s.take n) else .ub

/-- Assignment to the first elements of `sync->substr` (as in sync.c:155-167). -/
def setSubstrs (h : Heap) (a : Addr) (s : List Substr) : Res Heap := do
  let o ← obj h a
  match h.subs o.substr with
  | none => .ub
  | some old =>
    if s.length ≤ old.length then
      .ok { h with subs := fun p => if p = o.substr then some (s ++ old.drop s.length) else h.subs p }
    else .ub

/-- `*sync->substr` (as in sync.c:251). -/
def only (h : Heap) (a : Addr) : Res Substr := do
  let s ← substrs h 1 a
  rd s 0

/-- `sync->match = match` (sync.c:168). -/
def setMatch (h : Heap) (a : Addr) (c : Option Addr) : Res Heap := do
  let o ← obj h a
  return { h with sync := fun x => if x = a then some { o with mtch := c } else h.sync x }

/-- `*match` (as in editop.c:60). -/
def getLong (h : Heap) (c : Option Addr) : Res Int :=
  match c with
  | none => .ub
  | some c =>
    match h.long c with
    | none => .ub
    | some v => .ok v

/-- Assignment to `*match` (as in sync.c:187). -/
def setLong (h : Heap) (c : Option Addr) (v : Int) : Res Heap :=
  match c with
  | none => .ub
  | some c =>
    match h.long c with
    | none => .ub
    | some _ => .ok { h with long := fun x => if x = c then some v else h.long x }

/-- `free(sync)` (sync.c:75, editop.c:73). -/
def freeSync (h : Heap) (a : Addr) : Res Heap :=
  match h.sync a with
  | none => .ub
  | some _ => .ok { h with sync := fun x => if x = a then none else h.sync x }

/-- `free(sync->substr)` (sync.c:74, editop.c:70). -/
def freeSubs (h : Heap) (p : Addr) : Res Heap :=
  match h.subs p with
  | none => .ub
  | some _ => .ok { h with subs := fun x => if x = p then none else h.subs x }

/-- `free(sync->match)` (editop.c:72). -/
def freeLong (h : Heap) (c : Addr) : Res Heap :=
  match h.long c with
  | none => .ub
  | some _ => .ok { h with long := fun x => if x = c then none else h.long x }

/-- `NEW(long)` (sync.c:217, 268). -/
def newLong (h : Heap) : Addr × Heap :=
  (h.nextLong, { h with long := fun x => if x = h.nextLong then some 0 else h.long x, nextLong := h.nextLong + 1 })

/-- sync.c:61-68 `create_sync`. -/
def create_sync (n : Nat) (h : Heap) : Addr × Heap :=
  (h.nextSync, { h with
    links := setCell h.links h.nextSync ⟨none, none⟩
    sync := fun x => if x = h.nextSync then some ⟨h.nextSubs, none⟩ else h.sync x
    subs := fun x => if x = h.nextSubs then some (List.replicate n ⟨0, 0, 0⟩) else h.subs x
    nextSync := h.nextSync + 1
    nextSubs := h.nextSubs + 1 })

/-- sync.c:71-76 `destroy_sync`. -/
def destroy_sync (h : Heap) (a : Addr) : Res Heap := do
  let o ← obj h a
  let h ← freeSubs h o.substr
  freeSync h a

/-! ## Lists (list.c:56-122, see `CList`): the items whose links are changed must be allocated -/

/-- A pointer that is NULL or to an allocated item (as in list.c:61-68). -/
def live (h : Heap) (p : Option Addr) : Bool :=
  match p with
  | none => true
  | some a => (h.sync a).isSome

/-- list.c:56-72 `list_insert`. -/
def insert (h : Heap) (l : Bool) (ref1 : Option Addr) (item : Addr) (ref2 : Option Addr) : Res Heap :=
  if live h ref1 ∧ live h (some item) ∧ live h ref2 then .ok { h with links := list_insert h.links l ref1 item ref2 } else .ub

/-- list.c:75-80 `list_insert_first`. -/
def insert_first (h : Heap) (l : Bool) (item : Addr) : Res Heap := insert h l none item (h.links.hdr l).first

/-- list.c:91-96 `list_insert_before`. -/
def insert_before (h : Heap) (l : Bool) (item ref : Addr) : Res Heap := do
  let p ← prev h ref
  insert h l p item (some ref)

/-- list.c:99-104 `list_insert_after`. -/
def insert_after (h : Heap) (l : Bool) (ref item : Addr) : Res Heap := do
  let n ← next h ref
  insert h l (some ref) item n

/-- list.c:107-122 `list_remove`. -/
def remove (h : Heap) (l : Bool) (item : Addr) : Res Heap := do
  let p ← prev h item
  let n ← next h item
  if live h p ∧ live h n then return { h with links := list_remove h.links l item } else .ub

/-- `for (sync = ...; sync; sync = sync->next)` (as in sync.c:185) with a body that changes `s`. -/
def walk {σ : Type} (heap : σ → Heap) (step : Addr → σ → Res σ) : (fuel : Nat) → Option Addr → σ → Res σ
  | _, none, s => .ok s
  | 0, some _, _ => .fuel
  | fuel + 1, some a, s => do
    let s ← step a s
    let n ← next (heap s) a
    walk heap step fuel n s

/-! ## sync.c -/

/-- sync.c:79-88 `valid_sync`. -/
def valid_sync (n : Nat) (h : Heap) (a : Addr) : Res Bool := do
  let s ← substrs h n a
  return s.any (fun s => s.length > 0)

/-- sync.c:91-111 `initialize_synclist`, for texts with the given numbers of characters. -/
def initialize_synclist (l : Bool) (counts : List Nat) (h : Heap) : Res Heap := do
  let h := { h with links := list_initialize h.links l }
  let (sync, h) := create_sync counts.length h
  let h ← setSubstrs h sync (counts.map (fun (c : Nat) => (⟨0, (c : Int) - 1, (c : Int)⟩ : Substr)))
  let b ← valid_sync counts.length h sync
  if b then insert_first h l sync else destroy_sync h sync

/-- sync.c:144-177 `save_match` (the loop of sync.c:152-167 is done array by array). -/
def save_match (l : Bool) (n : Nat) (sync : Addr) (start : List Int) (length : Int) (c : Addr) (h : Heap) : Res Heap := do
  let (left, h) := create_sync n h
  let (right, h) := create_sync n h
  let s ← substrs h n sync
  if start.length ≠ n then .ub
  else do
    let h ← setSubstrs h left (List.zipWith (fun (s : Substr) st => ⟨s.start, st - 1, st - s.start⟩) s start)
    let h ← setSubstrs h right (List.zipWith (fun (s : Substr) st => ⟨st + length - 1 + 1, s.stop, s.stop - (st + length - 1)⟩) s start)
    let h ← setSubstrs h sync (start.map (fun st => ⟨st, st + length - 1, length⟩))
    let h ← setMatch h sync (some c)
    let b ← valid_sync n h left
    let h ← (if b then insert_before h l left sync else destroy_sync h left)
    let b ← valid_sync n h right
    if b then insert_after h l sync right else destroy_sync h right

/-- sync.c:186-187: the body of the loop of `number_matches`. -/
def numberStep (a : Addr) (s : Heap × Int) : Res (Heap × Int) := do
  let o ← obj s.1 a
  if o.mtch.isSome then do
    let h ← setLong s.1 o.mtch (s.2 + 1)
    return (h, s.2 + 1)
  else return s

/-- sync.c:180-188 `number_matches`. -/
def number_matches (l : Bool) (h : Heap) : Res Heap := do
  let (h, _) ← walk Prod.fst numberStep h.nextSync (h.links.hdr l).first (h, 0)
  return h

/-- `if (p) f(p)` (as in sync.c:218-221). -/
def whenSome (p : Option Addr) (f : Addr → Heap → Res Heap) (h : Heap) : Res Heap :=
  match p with
  | some a => f a h
  | none => .ok h

/-- sync.c:191-222 `recursive_sync`. -/
def recursive_sync (l : Bool) (texts : List (List Nat)) : (fuel : Nat) → (sync : Addr) → Heap → Res Heap
  | 0, _, _ => .fuel
  | fuel + 1, sync, h => do
    let s ← substrs h texts.length sync
    if s.any (fun s => s.length = 0) then return h
    else
      match texts, s with
      | text0 :: more, sub0 :: subs => do
        let r ← matchTexts text0 (more.zip subs) [sub0.start] sub0.length
        match r with
        | none => return h
        | some (start, length) => do
          let (c, h) := newLong h
          let h ← save_match l texts.length sync start length c h
          let p ← prev h sync
          let h ← whenSome p (recursive_sync l texts fuel) h
          let n ← next h sync
          whenSome n (recursive_sync l texts fuel) h
      | _, _ => .ub

/-- sync.c:225-236 `synchronize`. -/
def synchronize (l : Bool) (texts : List (List Nat)) (h : Heap) : Res Heap := do
  if texts.length < MIN_STREAMS ∨ texts.length > MAX_STREAMS then .err "invalid number of text streams"
  else do
    let h ← initialize_synclist l (texts.map List.length) h
    let h ← whenSome (h.links.hdr l).first (recursive_sync l texts ((texts.headD []).length + 1)) h
    number_matches l h

/-- `length`, `start1` and `start2`, `sync1` and `sync2` (sync.c:243-244). -/
structure TBest where
  length : Int
  starts : Option (Int × Int)
  items  : Option (Addr × Addr)
  deriving DecidableEq, Repr

/-- sync.c:253-264: the body of the loop over `synclist2`. -/
def innerStep (a b : List Nat) (h : Heap) (sub1 : Substr) (s1 : Addr) (s2 : Addr) (best : TBest) : Res TBest := do
  let o2 ← obj h s2
  let sub2 ← only h s2
  if o2.mtch = none ∧ sub2.length > best.length then do
    let (newlength, starts) ← longest_match best.length a sub1.start sub1.stop b sub2.start sub2.stop best.starts
    if newlength > best.length then return ⟨newlength, starts, some (s1, s2)⟩
    else return ⟨best.length, starts, best.items⟩
  else return best

/-- sync.c:251-264: the body of the loop over `synclist1`. -/
def outerStep (a b : List Nat) (l2 : Bool) (h : Heap) (s1 : Addr) (best : TBest) : Res TBest := do
  let o1 ← obj h s1
  let sub1 ← only h s1
  if o1.mtch = none ∧ sub1.length > best.length then
    walk (fun _ => h) (innerStep a b h sub1 s1) h.nextSync (h.links.hdr l2).first best
  else return best

/-- sync.c:247-271: the while loop. -/
def transLoop (a b : List Nat) (l1 l2 : Bool) : (fuel : Nat) → Heap → Res Heap
  | fuel, h => do
    let best ← walk (fun _ => h) (outerStep a b l2 h) h.nextSync (h.links.hdr l1).first ⟨0, none, none⟩
    if best.length = 0 then return h
    else
      match best.starts, best.items with
      | some (start1, start2), some (sync1, sync2) => do
        let (c, h) := newLong h
        let h ← save_match l1 1 sync1 [start1] best.length c h
        let h ← save_match l2 1 sync2 [start2] best.length c h
        match fuel with
        | 0 => .fuel
        | fuel + 1 => transLoop a b l1 l2 fuel h
      | _, _ => .ub

/-- sync.c:239-273 `transpose_sync`. -/
def transpose_sync (l1 l2 : Bool) (text1 text2 : List Nat) (h : Heap) : Res Heap := do
  let h ← initialize_synclist l1 [text1.length] h
  let h ← initialize_synclist l2 [text2.length] h
  let h ← transLoop text1 text2 l1 l2 text1.length h
  number_matches l1 h

/-! ## editop.c -/

/-- editop.c:60: what is printed for an item. -/
def displayStep (h : Heap) (a : Addr) (out : List Nat) : Res (List Nat) := do
  let o ← obj h a
  let m ← getLong h o.mtch
  let sub ← only h a
  return out ++ (ascii " {" ++ fmtInt m ++ ascii ":" ++ fmtInt sub.length ++ ascii "}")

/-- editop.c:53-62 `display`. -/
def display (l : Bool) (label : List Nat) (h : Heap) : Res (List Nat) := do
  let out ← walk (fun _ => h) (displayStep h) h.nextSync (h.links.hdr l).first (Synctext.padRight 9 label ++ ascii ":")
  return out ++ [10, 10]

/-- editop.c:65-74 `discard_sync`. -/
def discard_sync (l : Bool) (a : Addr) (h : Heap) : Res Heap := do
  let h ← remove h l a
  let o ← obj h a
  let h ← freeSubs h o.substr
  let h ← whenSome o.mtch (fun c h => freeLong h c) h
  freeSync h a

/-- editop.c:84-87: the body of the loop of `count_insertions`. -/
def insertionStep (text : List Nat) (h : Heap) (a : Addr) (total : Int) : Res Int := do
  let o ← obj h a
  if o.mtch = none then do
    let sub ← only h a
    Edo.insertionLoop text (sub.stop + 1 - sub.start).toNat sub.start total
  else return total

/-- editop.c:77-88 `count_insertions`: the new `total_insertions`. -/
def count_insertions (l : Bool) (text : List Nat) (h : Heap) (total : Int) : Res Int :=
  walk (fun _ => h) (insertionStep text h) h.nextSync (h.links.hdr l).first total

/-- editop.c:96-105: the loop of `count_deletions`. -/
def deletionLoop (l : Bool) : (fuel : Nat) → (sync : Option Addr) → Heap → (total : Int) → Res (Heap × Int)
  | _, none, h, total => .ok (h, total)
  | 0, some _, _, _ => .fuel
  | fuel + 1, some a, h, total => do
    let n ← next h a
    let o ← obj h a
    if o.mtch = none then do
      let sub ← only h a
      let h ← discard_sync l a h
      deletionLoop l fuel n h (total + sub.length)
    else deletionLoop l fuel n h total

/-- editop.c:91-106 `count_deletions`. -/
def count_deletions (l : Bool) (h : Heap) (total : Int) : Res (Heap × Int) :=
  deletionLoop l h.nextSync (h.links.hdr l).first h total

/-- editop.c:115-116: the body of the loop of `decrement_match`. -/
def decrementStep (limit : Int) (a : Addr) (h : Heap) : Res Heap := do
  let o ← obj h a
  let m ← getLong h o.mtch
  if m > limit then setLong h o.mtch (m - 1) else return h

/-- editop.c:109-117 `decrement_match`. -/
def decrement_match (l : Bool) (limit : Int) (h : Heap) : Res Heap :=
  walk id (decrementStep limit) h.nextSync (h.links.hdr l).first h

/-- `*sync->match` (as in editop.c:127). -/
def number (h : Heap) (a : Addr) : Res Int := do
  let o ← obj h a
  getLong h o.mtch

/-- editop.c:125-136: the loop of `combine_adjacent`. -/
def combineLoop (l : Bool) : (fuel : Nat) → (sync : Option Addr) → Heap → Res Heap
  | _, none, h => .ok h
  | 0, some _, _ => .fuel
  | fuel + 1, some sync, h => do
    let n ← next h sync
    match n with
    | none => combineLoop l fuel none h
    | some nx => do
      let m ← number h sync
      let m' ← number h nx
      if m' = m + 1 then do
        let sub ← only h sync
        let sub' ← only h nx
        let h ← setSubstrs h sync [{ sub with length := sub.length + sub'.length }]
        let h ← discard_sync l nx h
        let m ← number h sync
        let h ← decrement_match l m h
        combineLoop l fuel (some sync) h
      else combineLoop l fuel (some nx) h

/-- editop.c:120-139 `combine_adjacent`; the items freed are counted by the fuel, too. -/
def combine_adjacent (debug : Bool) (l : Bool) (h : Heap) : Res (Heap × List Nat) := do
  let h ← combineLoop l h.nextSync (h.links.hdr l).first h
  if debug then do
    let out ← display l (ascii "combined") h
    return (h, out)
  else return (h, [])

/-- editop.c:150-151. -/
def flagInsertion (h : Heap) (a : Addr) (candidate : List Edo.Candidate) : Res (List Edo.Candidate) := do
  let n ← next h a
  match n with
  | none => return candidate
  | some nx => do
    let m' ← number h nx
    let m ← number h a
    if m' = m + 2 then do
      let c ← rdI candidate (m + 1)
      wr candidate (m + 1).toNat { c with for_insertion := true }
    else return candidate

/-- editop.c:152-154. -/
def flagDeletion (h : Heap) (a : Addr) (candidate : List Edo.Candidate) : Res (List Edo.Candidate) := do
  let n ← next h a
  match n with
  | none => return candidate
  | some nx => do
    let n2 ← next h nx
    match n2 with
    | none => return candidate
    | some nx2 => do
      let m2 ← number h nx2
      let m ← number h a
      if m2 = m + 1 then do
        let m' ← number h nx
        let c ← rdI candidate m'
        wr candidate m'.toNat { c with for_deletion := true }
      else return candidate

/-- editop.c:150-155: the body of the loop of `find_candidates`; `Candidate.sync` is an address. -/
def candidateStep (h : Heap) (a : Addr) (candidate : List Edo.Candidate) : Res (List Edo.Candidate) := do
  let candidate ← flagInsertion h a candidate
  let candidate ← flagDeletion h a candidate
  let m ← number h a
  let c ← rdI candidate m
  wr candidate m.toNat { c with sync := some a }

/-- editop.c:142-158 `find_candidates`; the array is used by one iteration of the loop of `count_moves` only, which frees it. -/
def find_candidates (l : Bool) (h : Heap) : Res (List Edo.Candidate) :=
  walk (fun _ => h) (candidateStep h) h.nextSync (h.links.hdr l).first
    (List.replicate ((h.links.hdr l).count + 1).toNat ⟨false, false, none⟩)

/-- `candidate[i].sync->substr->length` (editop.c:174-177). -/
def candidateLength (h : Heap) (c : Edo.Candidate) : Res Int :=
  match c.sync with
  | none => .ub
  | some a => do
    let sub ← only h a
    return sub.length

/-- editop.c:166-180: the loop of `find_move` (see `Edo.moveChoice`). -/
def moveChoice (h : Heap) (candidate : List Edo.Candidate) : (n : Nat) → (i : Nat) → (move : Option (Nat × Int × Nat)) →
    Res (Option (Nat × Int × Nat))
  | 0, _, move => .ok move
  | n + 1, i, move => do
    let c ← rd candidate i
    let reduction := 1 + (if c.for_insertion then 1 else 0) + (if c.for_deletion then 1 else 0)
    match move with
    | none => do
      let len ← candidateLength h c
      moveChoice h candidate n (i + 1) (some (i, len, reduction))
    | some (move_i, move_length, move_reduction) =>
      if reduction > move_reduction then do
        let len ← candidateLength h c
        moveChoice h candidate n (i + 1) (some (i, len, reduction))
      else if reduction = move_reduction then do
        let len ← candidateLength h c
        if len < move_length then moveChoice h candidate n (i + 1) (some (i, len, reduction))
        else moveChoice h candidate n (i + 1) (some (move_i, move_length, move_reduction))
      else moveChoice h candidate n (i + 1) (some (move_i, move_length, move_reduction))

/-- editop.c:161-182 `find_move`: a pointer, which the caller uses. -/
def find_move (l : Bool) (h : Heap) (candidate : List Edo.Candidate) : Res (Option Addr) := do
  match ← moveChoice h candidate (h.links.hdr l).count.toNat 1 none with
  | none => .ub
  | some (move_i, _, _) => do
    let c ← rd candidate move_i
    return c.sync

/-- editop.c:185-205 `perform_move`. -/
def perform_move (debug : Bool) (l : Bool) (D : Edo.Edodata) (candidate : List Edo.Candidate) (sync : Option Addr) (h : Heap) :
    Res (Edo.Edodata × Heap × List Nat) := do
  let sync ← Edo.nonNull sync
  let h ← remove h l sync
  let m ← number h sync
  let h ← (if m = 1 then do
      let c ← rd candidate 2
      let p ← Edo.nonNull c.sync
      insert_before h l sync p
    else do
      let c ← rdI candidate (m - 1)
      let p ← Edo.nonNull c.sync
      insert_after h l p sync)
  let sub ← only h sync
  let length := min sub.length Edo.MAX_MOVE_LENGTH
  if length < 0 then .ub
  else do
    let D := { D with
      total_moves := D.total_moves + 1
      moves := fun i => if i = length.toNat then D.moves i + 1 else D.moves i }
    if debug then do
      let m ← number h sync
      let label := ascii "moved " ++ fmtInt m
      if label.length < 20 then do
        let out ← display l label h
        return (D, h, out)
      else .ub
    else return (D, h, [])

/-- editop.c:216-223: the loop of `count_moves`. -/
def countLoop (debug : Bool) (l : Bool) : (fuel : Nat) → Edo.Edodata → Heap → Res (Edo.Edodata × Heap × List Nat)
  | fuel, D, h =>
    if (h.links.hdr l).count > 1 then
      match fuel with
      | 0 => .fuel
      | fuel + 1 => do
        let candidate ← find_candidates l h
        let sync ← find_move l h candidate
        let (D, h, out1) ← perform_move debug l D candidate sync h
        let (h, out2) ← combine_adjacent debug l h
        let (D, h, out3) ← countLoop debug l fuel D h
        return (D, h, out1 ++ out2 ++ out3)
    else .ok (D, h, [])

/-- editop.c:208-224 `count_moves`. -/
def count_moves (debug : Bool) (l : Bool) (D : Edo.Edodata) (h : Heap) : Res (Edo.Edodata × Heap × List Nat) := do
  let out1 ← (if debug then display l (ascii "original") h else pure [])
  let (h, out2) ← combine_adjacent debug l h
  let (D, h, out3) ← countLoop debug l (h.links.hdr l).count.toNat D h
  return (D, h, out1 ++ out2 ++ out3)

/-- editop.c:239-242: the data, the heap and what is printed. -/
def editop (debug : Bool) (text1 text2 : List Nat) (h : Heap) : Res (Edo.Edodata × Heap × List Nat) := do
  let h ← transpose_sync true false text1 text2 h
  let total_insertions ← count_insertions true text1 h 0
  let (h, total_deletions) ← count_deletions false h 0
  count_moves debug false { Edo.Edodata.zero with total_insertions, total_deletions } h

end Ocr.Heap
