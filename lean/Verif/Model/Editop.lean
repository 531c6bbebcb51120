import Verif.Model.Edorpt
import Verif.Model.Sync

/-!
# Model of editop.c

After `count_deletions` every item of `synclist2` is matched, and only the match numbers and the lengths of the items are
used.  An item is a `Block`; `id` stands for the address of the `Sync` structure (the name of its match cell, which occurs
once in the list, is used for it).
-/

namespace Ocr.Edo
open Text Sync

/-- A matched item of `synclist2`: its address, `*sync->match` and `sync->substr->length`.  The match numbers given by
`number_matches` are positive, and `decrement_match` keeps them so; they are natural numbers here (sync.h:48-54, editop.c:120-224). -/
structure Block where
  id     : Nat
  mtch   : Nat
  length : Int
  deriving DecidableEq, Repr

/-- The loop of editop.c:85-87 over `count` characters. -/
def insertionLoop (text : List Nat) : (count : Nat) → (i : Int) → (total : Int) → Res Int
  | 0, _, total => .ok total
  | n + 1, i, total => do
    let c ← rdI text i
    insertionLoop text n (i + 1) (if c ≠ REJECT_CHARACTER then total + 1 else total)

/-- editop.c:77-88 `count_insertions`: the new `total_insertions`. -/
def count_insertions (text : List Nat) : List Sync → (total : Int) → Res Int
  | [], total => .ok total
  | s :: l, total => do
    let sub ← s.only
    let total ← (if s.mtch = none then insertionLoop text (sub.stop + 1 - sub.start).toNat sub.start total else pure total)
    count_insertions text l total

/-- editop.c:91-106 `count_deletions`: the remaining items and the new `total_deletions`. -/
def count_deletions (cells : Nat → Int) : List Sync → (total : Int) → Res (List Block × Int)
  | [], total => .ok ([], total)
  | s :: l, total => do
    let sub ← s.only
    match s.mtch with
    | none => count_deletions cells l (total + sub.length)
    | some c => do
      let (l, total) ← count_deletions cells l total
      return (⟨c, (cells c).toNat, sub.length⟩ :: l, total)

/-- editop.c:109-117 `decrement_match`. -/
def decrement_match (limit : Nat) (l : List Block) : List Block :=
  l.map (fun b => if b.mtch > limit then { b with mtch := b.mtch - 1 } else b)

/-- editop.c:125-136: the loop of `combine_adjacent` at item `sync`, which has the items `pre` before it and `rest` after
it. -/
def combineLoop : (fuel : Nat) → (pre : List Block) → (sync : Block) → (rest : List Block) → Res (List Block)
  | fuel, pre, sync, rest =>
    match rest with
    | [] => .ok (pre ++ [sync])
    | next :: rest =>
      match fuel with
      | 0 => .fuel
      | fuel + 1 =>
        if next.mtch = sync.mtch + 1 then
          combineLoop fuel (decrement_match sync.mtch pre) { sync with length := sync.length + next.length }
            (decrement_match sync.mtch rest)
        else combineLoop fuel (pre ++ [sync]) next rest

/-- editop.c:120-139 `combine_adjacent`. -/
def combine_adjacent : List Block → Res (List Block)
  | [] => .ok []
  | sync :: rest => combineLoop rest.length [] sync rest

/-- editop.c:44-49 `Candidate`; the pointer `sync` is the identity of a block. -/
structure Candidate where
  for_insertion : Bool
  for_deletion  : Bool
  sync          : Option Nat
  deriving DecidableEq, Repr

/-- editop.c:150-151, for the item `sync` followed by `l`. -/
def flagInsertion (sync : Block) (l : List Block) (candidate : List Candidate) : Res (List Candidate) :=
  match l with
  | next :: _ =>
    if next.mtch = sync.mtch + 2 then do
      let c ← rd candidate (sync.mtch + 1)
      wr candidate (sync.mtch + 1) { c with for_insertion := true }
    else .ok candidate
  | [] => .ok candidate

/-- editop.c:152-154. -/
def flagDeletion (sync : Block) (l : List Block) (candidate : List Candidate) : Res (List Candidate) :=
  match l with
  | next :: next2 :: _ =>
    if next2.mtch = sync.mtch + 1 then do
      let c ← rd candidate next.mtch
      wr candidate next.mtch { c with for_deletion := true }
    else .ok candidate
  | _ => .ok candidate

/-- editop.c:148-156: the loop of `find_candidates`. -/
def candidateLoop : (l : List Block) → (candidate : List Candidate) → Res (List Candidate)
  | [], candidate => .ok candidate
  | sync :: l, candidate => do
    let candidate ← flagInsertion sync l candidate
    let candidate ← flagDeletion sync l candidate
    let c ← rd candidate sync.mtch
    let candidate ← wr candidate sync.mtch { c with sync := some sync.id }
    candidateLoop l candidate

/-- editop.c:142-158 `find_candidates`. -/
def find_candidates (l : List Block) : Res (List Candidate) :=
  candidateLoop l (List.replicate (l.length + 1) ⟨false, false, none⟩)

/-- `candidate->sync`, as a block (editop.c:185-224). -/
def deref (l : List Block) (p : Option Nat) : Res Block :=
  match p with
  | none => .ub
  | some id =>
    match l.find? (fun b => b.id = id) with
    | some b => .ok b
    | none => .ub

/-- editop.c:166-180: the loop of `find_move`; `move` holds `move_i`, `move_length` and `move_reduction` once they have
been set. -/
def moveChoice (l : List Block) (candidate : List Candidate) : (n : Nat) → (i : Nat) → (move : Option (Nat × Int × Nat)) →
    Res (Option (Nat × Int × Nat))
  | 0, _, move => .ok move
  | n + 1, i, move => do
    let c ← rd candidate i
    let reduction := 1 + (if c.for_insertion then 1 else 0) + (if c.for_deletion then 1 else 0)
    match move with
    | none => do
      let b ← deref l c.sync
      moveChoice l candidate n (i + 1) (some (i, b.length, reduction))
    | some (move_i, move_length, move_reduction) =>
      if reduction > move_reduction then do
        let b ← deref l c.sync
        moveChoice l candidate n (i + 1) (some (i, b.length, reduction))
      else if reduction = move_reduction then do
        let b ← deref l c.sync
        if b.length < move_length then moveChoice l candidate n (i + 1) (some (i, b.length, reduction))
        else moveChoice l candidate n (i + 1) (some (move_i, move_length, move_reduction))
      else moveChoice l candidate n (i + 1) (some (move_i, move_length, move_reduction))

/-- editop.c:161-182 `find_move`. -/
def find_move (l : List Block) (candidate : List Candidate) : Res Block := do
  match ← moveChoice l candidate l.length 1 none with
  | none => .ub
  | some (move_i, _, _) => do
    let c ← rd candidate move_i
    deref l c.sync

/-- `list_insert_before(l, b, p)` (list.c:91-97) for the item with address `p`. -/
def insertBefore (b : Block) (p : Nat) : List Block → Res (List Block)
  | [] => .ub
  | x :: l => if x.id = p then .ok (b :: x :: l) else do return x :: (← insertBefore b p l)

/-- `list_insert_after(l, p, b)` (list.c:99-105). -/
def insertAfter (p : Nat) (b : Block) : List Block → Res (List Block)
  | [] => .ub
  | x :: l => if x.id = p then .ok (x :: b :: l) else do return x :: (← insertAfter p b l)

/-- `list_remove(l, p)` (list.c:107-122). -/
def removeBlock (p : Nat) : List Block → Res (List Block)
  | [] => .ub
  | x :: l => if x.id = p then .ok l else do return x :: (← removeBlock p l)

/-- A pointer that must not be NULL (editop.c:208-224). -/
def nonNull (p : Option Nat) : Res Nat :=
  match p with
  | none => .ub
  | some id => .ok id

/-- editop.c:185-205 `perform_move`. -/
def perform_move (D : Edodata) (l : List Block) (candidate : List Candidate) (sync : Block) : Res (Edodata × List Block) := do
  let l ← removeBlock sync.id l
  let l ← (if sync.mtch = 1 then do
      let c ← rd candidate 2
      let p ← nonNull c.sync
      insertBefore sync p l
    else do
      let c ← rd candidate (sync.mtch - 1)
      let p ← nonNull c.sync
      insertAfter p sync l)
  let length := min sync.length MAX_MOVE_LENGTH
  if length < 0 then .ub
  else return ({ D with
    total_moves := D.total_moves + 1
    moves := fun i => if i = length.toNat then D.moves i + 1 else D.moves i }, l)

/-- editop.c:216-223: the loop of `count_moves`. -/
def countLoop : (fuel : Nat) → Edodata → List Block → Res Edodata
  | fuel, D, l =>
    if l.length > 1 then
      match fuel with
      | 0 => .fuel
      | fuel + 1 => do
        let candidate ← find_candidates l
        let sync ← find_move l candidate
        let (D, l) ← perform_move D l candidate sync
        let l ← combine_adjacent l
        countLoop fuel D l
    else .ok D

/-- editop.c:208-224 `count_moves`. -/
def count_moves (D : Edodata) (l : List Block) : Res Edodata := do
  let l ← combine_adjacent l
  countLoop l.length D l

/-- editop.c:239-242, for the character values of the two texts. -/
def editop (text1 text2 : List Nat) : Res Edodata := do
  let r ← transpose_sync text1 text2
  let total_insertions ← count_insertions text1 r.items1 0
  let (l, total_deletions) ← count_deletions r.cells r.items2 0
  count_moves { Edodata.zero with total_insertions, total_deletions } l

end Ocr.Edo
