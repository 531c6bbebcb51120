import Verif.Model.Sync

/-!
# Model of the work done by synchronize and transpose_sync (sync.c)

The functions of `Model/Sync.lean` with counters.  That the results are the same is part of C96.
-/

namespace Ocr.Sync
open Text

/-- What is counted: evaluations of the condition of the if at sync.c:124-125 (one for each pair of positions tried), evaluations of the
condition of the loop at sync.c:127-129, and calls of `recursive_sync`. -/
structure Tries where
  pairs : Nat
  tests : Nat
  calls : Nat
  deriving DecidableEq, Repr

/-- sync.c:127-129: the loop extending a match, with the number of evaluations of its condition. -/
def matchRunW (c1 c2 : List Nat) (stop1 stop2 : Int) : (fuel : Nat) → (i1 i2 : Int) → (tests : Nat) → Res (Int × Nat)
  | fuel, i1, i2, tests =>
    if i1 ≤ stop1 ∧ i2 ≤ stop2 then do
      let x ← rdI c1 i1
      let y ← rdI c2 i2
      if x = y ∧ x ≠ REJECT_CHARACTER then
        match fuel with
        | 0 => .fuel
        | fuel + 1 => matchRunW c1 c2 stop1 stop2 fuel (i1 + 1) (i2 + 1) (tests + 1)
      else .ok (i1, tests + 1)
    else .ok (i1, tests + 1)

/-- sync.c:124-139: the body of the two loops of `longest_match`, with counters. -/
def longestStepW (c1 c2 : List Nat) (stop1 stop2 s1 s2 : Int) (st : LM) (w : Tries) : Res (LM × Tries) := do
  let x ← rdI c1 s1
  let y ← rdI c2 s2
  if x = y ∧ x ≠ REJECT_CHARACTER then
    let (i1, tests) ← matchRunW c1 c2 stop1 stop2 c1.length (s1 + 1) (s2 + 1) w.tests
    let increase := i1 - s1 - st.maxlen
    if increase > 0 then
      return (⟨st.s1limit - increase, st.s2limit - increase, st.maxlen + increase, some (s1, s2)⟩, ⟨w.pairs + 1, tests, w.calls⟩)
    else return (st, ⟨w.pairs + 1, tests, w.calls⟩)
  else return (st, ⟨w.pairs + 1, w.tests, w.calls⟩)

/-- sync.c:123: `for (s2 = start2; s2 <= s2limit; s2++)`, with counters. -/
def longestInnerW (c1 c2 : List Nat) (stop1 stop2 s1 : Int) : (fuel : Nat) → (s2 : Int) → LM → Tries → Res (LM × Tries)
  | fuel, s2, st, w =>
    if s2 ≤ st.s2limit then
      match fuel with
      | 0 => .fuel
      | fuel + 1 => do
        let (st, w) ← longestStepW c1 c2 stop1 stop2 s1 s2 st w
        longestInnerW c1 c2 stop1 stop2 s1 fuel (s2 + 1) st w
    else .ok (st, w)

/-- sync.c:122: `for (s1 = start1; s1 <= s1limit; s1++)`, with counters. -/
def longestOuterW (c1 c2 : List Nat) (stop1 start2 stop2 : Int) : (fuel : Nat) → (s1 : Int) → LM → Tries → Res (LM × Tries)
  | fuel, s1, st, w =>
    if s1 ≤ st.s1limit then
      match fuel with
      | 0 => .fuel
      | fuel + 1 => do
        let (st, w) ← longestInnerW c1 c2 stop1 stop2 s1 c2.length start2 st w
        longestOuterW c1 c2 stop1 start2 stop2 fuel (s1 + 1) st w
    else .ok (st, w)

/-- sync.c:114-141 `longest_match`, with counters. -/
def longest_matchW (maxlen : Int) (c1 : List Nat) (start1 stop1 : Int) (c2 : List Nat) (start2 stop2 : Int)
    (mstart : Option (Int × Int)) (w : Tries) : Res ((Int × Option (Int × Int)) × Tries) := do
  let (st, w) ← longestOuterW c1 c2 stop1 start2 stop2 c1.length start1 ⟨stop1 - maxlen, stop2 - maxlen, maxlen, mstart⟩ w
  return ((st.maxlen, st.mstart), w)

/-- sync.c:204-216: the loop of `recursive_sync` over the texts 1, 2, ..., with counters. -/
def matchTextsW (text0 : List Nat) : List (List Nat × Substr) → (start : List Int) → (length : Int) → Tries →
    Res (Option (List Int × Int) × Tries)
  | [], start, length, w => .ok (some (start, length), w)
  | (text, sub) :: more, start, length, w => do
    let start0 ← rdI start 0
    let ((length, m), w) ← longest_matchW 0 text0 start0 (start0 + length - 1) text sub.start sub.stop none w
    if length = 0 then return (none, w)
    else
      match m with
      | none => .ub
      | some (new_start, start_i) =>
        let change := new_start - start0
        let start := if change > 0 then start.map (· + change) else start
        matchTextsW text0 more (start ++ [start_i]) length w

/-- sync.c:191-222 `recursive_sync`, with counters; the last number is the depth of the recursion. -/
def recursive_syncW (texts : List (List Nat)) : (fuel : Nat) → (pos : Nat) → (l : List Sync) → (next : Nat) → Tries →
    Res ((List Sync × Nat) × Tries × Nat)
  | 0, _, _, _, _ => .fuel
  | fuel + 1, pos, l, next, w =>
    match l[pos]?, texts with
    | some sync, text0 :: more =>
      if sync.substr.any (fun s => s.length = 0) then .ok ((l, next), ⟨w.pairs, w.tests, w.calls + 1⟩, 1)
      else
        match sync.substr with
        | [] => .ub
        | sub0 :: subs => do
          let (r, w) ← matchTextsW text0 (more.zip subs) [sub0.start] sub0.length ⟨w.pairs, w.tests, w.calls + 1⟩
          match r with
          | none => return ((l, next), w, 1)
          | some (start, length) => do
            let l ← save_match l pos start length next
            let at_ := l.findIdx (fun s => s.mtch = some next)
            let ((l, next'), w, d) ← (if at_ > 0 then recursive_syncW texts fuel (at_ - 1) l (next + 1) w
              else pure ((l, next + 1), w, 0))
            let at_ := l.findIdx (fun s => s.mtch = some next)
            if at_ + 1 < l.length then do
              let (r, w, d') ← recursive_syncW texts fuel (at_ + 1) l next' w
              return (r, w, max d d' + 1)
            else return ((l, next'), w, d + 1)
    | _, _ => .ub

/-- sync.c:225-236 `synchronize`, with counters and the depth of the recursion. -/
def synchronizeW (texts : List (List Nat)) : Res (Synclist × Tries × Nat) := do
  if texts.length < MIN_STREAMS ∨ texts.length > MAX_STREAMS then .err "invalid number of text streams"
  else
    let l := initialize_synclist (texts.map List.length)
    let ((l, _), w, d) ← (if l ≠ [] then recursive_syncW texts ((texts.headD []).length + 1) 0 l 0 ⟨0, 0, 0⟩
      else pure ((l, 0), ⟨0, 0, 0⟩, 0))
    return (⟨l, number_matches l (fun _ => 0)⟩, w, d)

/-! ## transpose_sync -/

/-- sync.c:252-264: the loop over `synclist2`, with counters. -/
def transInnerW (a b : List Nat) (sub1 : Substr) (pos1 : Nat) : List Sync → (pos2 : Nat) → TBest → Tries → Res (TBest × Tries)
  | [], _, best, w => .ok (best, w)
  | s2 :: l2, pos2, best, w => do
    let sub2 ← s2.only
    if s2.mtch = none ∧ sub2.length > best.length then
      let ((newlength, starts), w) ← longest_matchW best.length a sub1.start sub1.stop b sub2.start sub2.stop best.starts w
      if newlength > best.length then transInnerW a b sub1 pos1 l2 (pos2 + 1) ⟨newlength, starts, some (pos1, pos2)⟩ w
      else transInnerW a b sub1 pos1 l2 (pos2 + 1) ⟨best.length, starts, best.items⟩ w
    else transInnerW a b sub1 pos1 l2 (pos2 + 1) best w

/-- sync.c:250-251: the loop over `synclist1`, with counters. -/
def transOuterW (a b : List Nat) (l2 : List Sync) : List Sync → (pos1 : Nat) → TBest → Tries → Res (TBest × Tries)
  | [], _, best, w => .ok (best, w)
  | s1 :: l1, pos1, best, w => do
    let sub1 ← s1.only
    if s1.mtch = none ∧ sub1.length > best.length then
      let (best, w) ← transInnerW a b sub1 pos1 l2 0 best w
      transOuterW a b l2 l1 (pos1 + 1) best w
    else transOuterW a b l2 l1 (pos1 + 1) best w

/-- sync.c:247-271: the while loop, with counters; the last number is that of its iterations. -/
def transLoopW (a b : List Nat) : (fuel : Nat) → (l1 l2 : List Sync) → (next : Nat) → Tries → (rounds : Nat) →
    Res ((List Sync × List Sync) × Tries × Nat)
  | fuel, l1, l2, next, w, rounds => do
    let (best, w) ← transOuterW a b l2 l1 0 ⟨0, none, none⟩ w
    if best.length = 0 then return ((l1, l2), w, rounds + 1)
    else
      match best.starts, best.items with
      | some (start1, start2), some (pos1, pos2) =>
        let l1 ← save_match l1 pos1 [start1] best.length next
        let l2 ← save_match l2 pos2 [start2] best.length next
        match fuel with
        | 0 => .fuel
        | fuel + 1 => transLoopW a b fuel l1 l2 (next + 1) w (rounds + 1)
      | _, _ => .ub

/-- sync.c:239-273 `transpose_sync`, with counters and the number of iterations of its while loop. -/
def transpose_syncW (text1 text2 : List Nat) : Res (Synclist2 × Tries × Nat) := do
  let l1 := initialize_synclist [text1.length]
  let l2 := initialize_synclist [text2.length]
  let ((l1, l2), w, rounds) ← transLoopW text1 text2 text1.length l1 l2 0 ⟨0, 0, 0⟩ 0
  return (⟨l1, l2, number_matches l1 (fun _ => 0)⟩, w, rounds)

end Ocr.Sync
