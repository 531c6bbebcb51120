import Verif.Model.Text

/-!
# Model of sync.c

Synchronization lists are Lean lists (list.c refines sequences, see C01); an item is addressed by its position.  A
match pointer `long *match` is the number of the `NEW(long)` cell it points to.
-/

namespace Ocr.Sync
open Text

/-- sync.h:38-46 `Substr`. -/
structure Substr where
  start  : Int
  stop   : Int
  length : Int
  deriving DecidableEq, Repr

/-- sync.h:48-54 `Sync`. -/
structure Sync where
  substr : List Substr
  mtch   : Option Nat
  deriving DecidableEq, Repr

/-- sync.c:29 -/
def MIN_STREAMS : Nat := 2
/-- sync.c:30 -/
def MAX_STREAMS : Nat := 16

/-- Checked array read with a signed index (as in sync.c:144-177). -/
def rdI {α : Type} (xs : List α) (i : Int) : Res α := if i < 0 then .ub else rd xs i.toNat

/-- sync.c:79-88 `valid_sync`. -/
def valid_sync (sync : Sync) : Bool := sync.substr.any (fun s => s.length > 0)

/-- sync.c:91-111 `initialize_synclist`, for texts with the given numbers of characters. -/
def initialize_synclist (counts : List Nat) : List Sync :=
  let sync : Sync := ⟨counts.map (fun (c : Nat) => (⟨0, (c : Int) - 1, (c : Int)⟩ : Substr)), none⟩
  if valid_sync sync then [sync] else []

/-- sync.c:144-177 `save_match` for the item at position `pos`. -/
def save_match (l : List Sync) (pos : Nat) (start : List Int) (length : Int) (mtch : Nat) : Res (List Sync) :=
  match l[pos]? with
  | none => .ub
  | some sync =>
    if start.length ≠ sync.substr.length then .ub else
    let left  : Sync := ⟨List.zipWith (fun (s : Substr) st => ⟨s.start, st - 1, st - s.start⟩) sync.substr start, none⟩
    let right : Sync := ⟨List.zipWith (fun (s : Substr) st =>
      let stop := st + length - 1
      ⟨stop + 1, s.stop, s.stop - stop⟩) sync.substr start, none⟩
    let mid   : Sync := ⟨start.map (fun st => ⟨st, st + length - 1, length⟩), some mtch⟩
    .ok (l.take pos ++ (if valid_sync left then [left] else []) ++ [mid] ++
      (if valid_sync right then [right] else []) ++ l.drop (pos + 1))

/-- sync.c:180-188 `number_matches`: the contents of the match cells afterwards. -/
def number_matches (l : List Sync) (cells : Nat → Int) : Nat → Int :=
  let rec go : List Sync → Int → (Nat → Int) → (Nat → Int)
    | [], _, cells => cells
    | s :: l, k, cells =>
      match s.mtch with
      | some q => go l (k + 1) (fun r => if r = q then k + 1 else cells r)
      | none => go l k cells
  go l 0 cells

/-! ## fastukk_sync -/

/-- sync.c:46-49 `Path`. -/
structure Path where
  p       : Int
  start_k : Int
  stop_k  : Int
  f       : List Int
  deriving DecidableEq, Repr

/-- sync.c:287-297: the loop of `initial_f`; `count` is the number of iterations left. -/
def initialLoop (k : Int) (prev : Path) : (count : Nat) → (i result : Int) → (prev_k : Option Int) →
    Res (Int × Option Int)
  | 0, _, result, prev_k => .ok (result, prev_k)
  | count + 1, i, result, prev_k => do
    let v ← rdI prev.f (i - prev.start_k)
    let value := if i ≥ k then v + 1 else v
    if value ≥ result then initialLoop k prev count (i + 1) value (some i)
    else initialLoop k prev count (i + 1) result prev_k

/-- sync.c:276-300 `initial_f`: the result and the value stored in `*prev_k` (`none`: left untouched). -/
def initial_f (k : Int) (prev_path : Option Path) : Res (Int × Option Int) :=
  match prev_path with
  | none => .ok (0, none)
  | some prev =>
    let start := max (k - 1) prev.start_k
    let stop  := min (k + 1) prev.stop_k
    if start > stop then .err "internal synchronization error"
    else initialLoop k prev (stop - start + 1).toNat start 0 none

/-- sync.c:311-316: the while loop of `compute_f`. -/
def extendLoop (a b : List Nat) : (fuel : Nat) → (i j : Int) → Res Int
  | fuel, i, j =>
    if i < a.length ∧ j < b.length then do
      let x ← rdI a i
      let y ← rdI b j
      if x = y ∧ x ≠ REJECT_CHARACTER then
        match fuel with
        | 0 => .fuel
        | fuel + 1 => extendLoop a b fuel (i + 1) (j + 1)
      else .ok i
    else .ok i

/-- The variables changed by `compute_f`: `min_k`, `max_k` (sync.c:57), the path's `start_k`, `stop_k`, and
`diaglist`. -/
structure FState where
  min_k   : Int
  max_k   : Int
  start_k : Int
  stop_k  : Int
  diags   : List Int
  deriving DecidableEq, Repr

/-- sync.c:303-346 `compute_f`.  `>> 1` of a negative number rounds down (arithmetic shift). -/
def compute_f (a b : List Nat) (p : Int) (prev : Option Path) (k : Int) (s : FState) : Res FState := do
  let (i0, _) ← initial_f k prev
  let i ← extendLoop a b a.length i0 (i0 + k)
  let j := i + k
  let m : Int := a.length
  let n : Int := b.length
  let n_m := n - m
  let min_k := if i = m then k + 1 else s.min_k
  let max_k := if j = n then k - 1 else s.max_k
  let bound := p + max m (n - k) - i
  let value := (1 - bound + n_m) / 2
  let min_k := if value > min_k then value else min_k
  let value := (bound + n_m) / 2
  let max_k := if value < max_k then value else max_k
  if s.diags = [] then
    return ⟨min_k, max_k, k, k, [i]⟩
  else if k < s.start_k then
    return ⟨min_k, max_k, k, s.stop_k, i :: s.diags⟩
  else
    return ⟨min_k, max_k, s.start_k, k, s.diags ++ [i]⟩

/-- sync.c:372-373 and 381-382: `for (...; k >= max(min_k, -p); k--) compute_f(k, path)`. -/
def downLoop (a b : List Nat) (p : Int) (prev : Option Path) : (fuel : Nat) → (k : Int) → FState → Res FState
  | fuel, k, s =>
    if k ≥ max s.min_k (-p) then
      match fuel with
      | 0 => .fuel
      | fuel + 1 => do
        let s ← compute_f a b p prev k s
        downLoop a b p prev fuel (k - 1) s
    else .ok s

/-- sync.c:374-375 and 379-380: `for (...; k <= min(max_k, p); k++) compute_f(k, path)`. -/
def upLoop (a b : List Nat) (p : Int) (prev : Option Path) : (fuel : Nat) → (k : Int) → FState → Res FState
  | fuel, k, s =>
    if k ≤ min s.max_k p then
      match fuel with
      | 0 => .fuel
      | fuel + 1 => do
        let s ← compute_f a b p prev k s
        upLoop a b p prev fuel (k + 1) s
    else .ok s

/-- sync.c:370-383: one level. -/
def computeLevel (a b : List Nat) (p : Nat) (prev : Option Path) (min_k max_k : Int) : Res FState := do
  let n_m : Int := b.length - a.length
  let fuel := 2 * p + 1
  let s : FState := ⟨min_k, max_k, 0, 0, []⟩
  if a.length ≤ b.length then
    let s ← downLoop a b p prev fuel (min n_m p) s
    upLoop a b p prev fuel (n_m + 1) s
  else
    let s ← upLoop a b p prev fuel (max n_m (-p)) s
    downLoop a b p prev fuel (n_m - 1) s

/-- sync.c:365-403: the while loop of `compute_pathlist`.  `paths` is `pathlist`, last item first. -/
def pathLoop (a b : List Nat) : (fuel : Nat) → (p : Nat) → (min_k max_k : Int) → (paths : List Path) →
    Res (List Path)
  | fuel, p, min_k, max_k, paths =>
    if min_k ≤ (b.length : Int) - a.length then
      match fuel with
      | 0 => .fuel
      | fuel + 1 => do
        let s ← computeLevel a b p paths.head? min_k max_k
        pathLoop a b fuel (p + 1) s.min_k s.max_k (⟨p, s.start_k, s.stop_k, s.diags⟩ :: paths)
    else .ok paths

/-- sync.c:349-409 `compute_pathlist` for the values of the two texts. -/
def compute_pathlist (a b : List Nat) : Res (List Path) :=
  pathLoop a b (a.length + b.length + 1) 0 (-a.length) b.length []

/-- sync.c:412-434 `obtain_matches`.  `next` is the number of the next cell returned by `NEW(long)`. -/
def obtain_matches : (paths : List Path) → (k : Option Int) → (next : Nat) → List Sync → Res (List Sync)
  | [], _, _, l => .ok l
  | _ :: _, none, _, _ => .ub
  | path :: rest, some k, next, l => do
    let f ← rdI path.f (k - path.start_k)
    let (start0, prev_k) ← initial_f k rest.head?
    if f > start0 then
      let l ← save_match l 0 [start0, start0 + k] (f - start0) next
      obtain_matches rest prev_k (next + 1) l
    else
      obtain_matches rest prev_k next l

/-- The result of a synchronization: the list and the contents of the match cells (sync.h:50-59). -/
structure Synclist where
  items : List Sync
  cells : Nat → Int

/-- sync.c:437-447 `fastukk_sync`.  (The length check against 2^63-1 is not modelled.) -/
def fastukk_sync (text0 text1 : List Ch) : Res Synclist := do
  let l := initialize_synclist [text0.length, text1.length]
  let a := text0.map Ch.value
  let b := text1.map Ch.value
  let paths ← compute_pathlist a b
  let l ← obtain_matches paths (some ((b.length : Int) - a.length)) 0 l
  return ⟨l, number_matches l (fun _ => 0)⟩

/-! ## synchronize -/

/-- sync.c:127-129: the loop extending a match; returns `i1`. -/
def matchRun (c1 c2 : List Nat) (stop1 stop2 : Int) : (fuel : Nat) → (i1 i2 : Int) → Res Int
  | fuel, i1, i2 =>
    if i1 ≤ stop1 ∧ i2 ≤ stop2 then do
      let x ← rdI c1 i1
      let y ← rdI c2 i2
      if x = y ∧ x ≠ REJECT_CHARACTER then
        match fuel with
        | 0 => .fuel
        | fuel + 1 => matchRun c1 c2 stop1 stop2 fuel (i1 + 1) (i2 + 1)
      else .ok i1
    else .ok i1

/-- The variables of `longest_match` (sync.c:114-141): `s1limit`, `s2limit`, `maxlen`, and `*mstart1`, `*mstart2` (`none`: not yet
set). -/
structure LM where
  s1limit : Int
  s2limit : Int
  maxlen  : Int
  mstart  : Option (Int × Int)
  deriving DecidableEq, Repr

/-- sync.c:124-139: the body of the two loops of `longest_match`. -/
def longestStep (c1 c2 : List Nat) (stop1 stop2 s1 s2 : Int) (st : LM) : Res LM := do
  let x ← rdI c1 s1
  let y ← rdI c2 s2
  if x = y ∧ x ≠ REJECT_CHARACTER then
    let i1 ← matchRun c1 c2 stop1 stop2 c1.length (s1 + 1) (s2 + 1)
    let increase := i1 - s1 - st.maxlen
    if increase > 0 then
      return ⟨st.s1limit - increase, st.s2limit - increase, st.maxlen + increase, some (s1, s2)⟩
    else return st
  else return st

/-- sync.c:123: `for (s2 = start2; s2 <= s2limit; s2++)`. -/
def longestInner (c1 c2 : List Nat) (stop1 stop2 s1 : Int) : (fuel : Nat) → (s2 : Int) → LM → Res LM
  | fuel, s2, st =>
    if s2 ≤ st.s2limit then
      match fuel with
      | 0 => .fuel
      | fuel + 1 => do
        let st ← longestStep c1 c2 stop1 stop2 s1 s2 st
        longestInner c1 c2 stop1 stop2 s1 fuel (s2 + 1) st
    else .ok st

/-- sync.c:122: `for (s1 = start1; s1 <= s1limit; s1++)`. -/
def longestOuter (c1 c2 : List Nat) (stop1 start2 stop2 : Int) : (fuel : Nat) → (s1 : Int) → LM → Res LM
  | fuel, s1, st =>
    if s1 ≤ st.s1limit then
      match fuel with
      | 0 => .fuel
      | fuel + 1 => do
        let st ← longestInner c1 c2 stop1 stop2 s1 c2.length start2 st
        longestOuter c1 c2 stop1 start2 stop2 fuel (s1 + 1) st
    else .ok st

/-- sync.c:114-141 `longest_match`; `mstart` holds the values of `*mstart1` and `*mstart2` before the call. -/
def longest_match (maxlen : Int) (c1 : List Nat) (start1 stop1 : Int) (c2 : List Nat) (start2 stop2 : Int)
    (mstart : Option (Int × Int)) : Res (Int × Option (Int × Int)) := do
  let st ← longestOuter c1 c2 stop1 start2 stop2 c1.length start1 ⟨stop1 - maxlen, stop2 - maxlen, maxlen, mstart⟩
  return (st.maxlen, st.mstart)

/-- sync.c:204-216: the loop of `recursive_sync` over the texts 1, 2, ...; `none` when it returns early. -/
def matchTexts (text0 : List Nat) : List (List Nat × Substr) → (start : List Int) → (length : Int) →
    Res (Option (List Int × Int))
  | [], start, length => .ok (some (start, length))
  | (text, sub) :: more, start, length => do
    let start0 ← rdI start 0
    let (length, m) ← longest_match 0 text0 start0 (start0 + length - 1) text sub.start sub.stop none
    if length = 0 then return none
    else
      match m with
      | none => .ub
      | some (new_start, start_i) =>
        let change := new_start - start0
        let start := if change > 0 then start.map (· + change) else start
        matchTexts text0 more (start ++ [start_i]) length

/-- sync.c:191-222 `recursive_sync` for the item at position `pos`.  The C function holds a pointer to the item; here
the item is found again by its match cell, which is fresh.  `next` is the number of the next cell. -/
def recursive_sync (texts : List (List Nat)) : (fuel : Nat) → (pos : Nat) → (l : List Sync) → (next : Nat) →
    Res (List Sync × Nat)
  | 0, _, _, _ => .fuel
  | fuel + 1, pos, l, next =>
    match l[pos]?, texts with
    | some sync, text0 :: more =>
      if sync.substr.any (fun s => s.length = 0) then .ok (l, next)
      else
        match sync.substr with
        | [] => .ub
        | sub0 :: subs => do
          let r ← matchTexts text0 (more.zip subs) [sub0.start] sub0.length
          match r with
          | none => return (l, next)
          | some (start, length) => do
            let l ← save_match l pos start length next
            let at_ := l.findIdx (fun s => s.mtch = some next)
            let (l, next') ← (if at_ > 0 then recursive_sync texts fuel (at_ - 1) l (next + 1) else pure (l, next + 1))
            let at_ := l.findIdx (fun s => s.mtch = some next)
            if at_ + 1 < l.length then recursive_sync texts fuel (at_ + 1) l next' else return (l, next')
    | _, _ => .ub

/-- sync.c:225-236 `synchronize`, for the values of the texts. -/
def synchronize (texts : List (List Nat)) : Res Synclist := do
  if texts.length < MIN_STREAMS ∨ texts.length > MAX_STREAMS then .err "invalid number of text streams"
  else
    let l := initialize_synclist (texts.map List.length)
    let (l, _) ← (if l ≠ [] then recursive_sync texts ((texts.headD []).length + 1) 0 l 0 else pure (l, 0))
    return ⟨l, number_matches l (fun _ => 0)⟩

/-! ## transpose_sync -/

/-- The variables of the search in `transpose_sync` (sync.c:239-273): `length`, `start1`/`start2`, and the positions of `sync1` and
`sync2`. -/
structure TBest where
  length : Int
  starts : Option (Int × Int)
  items  : Option (Nat × Nat)
  deriving DecidableEq, Repr

/-- The (single) substring of an item (sync.h:48-54). -/
def Sync.only (s : Sync) : Res Substr := rd s.substr 0

/-- sync.c:252-264: the loop over `synclist2`. -/
def transInner (a b : List Nat) (sub1 : Substr) (pos1 : Nat) : List Sync → (pos2 : Nat) → TBest → Res TBest
  | [], _, best => .ok best
  | s2 :: l2, pos2, best => do
    let sub2 ← s2.only
    if s2.mtch = none ∧ sub2.length > best.length then
      let (newlength, starts) ← longest_match best.length a sub1.start sub1.stop b sub2.start sub2.stop best.starts
      if newlength > best.length then transInner a b sub1 pos1 l2 (pos2 + 1) ⟨newlength, starts, some (pos1, pos2)⟩
      else transInner a b sub1 pos1 l2 (pos2 + 1) ⟨best.length, starts, best.items⟩
    else transInner a b sub1 pos1 l2 (pos2 + 1) best

/-- sync.c:250-251: the loop over `synclist1`. -/
def transOuter (a b : List Nat) (l2 : List Sync) : List Sync → (pos1 : Nat) → TBest → Res TBest
  | [], _, best => .ok best
  | s1 :: l1, pos1, best => do
    let sub1 ← s1.only
    if s1.mtch = none ∧ sub1.length > best.length then
      let best ← transInner a b sub1 pos1 l2 0 best
      transOuter a b l2 l1 (pos1 + 1) best
    else transOuter a b l2 l1 (pos1 + 1) best

/-- sync.c:247-271: the while loop. -/
def transLoop (a b : List Nat) : (fuel : Nat) → (l1 l2 : List Sync) → (next : Nat) → Res (List Sync × List Sync)
  | fuel, l1, l2, next => do
    let best ← transOuter a b l2 l1 0 ⟨0, none, none⟩
    if best.length = 0 then return (l1, l2)
    else
      match best.starts, best.items with
      | some (start1, start2), some (pos1, pos2) =>
        let l1 ← save_match l1 pos1 [start1] best.length next
        let l2 ← save_match l2 pos2 [start2] best.length next
        match fuel with
        | 0 => .fuel
        | fuel + 1 => transLoop a b fuel l1 l2 (next + 1)
      | _, _ => .ub

/-- The result of `transpose_sync`: the two lists and the match cells, which they share (sync.h:50-59). -/
structure Synclist2 where
  items1 : List Sync
  items2 : List Sync
  cells  : Nat → Int

/-- sync.c:239-273 `transpose_sync`. -/
def transpose_sync (text1 text2 : List Nat) : Res Synclist2 := do
  let l1 := initialize_synclist [text1.length]
  let l2 := initialize_synclist [text2.length]
  let (l1, l2) ← transLoop text1 text2 text1.length l1 l2 0
  return ⟨l1, l2, number_matches l1 (fun _ => 0)⟩

end Ocr.Sync
