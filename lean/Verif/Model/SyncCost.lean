import Verif.Model.Sync

/-!
# Model of the work done by fastukk_sync (sync.c)

The functions of `Model/Sync.lean` with counters.  That the results are the same is part of C86.
-/

namespace Ocr.Sync
open Text

/-- What is counted: calls of `compute_f` (sync.c:303; each allocates one `Diag` and fills one cell of `path->f`), evaluations of
the condition of its while loop (sync.c:311-312), and iterations of the loop of `initial_f` (sync.c:287) called by it. -/
structure Work where
  calls : Nat
  tests : Nat
  looks : Nat
  deriving DecidableEq, Repr

/-- Adding the counters (for sync.c:349-409, no counterpart in the C code). -/
def Work.add (v w : Work) : Work := ⟨v.calls + w.calls, v.tests + w.tests, v.looks + w.looks⟩

/-- Nothing done (for sync.c:349-409, no counterpart in the C code). -/
def Work.none : Work := ⟨0, 0, 0⟩

/-- sync.c:287-297: the loop of `initial_f`, with the number of iterations. -/
def initialLoopW (k : Int) (prev : Path) : (count : Nat) → (i result : Int) → (prev_k : Option Int) → (looks : Nat) →
    Res ((Int × Option Int) × Nat)
  | 0, _, result, prev_k, looks => .ok ((result, prev_k), looks)
  | count + 1, i, result, prev_k, looks => do
    let v ← rdI prev.f (i - prev.start_k)
    let value := if i ≥ k then v + 1 else v
    if value ≥ result then initialLoopW k prev count (i + 1) value (some i) (looks + 1)
    else initialLoopW k prev count (i + 1) result prev_k (looks + 1)

/-- sync.c:276-300 `initial_f`, with the number of iterations of its loop. -/
def initial_fW (k : Int) (prev_path : Option Path) : Res ((Int × Option Int) × Nat) :=
  match prev_path with
  | none => .ok ((0, none), 0)
  | some prev =>
    let start := max (k - 1) prev.start_k
    let stop  := min (k + 1) prev.stop_k
    if start > stop then .err "internal synchronization error"
    else initialLoopW k prev (stop - start + 1).toNat start 0 none 0

/-- sync.c:311-316: the while loop of `compute_f`, with the number of evaluations of its condition. -/
def extendLoopW (a b : List Nat) : (fuel : Nat) → (i j : Int) → (tests : Nat) → Res (Int × Nat)
  | fuel, i, j, tests =>
    if i < a.length ∧ j < b.length then do
      let x ← rdI a i
      let y ← rdI b j
      if x = y ∧ x ≠ REJECT_CHARACTER then
        match fuel with
        | 0 => .fuel
        | fuel + 1 => extendLoopW a b fuel (i + 1) (j + 1) (tests + 1)
      else .ok (i, tests + 1)
    else .ok (i, tests + 1)

/-- sync.c:303-346 `compute_f`, with the work done. -/
def compute_fW (a b : List Nat) (p : Int) (prev : Option Path) (k : Int) (s : FState) : Res (FState × Work) := do
  let ((i0, _), looks) ← initial_fW k prev
  let (i, tests) ← extendLoopW a b a.length i0 (i0 + k) 0
  let j := i + k
  let m : Int := a.length
  let n : Int := b.length
  let n_m := n - m
  let min_k := if i = m then k + 1 else s.min_k
  let max_k := if j = n then k - 1 else s.max_k
  let bound := p + max m (n - k) - i
  let value := (1 - bound + n_m) / 2
  let min_k := if value > min_k then value else min_k
  let value := (bound + n_m) / 2
  let max_k := if value < max_k then value else max_k
  if s.diags = [] then
    return (⟨min_k, max_k, k, k, [i]⟩, ⟨1, tests, looks⟩)
  else if k < s.start_k then
    return (⟨min_k, max_k, k, s.stop_k, i :: s.diags⟩, ⟨1, tests, looks⟩)
  else
    return (⟨min_k, max_k, s.start_k, k, s.diags ++ [i]⟩, ⟨1, tests, looks⟩)

/-- sync.c:372-373 and 381-382, with the work done. -/
def downLoopW (a b : List Nat) (p : Int) (prev : Option Path) : (fuel : Nat) → (k : Int) → FState → Work → Res (FState × Work)
  | fuel, k, s, w =>
    if k ≥ max s.min_k (-p) then
      match fuel with
      | 0 => .fuel
      | fuel + 1 => do
        let (s, v) ← compute_fW a b p prev k s
        downLoopW a b p prev fuel (k - 1) s (w.add v)
    else .ok (s, w)

/-- sync.c:374-375 and 379-380, with the work done. -/
def upLoopW (a b : List Nat) (p : Int) (prev : Option Path) : (fuel : Nat) → (k : Int) → FState → Work → Res (FState × Work)
  | fuel, k, s, w =>
    if k ≤ min s.max_k p then
      match fuel with
      | 0 => .fuel
      | fuel + 1 => do
        let (s, v) ← compute_fW a b p prev k s
        upLoopW a b p prev fuel (k + 1) s (w.add v)
    else .ok (s, w)

/-- sync.c:370-383: one level, with the work done. -/
def computeLevelW (a b : List Nat) (p : Nat) (prev : Option Path) (min_k max_k : Int) (w : Work) : Res (FState × Work) := do
  let n_m : Int := b.length - a.length
  let fuel := 2 * p + 1
  let s : FState := ⟨min_k, max_k, 0, 0, []⟩
  if a.length ≤ b.length then
    let (s, w) ← downLoopW a b p prev fuel (min n_m p) s w
    upLoopW a b p prev fuel (n_m + 1) s w
  else
    let (s, w) ← upLoopW a b p prev fuel (max n_m (-p)) s w
    downLoopW a b p prev fuel (n_m - 1) s w

/-- sync.c:384-391, in the code compiled with `SHOW_FASTUKK_REDUCTION`: what is added to `ukkonen_count` at level `p`, for
texts of `m` and `n` characters. -/
def ukkonenCount (m n p : Int) : Int :=
  let r := p - min m n
  let count1 := min (-1) (-r) - max (-m) (-p) + 1
  let count2 := min n p - max 0 r + 1
  (if count1 > 0 then count1 else 0) + (if count2 > 0 then count2 else 0)

/-- sync.c:365-403: the while loop of `compute_pathlist`, with the work done and `ukkonen_count`. -/
def pathLoopW (a b : List Nat) : (fuel : Nat) → (p : Nat) → (min_k max_k : Int) → (paths : List Path) → Work →
    (ukkonen_count : Int) → Res (List Path × Work × Int)
  | fuel, p, min_k, max_k, paths, w, ukk =>
    if min_k ≤ (b.length : Int) - a.length then
      match fuel with
      | 0 => .fuel
      | fuel + 1 => do
        let (s, w) ← computeLevelW a b p paths.head? min_k max_k w
        pathLoopW a b fuel (p + 1) s.min_k s.max_k (⟨p, s.start_k, s.stop_k, s.diags⟩ :: paths) w
          (ukk + ukkonenCount a.length b.length p)
    else .ok (paths, w, ukk)

/-- sync.c:349-409 `compute_pathlist`, with the work done and `ukkonen_count`; `fastukk_count` is the number of calls. -/
def compute_pathlistW (a b : List Nat) : Res (List Path × Work × Int) :=
  pathLoopW a b (a.length + b.length + 1) 0 (-a.length) b.length [] Work.none 0

end Ocr.Sync
