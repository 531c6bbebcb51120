import Verif.Model.Wordacc

/-!
# Model of the work done by wordacc

The functions of `Model/Wordacc.lean` with counters.  That the results are the same is part of C91.
-/

namespace Ocr.Wordacc
open Wac Sync

/-- What is counted: the elements of the arrays `path->f` (wordacc.c:182), the iterations of the loop over `k` (wordacc.c:185), the
calls of `compute_f` (wordacc.c:188) and the evaluations of the condition of its while loop (wordacc.c:159). -/
structure Work where
  cells : Nat
  steps : Nat
  calls : Nat
  tests : Nat
  deriving DecidableEq, Repr

/-- wordacc.c:159-163, the loop of `compute_f`, with the number of evaluations of its condition. -/
def extendW (a b : List (Nat × List Nat)) : (fuel : Nat) → (i j : Int) → (tests : Nat) → Res (Int × Nat)
  | fuel, i, j, tests =>
    if i < a.length ∧ j < b.length then do
      let x ← rdI a i
      let y ← rdI b j
      if x.2 = y.2 then
        match fuel with
        | 0 => .fuel
        | fuel + 1 => extendW a b fuel (i + 1) (j + 1) (tests + 1)
      else return (i, tests + 1)
    else return (i, tests + 1)

/-- wordacc.c:152-169 `compute_f`, with the work done. -/
def compute_fW (a b : List (Nat × List Nat)) (prev : Option Path) (p k : Int) (S : State) (w : Work) : Res (State × Work) := do
  let (i0, _) ← initial_f k prev
  let (i, tests) ← extendW a b a.length i0 (i0 + k) w.tests
  let j := i + k
  let min_k := if i = a.length then k + 1 else S.min_k
  let max_k := if j = b.length then k - 1 else S.max_k
  let x := (k + p) / 2
  if 0 ≤ x ∧ x.toNat < S.f.length then
    return (⟨min_k, max_k, S.f.set x.toNat (i % 65536).toNat⟩, ⟨w.cells, w.steps, w.calls + 1, tests⟩)
  else .ub

/-- wordacc.c:183-189: the loop over `k`, with the work done. -/
def pathLoopW (a b : List (Nat × List Nat)) (prev : Option Path) (p : Int) : (cells : Nat) → (k : Int) → State → Work →
    Res (State × Work)
  | 0, _, S, w => .ok (S, w)
  | cells + 1, k, S, w => do
    let (S, w) ← (if k ≥ S.min_k ∧ k ≤ S.max_k then compute_fW a b prev p k S w else pure (S, w))
    pathLoopW a b prev p cells (k + 2) S ⟨w.cells, w.steps + 1, w.calls, w.tests⟩

/-- wordacc.c:177-190, the loop of `compute_pathlist`, with the work done. -/
def pathsLoopW (a b : List (Nat × List Nat)) : (fuel : Nat) → (p : Nat) → (min_k max_k : Int) → List Path → Work →
    Res (List Path × Work)
  | fuel, p, min_k, max_k, paths, w =>
    if min_k ≤ (b.length : Int) - a.length then
      match fuel with
      | 0 => .fuel
      | fuel + 1 => do
        let f := List.replicate (p + 1) 0
        let (S, w) ← pathLoopW a b paths.head? p (p + 1) (-p) ⟨min_k, max_k, f⟩ ⟨w.cells + f.length, w.steps, w.calls, w.tests⟩
        pathsLoopW a b fuel (p + 1) S.min_k S.max_k (⟨p, S.f⟩ :: paths) w
    else .ok (paths, w)

/-- wordacc.c:172-192 `compute_pathlist`, with the work done. -/
def compute_pathlistW (a b : List (Nat × List Nat)) : Res (List Path × Work) :=
  pathsLoopW a b (a.length + b.length + 1) 0 (-a.length) b.length [] ⟨0, 0, 0, 0⟩

/-- wordacc.c:204-205, with the number of assignments to `recognized`. -/
def markLoopW (a : List (Nat × List Nat)) (start : Int) : (f : Nat) → (recognized : Nat → Bool) → (marks : Nat) →
    Res ((Nat → Bool) × Nat)
  | 0, recognized, marks => if (0 : Int) > start then .ub else .ok (recognized, marks)
  | f + 1, recognized, marks =>
    if ((f + 1 : Nat) : Int) > start then do
      let x ← rd a f
      markLoopW a start f (fun i => if i = x.1 then true else recognized i) (marks + 1)
    else .ok (recognized, marks)

/-- wordacc.c:200-207, with the number of assignments to `recognized`. -/
def matchLoopW (a : List (Nat × List Nat)) : (k : Option Int) → List Path → (recognized : Nat → Bool) → (marks : Nat) →
    Res ((Nat → Bool) × Nat)
  | _, [], recognized, marks => .ok (recognized, marks)
  | none, _ :: _, _, _ => .ub
  | some k, path :: paths, recognized, marks => do
    let f ← rdI path.f ((k + path.p) / 2)
    let (start, prev_k) ← initial_f k paths.head?
    let (recognized, marks) ← markLoopW a start f recognized marks
    matchLoopW a prev_k paths recognized marks

/-- wordacc.c:195-208 `obtain_matches`, with the number of assignments to `recognized`. -/
def obtain_matchesW (a b : List (Nat × List Nat)) (paths : List Path) : Res ((Nat → Bool) × Nat) :=
  matchLoopW a (some ((b.length : Int) - a.length)) paths (fun _ => false) 0

/-- wordacc.c:275-277 (`setup` to `obtain_matches`): the flags, with the number of paths, the work done by `compute_pathlist` and the
number of assignments to `recognized`. -/
def recognizeW (words0 words1 : List (List Nat)) : Res (List Bool × Nat × Work × Nat) := do
  let (a, b) ← setup words0 words1
  let (paths, w) ← compute_pathlistW a b
  let (recognized, marks) ← obtain_matchesW a b paths
  return ((List.range words0.length).map recognized, paths.length, w, marks)

end Ocr.Wordacc
