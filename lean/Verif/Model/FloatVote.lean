import Verif.Model.Float
import Verif.Model.VoteDebug

/-!
# Model of the selection of voters by vote.c in floating point arithmetic

A median is a `float` (vote.c:68), a distance a `double` (vote.c:55).  Before `compute_median` every median is 0 or 1 (vote.c:141), so
the table of `countAll` is that of the exact model.
-/

namespace Ocr.Vote
open Text

/-- vote.c:66-69 `Sequence` after `compute_median`. -/
structure SeqF where
  count  : Nat → Int
  median : ℚ

/-- vote.c:50-57 `Voter`. -/
structure VoterF where
  argnum   : Nat
  text     : List Ch
  distance : ℚ

/-- vote.c:181-196 `compute_median`.  Both alternatives of vote.c:195 are converted to `double`, then to `float`. -/
def compute_medianF (num_voters : Nat) (s : Seq) : Res SeqF := do
  if s.median2 = 0 then return ⟨s.count, 0⟩
  else
    let count ← Sort.sort num_voters compare_counts ((List.range num_voters).map s.count)
    if num_voters % 2 = 1 then
      let c ← rd count (num_voters / 2)
      return ⟨s.count, Fp.rnd 24 (Fp.ofLong c)⟩
    else
      let c1 ← Sync.rdI count ((num_voters / 2 : Nat) - 1)
      let c2 ← rd count (num_voters / 2)
      return ⟨s.count, Fp.rnd 24 (Fp.rnd 53 (Fp.ofLong (c1 + c2) / 2))⟩

/-- vote.c:233-234: `compute_median` for every sequence. -/
def medianAllF (num_voters : Nat) : List Seq → Res (List SeqF)
  | [] => .ok []
  | s :: ss => do
    let s ← compute_medianF num_voters s
    let ss ← medianAllF num_voters ss
    return s :: ss

/-- vote.c:206-209: the difference; the `long` is converted to `float` and the subtraction is one of `float`s. -/
def differenceF (index : Nat) (s : SeqF) : ℚ :=
  let difference := Fp.rnd 24 (Fp.rnd 24 (Fp.toLong (s.count index)) - s.median)
  if difference < 0 then -difference else difference

/-- vote.c:199-212 `compute_distance`. -/
def compute_distanceF (index : Nat) (array : List SeqF) : ℚ :=
  array.foldl (fun d s => Fp.rnd 53 (d + differenceF index s)) 0

/-- vote.c:215-221 `compare_distances`. -/
def compare_distancesF (v1 v2 : VoterF) : Int :=
  if v1.distance ≠ v2.distance then (if v1.distance < v2.distance then -1 else 1)
  else (v1.argnum : Int) - v2.argnum

/-- vote.c:237-239: what is printed for the voters, in the order of the array. -/
def rankLinesF (names : List (List Nat)) : List VoterF → Res (List Nat)
  | [] => .ok []
  | v :: vs => do
    let filename ← rd names v.argnum
    let rest ← rankLinesF names vs
    return Fp.fmtFixed 11 1 v.distance ++ [32] ++ filename ++ [10] ++ rest

/-- vote.c:224-243 `select_voters`: the texts copied to `input` and what is printed; `names` are the arguments. -/
def select_votersF (U : Unicode) (debug optimize : Bool) (actual_voters : Nat) (names : List (List Nat)) (texts : List (List Ch)) :
    Res (List (List Ch) × List Nat) := do
  let (voter, out) ← (if optimize then do
      let t ← countAll U 0 texts []
      let array ← medianAllF texts.length (Store.in_array Seq.key t)
      let voter := texts.zipIdx.map (fun (p : List Ch × Nat) => (⟨p.2, p.1, compute_distanceF p.2 array⟩ : VoterF))
      let voter ← Sort.sort texts.length compare_distancesF voter
      let out ← (if debug then rankLinesF names voter else pure [])
      return (voter, out)
    else pure (texts.zipIdx.map (fun (p : List Ch × Nat) => (⟨p.2, p.1, 0⟩ : VoterF)), []) : Res (List VoterF × List Nat))
  if actual_voters ≤ voter.length then return ((voter.take actual_voters).map VoterF.text, out) else .ub

/-- vote.c:317-319: the result of the vote and what is printed. -/
def voteTextsF (U : Unicode) (debug optimize : Bool) (cfg : Config) (names : List (List Nat)) (texts : List (List Ch)) :
    Res (List Ch × List Nat) := do
  let (input, out) ← select_votersF U debug optimize cfg.actual_voters names texts
  let r ← Sync.synchronize (input.map (·.map Ch.value))
  let output ← perform_vote cfg input (rounds input) r.items []
  return (output, out)

end Ocr.Vote

namespace Ocr.Prog
open Text

/-- vote.c:310-322 `main`: what is printed on `stdout` before the output, and the output. -/
def voteProgramF (U : Unicode) (signed : Bool) (junk : List Nat) (fs : Fs) (argv : List (List Nat)) : Res (List Nat × Output) := do
  let (_, argv, V) ← Args.initialize_ (some Args.voteOptions) true argv start
  if argv.length < Vote.MIN_VOTERS ∨ argv.length > Vote.MAX_VOTERS then .err "invalid number of voters"
  else do
    let (_, texts) ← forFiles fs (voteFile U junk) argv (Vote.textopt, [])
    let cfg ← Vote.validate_args signed argv.length (V.boolean 1) (V.string 1) (V.string 2)
    let (output, out) ← Vote.voteTextsF U (V.boolean 0) (V.boolean 1) cfg argv texts
    let bytes ← write_text U output none
    return (out, ⟨V.string 0, bytes⟩)

end Ocr.Prog
