import Verif.Model.Programs

/-!
# Model of the debugging output of vote.c

With options `-O` and `-D`, vote.c:237-239 prints the distances of the voters.
-/

namespace Ocr.Vote
open Text

/-- `printf("%11.1f")` of half of an integer that is not negative (vote.c:239).  A `double` holds these distances, and their
decimal representation has at most one digit after the point. -/
def fmtHalf (d2 : Int) : List Nat :=
  let s := fmtInt (d2 / 2) ++ ascii (if d2 % 2 = 0 then ".0" else ".5")
  List.replicate (11 - s.length) 32 ++ s

/-- vote.c:237-239: what is printed for the voters, in the order of the array. -/
def rankLines (names : List (List Nat)) : List Voter → Res (List Nat)
  | [] => .ok []
  | v :: vs => do
    let filename ← rd names v.argnum
    let rest ← rankLines names vs
    return fmtHalf v.distance2 ++ [32] ++ filename ++ [10] ++ rest

/-- vote.c:224-243 `select_voters`: the texts copied to `input` and what is printed; `names` are the arguments. -/
def select_votersD (U : Unicode) (debug optimize : Bool) (actual_voters : Nat) (names : List (List Nat)) (texts : List (List Ch)) :
    Res (List (List Ch) × List Nat) := do
  let (voter, out) ← (if optimize then do
      let t ← countAll U 0 texts []
      let array ← medianAll texts.length (Store.in_array Seq.key t)
      let voter := texts.zipIdx.map (fun (p : List Ch × Nat) => (⟨p.2, p.1, compute_distance p.2 array⟩ : Voter))
      let voter ← Sort.sort texts.length compare_distances voter
      let out ← (if debug then rankLines names voter else pure [])
      return (voter, out)
    else pure (texts.zipIdx.map (fun (p : List Ch × Nat) => (⟨p.2, p.1, 0⟩ : Voter)), []) : Res (List Voter × List Nat))
  if actual_voters ≤ voter.length then return ((voter.take actual_voters).map Voter.text, out) else .ub

/-- vote.c:317-319: the result of the vote and what is printed. -/
def voteTextsD (U : Unicode) (debug optimize : Bool) (cfg : Config) (names : List (List Nat)) (texts : List (List Ch)) :
    Res (List Ch × List Nat) := do
  let (input, out) ← select_votersD U debug optimize cfg.actual_voters names texts
  let r ← Sync.synchronize (input.map (·.map Ch.value))
  let output ← perform_vote cfg input (rounds input) r.items []
  return (output, out)

end Ocr.Vote

namespace Ocr.Prog
open Text

/-- vote.c:310-322 `main`: what is printed on `stdout` before the output, and the output. -/
def voteDebug (U : Unicode) (signed : Bool) (junk : List Nat) (fs : Fs) (argv : List (List Nat)) : Res (List Nat × Output) := do
  let (_, argv, V) ← Args.initialize_ (some Args.voteOptions) true argv start
  if argv.length < Vote.MIN_VOTERS ∨ argv.length > Vote.MAX_VOTERS then .err "invalid number of voters"
  else do
    let (_, texts) ← forFiles fs (voteFile U junk) argv (Vote.textopt, [])
    let cfg ← Vote.validate_args signed argv.length (V.boolean 1) (V.string 1) (V.string 2)
    let (output, out) ← Vote.voteTextsD U (V.boolean 0) (V.boolean 1) cfg argv texts
    let bytes ← write_text U output none
    return (out, ⟨V.string 0, bytes⟩)

end Ocr.Prog
