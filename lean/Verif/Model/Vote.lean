import Verif.Model.Sync
import Verif.Model.Sort
import Verif.Model.Store
import Verif.Model.Util

/-!
# Model of vote.c

A `Char *` is the character it points to; `NULL` is `none`.  The medians and distances of the `-O` option are multiples
of one half: the model holds twice their value as an integer (the C code uses `float` and `double`; `Model/FloatVote.lean` models
this, and C80 shows that it is the same for texts of fewer than 2^23 characters).
-/

namespace Ocr.Vote
open Text Sync

/-- vote.c:46 -/
def MIN_VOTERS : Nat := 2
/-- vote.c:47 -/
def MAX_VOTERS : Nat := 16
/-- vote.c:60 -/
def N : Nat := 2

/-- The value of a `char` holding byte `b`; whether `char` is signed is implementation-defined (vote.c:85-98). -/
def charVal (signed : Bool) (b : Nat) : Int := if signed ∧ b ≥ 128 then (b : Int) - 256 else b

/-- vote.c:85-98 `valid_fraction`: `*m` and `*n` if it returns True. -/
def valid_fraction (signed : Bool) (fraction : List Nat) : Res (Option (Int × Int)) := do
  let f0 ← byteAt fraction 0
  if charVal signed f0 ≥ 49 then
    let f1 ← byteAt fraction 1
    if charVal signed f1 = 47 then
      let f2 ← byteAt fraction 2
      if charVal signed f2 ≤ 57 then
        if charVal signed f0 ≤ charVal signed f2 then
          let f3 ← byteAt fraction 3
          if f3 = 0 then return some (charVal signed f0 - 48, charVal signed f2 - 48)
          else return none
        else return none
      else return none
    else return none
  else return none

/-- The numbers set by `validate_args` (vote.c:101-127). -/
structure Config where
  actual_voters     : Nat
  suspect_threshold : Int
  suspect_weight    : Int
  unmarked_weight   : Int
  deriving DecidableEq, Repr

/-- vote.c:118-120: `suspect_weight` and `unmarked_weight`. -/
def weightOption (signed : Bool) : (wfraction : Option (List Nat)) → Res (Int × Int)
  | none => .ok (1, 1)
  | some f => do
    match ← valid_fraction signed f with
    | some (m, n) => return (m, n)
    | none => .err "invalid weight"

/-- vote.c:121-126: `suspect_threshold`.  `short` arithmetic: the product is at most 16 * 9 * 9. -/
def thresholdOption (signed : Bool) (actual_voters : Nat) (unmarked_weight : Int) : (sfraction : Option (List Nat)) → Res Int
  | none => .ok 0
  | some f => do
    match ← valid_fraction signed f with
    | some (m, n) => return (actual_voters * unmarked_weight * m).tdiv n
    | none => .err "invalid threshold"

/-- vote.c:101-127 `validate_args` for `argc` files (reading them is modelled in `voteMain`). -/
def validate_args (signed : Bool) (argc : Nat) (optimize : Bool) (sfraction wfraction : Option (List Nat)) : Res Config := do
  if argc < MIN_VOTERS ∨ argc > MAX_VOTERS then .err "invalid number of voters"
  else
    let actual := if ¬ optimize ∨ argc < 3 then argc else 3
    let (sw, uw) ← weightOption signed wfraction
    let threshold ← thresholdOption signed actual uw sfraction
    return ⟨actual, threshold, sw, uw⟩

/-! ## Selecting the voters -/

/-- vote.c:66-69 `Sequence`; `count[MAX_VOTERS]` is a function of the index, `median2` is twice the median. -/
structure Seq where
  key     : List Nat
  count   : Nat → Int
  median2 : Int

/-- vote.c:155-168: the key of the sequence of the given characters, in `key[N * STRING_SIZE]`. -/
def keyLoop (U : Unicode) (size : Nat) : (key : List Nat) → List Nat → Res (List Nat)
  | key, [] => .ok key
  | key, v :: vs => do
    let string ← char_to_string U STRING_SIZE false v false
    let key := key ++ cstr string
    if key.length + 1 ≤ size then keyLoop U size key vs else .ub

/-- vote.c:130-146 `add_sequence`. -/
def add_sequence (key : List Nat) (reject : Bool) (index : Nat) (t : List Seq) : Res (List Seq) :=
  if index < MAX_VOTERS then
    .ok (Store.add Seq.key key (fun s => { s with count := fun i => if i = index then s.count i + 1 else s.count i })
      ⟨key, fun i => if i = index then 1 else 0, if reject then 0 else 2⟩ t)
  else .ub

/-- vote.c:149-171 `count_sequences`.  (For the last character the key is begun and given up.) -/
def count_sequences (U : Unicode) (index : Nat) : (text : List Ch) → List Seq → Res (List Seq)
  | c1 :: c2 :: rest, t => do
    let key ← keyLoop U (N * STRING_SIZE) [] [c1.value, c2.value]
    let reject := decide (c1.value = REJECT_CHARACTER ∨ c2.value = REJECT_CHARACTER)
    let t ← add_sequence key reject index t
    count_sequences U index (c2 :: rest) t
  | [c], t => do
    let _ ← keyLoop U (N * STRING_SIZE) [] [c.value]
    return t
  | [], t => .ok t

/-- vote.c:174-178 `compare_counts`: the `long` difference is returned as `int`. -/
def compare_counts (count1 count2 : Int) : Int := narrow (count1 - count2)

/-- vote.c:181-196 `compute_median`. -/
def compute_median (num_voters : Nat) (s : Seq) : Res Seq := do
  if s.median2 = 0 then return s
  else
    let count ← Sort.sort num_voters compare_counts ((List.range num_voters).map s.count)
    if num_voters % 2 = 1 then
      let c ← rd count (num_voters / 2)
      return { s with median2 := 2 * c }
    else
      let c1 ← rdI count ((num_voters / 2 : Nat) - 1)
      let c2 ← rd count (num_voters / 2)
      return { s with median2 := c1 + c2 }

/-- Absolute value (vote.c:199-212). -/
def absI (x : Int) : Int := if x < 0 then -x else x

/-- vote.c:199-212 `compute_distance`: twice the distance. -/
def compute_distance (index : Nat) (array : List Seq) : Int :=
  array.foldl (fun d s => d + absI (2 * s.count index - s.median2)) 0

/-- vote.c:50-57 `Voter`; `distance2` is twice the distance. -/
structure Voter where
  argnum    : Nat
  text      : List Ch
  distance2 : Int
  deriving DecidableEq, Repr

/-- vote.c:215-221 `compare_distances`. -/
def compare_distances (v1 v2 : Voter) : Int :=
  if v1.distance2 ≠ v2.distance2 then (if v1.distance2 < v2.distance2 then -1 else 1)
  else (v1.argnum : Int) - v2.argnum

/-- vote.c:230-231: `count_sequences` for every voter, from `index` on. -/
def countAll (U : Unicode) : (index : Nat) → List (List Ch) → List Seq → Res (List Seq)
  | _, [], t => .ok t
  | index, text :: texts, t => do
    let t ← count_sequences U index text t
    countAll U (index + 1) texts t

/-- vote.c:233-234: `compute_median` for every sequence. -/
def medianAll (num_voters : Nat) : List Seq → Res (List Seq)
  | [] => .ok []
  | s :: ss => do
    let s ← compute_median num_voters s
    let ss ← medianAll num_voters ss
    return s :: ss

/-- vote.c:224-243 `select_voters`, without the debugging output: the texts copied to `input`. -/
def select_voters (U : Unicode) (optimize : Bool) (actual_voters : Nat) (texts : List (List Ch)) : Res (List (List Ch)) := do
  let voter : List Voter ← (if optimize then do
      let t ← countAll U 0 texts []
      let array ← medianAll texts.length (Store.in_array Seq.key t)
      let voter := texts.zipIdx.map (fun (p : List Ch × Nat) => (⟨p.2, p.1, compute_distance p.2 array⟩ : Voter))
      Sort.sort texts.length compare_distances voter
    else pure (texts.zipIdx.map (fun (p : List Ch × Nat) => (⟨p.2, p.1, 0⟩ : Voter))) : Res (List Voter))
  if actual_voters ≤ voter.length then return (voter.take actual_voters).map Voter.text else .ub

/-! ## Voting -/

/-- vote.c:76-80 `candidate`: the character's value (`none` for NULL) and its votes. -/
structure Cand where
  c         : Option Nat
  num_votes : Int
  deriving DecidableEq, Repr

/-- vote.c:257-270 of `place_vote`: add to the candidate with this value, or append a new one. -/
def addVotes (v : Option Nat) (num_votes : Int) : List Cand → List Cand
  | [] => [⟨v, num_votes⟩]
  | x :: xs => if x.c = v then ⟨x.c, x.num_votes + num_votes⟩ :: xs else x :: addVotes v num_votes xs

/-- vote.c:246-270 `place_vote`. -/
def place_vote (cfg : Config) (c : Option Ch) (cand : List Cand) : Res (List Cand) :=
  match c with
  | some ch =>
    if ch.value = REJECT_CHARACTER then .ok cand
    else
      let cand := addVotes (some ch.value) (if ch.suspect then cfg.suspect_weight else cfg.unmarked_weight) cand
      if cand.length ≤ MAX_VOTERS then .ok cand else .ub
  | none =>
    let cand := addVotes none cfg.unmarked_weight cand
    if cand.length ≤ MAX_VOTERS then .ok cand else .ub

/-- vote.c:281-283: the loop of `winner` from candidate `i` on; `leader` is the candidate at index `leader`. -/
def leaderLoop (leader : Cand) : List Cand → Cand
  | [] => leader
  | x :: xs => leaderLoop (if x.num_votes > leader.num_votes then x else leader) xs

/-- vote.c:273-291 `winner`: the character appended to `output`, if any, and the result.  `num_candidates` is 0
afterwards. -/
def winner (cfg : Config) : List Cand → Option Ch × Bool
  | [] => (some ⟨false, REJECT_CHARACTER⟩, true)
  | x :: xs =>
    let leader := leaderLoop x xs
    match leader.c with
    | none => (none, false)
    | some v => (some ⟨decide (leader.num_votes ≤ cfg.suspect_threshold), v⟩, true)

/-- vote.c:301-305: the loop over the voters; `substr` are the (changing) substrings of the item. -/
def castLoop (cfg : Config) : (input : List (List Ch)) → (substr : List Substr) → List Cand →
    Res (List Substr × List Cand)
  | [], ss, cand => .ok (ss, cand)
  | _ :: _, [], _ => .ub
  | text :: input, s :: ss, cand =>
    if s.start ≤ s.stop then do
      let c ← rdI text s.start
      let cand ← place_vote cfg (some c) cand
      let (ss, cand) ← castLoop cfg input ss cand
      return (⟨s.start + 1, s.stop, s.length⟩ :: ss, cand)
    else do
      let cand ← place_vote cfg none cand
      let (ss, cand) ← castLoop cfg input ss cand
      return (s :: ss, cand)

/-- vote.c:300-306: the do-while loop for one item. -/
def regionLoop (cfg : Config) (input : List (List Ch)) : (fuel : Nat) → List Substr → (output : List Ch) → Res (List Ch)
  | fuel, ss, output => do
    let (ss, cand) ← castLoop cfg input ss []
    match winner cfg cand with
    | (c, more) =>
      let output := output ++ c.toList
      if more then
        match fuel with
        | 0 => .fuel
        | fuel + 1 => regionLoop cfg input fuel ss output
      else .ok output

/-- vote.c:294-307 `perform_vote`; `fuel` bounds the rounds per item. -/
def perform_vote (cfg : Config) (input : List (List Ch)) (fuel : Nat) : List Sync → (output : List Ch) → Res (List Ch)
  | [], output => .ok output
  | s :: items, output => do
    let output ← regionLoop cfg input fuel s.substr output
    perform_vote cfg input fuel items output

/-- An upper bound for the rounds: the total number of characters (vote.c:246-307). -/
def rounds (input : List (List Ch)) : Nat := (input.map List.length).sum

/-- vote.c:44 `textopt`. -/
def textopt : Textopt := ⟨true, true, 0, true, false, false⟩

/-- vote.c:108-114: reading the files. -/
def readAll (U : Unicode) (junk : List Nat) : (opt : Textopt) → (files : List (List Nat)) → Res (List (List Ch))
  | _, [] => .ok []
  | opt, file :: files => do
    let (text, opt) ← read_text U junk [] file opt
    let texts ← readAll U junk opt files
    return text :: texts

/-- The part of vote.c:310-322 after the texts are read: `output`. -/
def voteTexts (U : Unicode) (optimize : Bool) (cfg : Config) (texts : List (List Ch)) : Res (List Ch) := do
  let input ← select_voters U optimize cfg.actual_voters texts
  let r ← synchronize (input.map (·.map Ch.value))
  perform_vote cfg input (rounds input) r.items []

/-- vote.c:310-322 `main` after `initialize`: the bytes of the output file. -/
def voteMain (U : Unicode) (signed : Bool) (junk : List Nat) (optimize : Bool) (sfraction wfraction : Option (List Nat))
    (files : List (List Nat)) : Res (List Nat) := do
  if files.length < MIN_VOTERS ∨ files.length > MAX_VOTERS then .err "invalid number of voters"
  else
    let texts ← readAll U junk textopt files
    let cfg ← validate_args signed files.length optimize sfraction wfraction
    let output ← voteTexts U optimize cfg texts
    write_text U output none

end Ocr.Vote
