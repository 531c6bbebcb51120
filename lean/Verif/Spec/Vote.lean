import Verif.Model.Vote
import Verif.Spec.Sync
import Mathlib.Data.List.Dedup
import Mathlib.Data.List.Sort

/-!
# What a vote should decide

The voters' strings for a region are compared position by position.  A ballot is what a voter has at a position: a
character, or nothing if its string is used up.
-/

namespace Ocr.Vote
open Text Sync

/-- What a ballot proposes: a character value, or (`some none`) to end the region; a reject character abstains. -/
def proposal : Option Ch → Option (Option Nat)
  | none   => some none
  | some c => if c.value = 126 then none else some (some c.value)

/-- The weight of a ballot. -/
def weight (cfg : Config) : Option Ch → Int
  | none   => cfg.unmarked_weight
  | some c => if c.suspect then cfg.suspect_weight else cfg.unmarked_weight

/-- The votes for `x`. -/
def tally (cfg : Config) (bs : List (Option Ch)) (x : Option Nat) : Int :=
  ((bs.filter (fun b => proposal b = some x)).map (weight cfg)).sum

/-- `x` has the most votes; among those with equally many it was proposed first. -/
def Elected (cfg : Config) (bs : List (Option Ch)) (x : Option Nat) : Prop :=
  ∃ pre b post, bs = pre ++ b :: post ∧ proposal b = some x ∧
    (∀ c ∈ pre, ∀ y, proposal c = some y → tally cfg bs y < tally cfg bs x) ∧
    (∀ c ∈ post, ∀ y, proposal c = some y → tally cfg bs y ≤ tally cfg bs x)

/-- The ballots at position `k`. -/
def ballots (strs : List (List Ch)) (k : Nat) : List (Option Ch) := strs.map (·[k]?)

/-- The output for one position: '~' if all abstain, else the elected character, marked suspect if it has at most
`suspect_threshold` votes. -/
def RoundResult (cfg : Config) (bs : List (Option Ch)) (c : Ch) : Prop :=
  (c = ⟨false, 126⟩ ∧ ∀ b ∈ bs, proposal b = none) ∨
  (Elected cfg bs (some c.value) ∧ (c.suspect = true ↔ tally cfg bs (some c.value) ≤ cfg.suspect_threshold))

/-- The output for a region: one character per position, up to the first position where ending the region is elected. -/
structure RegionVote (cfg : Config) (strs : List (List Ch)) (out : List Ch) : Prop where
  round : ∀ k c, out[k]? = some c → RoundResult cfg (ballots strs k) c
  stop  : Elected cfg (ballots strs out.length) none

/-- The voters' strings for an item of the synchronization list. -/
def strings (texts : List (List Ch)) (s : Sync) : List (List Ch) :=
  texts.zipIdx.map (fun p => piece p.1 (s.sub p.2))

/-! ## Selecting the voters -/

/-- The pairs of adjacent characters. -/
def digrams (text : List Ch) : List (Nat × Nat) := (text.map Ch.value).zip (text.map Ch.value).tail

/-- Twice the median: the sum of the two middle elements (which coincide for an odd number). -/
def median2 (l : List Int) : Int :=
  let s := l.insertionSort (· ≤ ·)
  s.getD ((l.length - 1) / 2) 0 + s.getD (l.length / 2) 0

/-- Twice the count expected of a digram: the median of the voters' counts; digrams with rejects are not wanted. -/
def expected2 (texts : List (List Ch)) (d : Nat × Nat) : Int :=
  if d.1 = 126 ∨ d.2 = 126 then 0 else median2 (texts.map (fun t => ((digrams t).count d : Int)))

/-- Twice the distance of a text from the expected counts, over all digrams that occur in some text. -/
def distance2 (texts : List (List Ch)) (t : List Ch) : Int :=
  ((texts.flatMap digrams).dedup.map (fun d => ((2 * ((digrams t).count d : Int) - expected2 texts d).natAbs : Int))).sum

/-- Voter `i` is preferred to voter `j`. -/
def Closer (texts : List (List Ch)) (i j : Nat) : Prop :=
  distance2 texts (texts.getD i []) < distance2 texts (texts.getD j []) ∨
    (distance2 texts (texts.getD i []) = distance2 texts (texts.getD j []) ∧ i < j)

end Ocr.Vote
