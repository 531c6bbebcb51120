import Verif.Spec.Vote

/-!
# A majority of the voters
-/

namespace Ocr.Vote
open Text

/-- The voters `same` outweigh `others` further voters at every position: they have no marked characters and are more, or they are
enough even if all their characters were marked and none of the others' were. -/
def Heavy (cfg : Config) (same : List (List Ch)) (others : Nat) : Prop :=
  ((∀ t ∈ same, ∀ c ∈ t, c.suspect = false) ∧ others < same.length) ∨
    (others : Int) * cfg.unmarked_weight < (same.length : Int) * cfg.suspect_weight

/-- More than half of the voters have the characters `v`. -/
def Majority (texts : List (List Ch)) (v : List Nat) : Prop :=
  texts.length < 2 * (texts.filter (fun t => t.map Ch.value = v)).length

/-- The cases in which the text `v` of a majority is sure to win. -/
inductive Wins (cfg : Config) (v : List Nat) : (optimize : Bool) → (texts : List (List Ch)) → Prop
  /-- Neighbours. -/
  | neighbours {pre same post} : (∀ t ∈ same, t.map Ch.value = v) → Heavy cfg same (pre.length + post.length) →
      Wins cfg v false (pre ++ same ++ post)
  /-- All but one. -/
  | but_one {pre x post} : (∀ t ∈ pre ++ post, t.map Ch.value = v) → Heavy cfg (pre ++ post) 1 → Wins cfg v false (pre ++ x :: post)
  /-- Two of three. -/
  | three {optimize texts x a b} : texts.Perm [x, a, b] → a.map Ch.value = v → b.map Ch.value = v → Heavy cfg [a, b] 1 →
      Wins cfg v optimize texts
  /-- With optimization, if no other text has the same pairs of characters. -/
  | optimized {texts} : 4 ≤ texts.length → Majority texts v →
      (∀ t ∈ texts, (digrams t).Perm (v.zip v.tail) → t.map Ch.value = v) → Wins cfg v true texts

end Ocr.Vote
