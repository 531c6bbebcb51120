import Verif.Spec.Sync

/-!
# Synchronization by longest common strings

What `synchronize` is meant to find, told in terms of strings: split all texts at a longest common string, and go on to the left and
to the right of it.  "Common" is read one text after the other: a longest string common to the first two texts, within it a longest
string that also occurs in the third, and so on.
-/

namespace Ocr.Sync

/-- `w` occurs in `u` at position `i` and in `v` at position `j`, without reject characters. -/
def Occurs (u v : List Nat) (i j : Nat) (w : List Nat) : Prop := w <+: u.drop i ∧ w <+: v.drop j ∧ 126 ∉ w

/-- Of the longest nonempty strings common to `u` and `v`, `w` is the one that occurs first in `u`, at `i`; `j` is where it first
occurs in `v`. -/
structure FirstLongest (u v : List Nat) (i j : Nat) (w : List Nat) : Prop where
  nonempty : w ≠ []
  occurs   : Occurs u v i j w
  longest  : ∀ i' j' w', Occurs u v i' j' w' → w'.length ≤ w.length
  first    : ∀ i' j' w', Occurs u v i' j' w' → w'.length = w.length → i < i' ∨ i = i' ∧ j ≤ j'

/-- Apart from the reject character, `u` and `v` have no character in common. -/
def Apart (u v : List Nat) : Prop := ∀ c ∈ u, c ∈ v → c = 126

/-- Narrow `w`, which occurs in the texts seen so far at the positions `st`, by further texts. -/
inductive Narrows : (w : List Nat) → (st : List Nat) → (more : List (List Nat)) → (st' : List Nat) → (w' : List Nat) → Prop
  | done {w st} : Narrows w st [] st w
  | next {w st p more i j w1 st' w'} : FirstLongest w p i j w1 → Narrows w1 (st.map (· + i) ++ [j]) more st' w' →
      Narrows w st (p :: more) st' w'

/-- Narrowing `w` by further texts ends with a text that has nothing in common with what is left. -/
inductive Fails : (w : List Nat) → (more : List (List Nat)) → Prop
  | here {w p more} : Apart w p → Fails w (p :: more)
  | later {w p more i j w1} : FirstLongest w p i j w1 → Fails w1 more → Fails w (p :: more)

/-- The outcome for the strings `p :: more`: the matched (`true`) and unmatched (`false`) groups of strings, in order. -/
inductive Greedy : (strings : List (List Nat)) → (groups : List (Bool × List (List Nat))) → Prop
  /-- Nothing is left of any text. -/
  | nothing {ps} : (∀ p ∈ ps, p = []) → Greedy ps []
  /-- Nothing is left of some text, but of another one. -/
  | gap {ps} : [] ∈ ps → (∃ p ∈ ps, p ≠ []) → Greedy ps [(false, ps)]
  /-- No common string is found. -/
  | fails {p more} : [] ∉ p :: more → Fails p more → Greedy (p :: more) [(false, p :: more)]
  /-- Split at a common string. -/
  | split {p more st w L R} : [] ∉ p :: more → Narrows p [0] more st w →
      Greedy (List.zipWith (fun q s => q.take s) (p :: more) st) L →
      Greedy (List.zipWith (fun q s => q.drop (s + w.length)) (p :: more) st) R →
      Greedy (p :: more) (L ++ (true, (p :: more).map (fun _ => w)) :: R)

/-- The strings that the items of a list describe. -/
def groups (texts : List (List Nat)) (items : List Sync) : List (Bool × List (List Nat)) :=
  items.map (fun s => (s.mtch.isSome, List.zipWith piece texts s.substr))

end Ocr.Sync
