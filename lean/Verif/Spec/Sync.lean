import Verif.Model.Sync
import Verif.Spec.Edit

/-!
# What a synchronization list should be
-/

namespace Ocr.Sync
open Text

/-- The substring of text number `t` described by an item. -/
def Sync.sub (s : Sync) (t : Nat) : Substr := s.substr.getD t ⟨0, -1, 0⟩

/-- The characters of a substring. -/
def piece {α : Type} (text : List α) (s : Substr) : List α := (text.drop s.start.toNat).take s.length.toNat

/-- Consecutive substrings covering the positions from `pos` to `stop` (exclusive). -/
def Tiles : (pos : Int) → List Substr → (stop : Int) → Prop
  | pos, [], stop => pos = stop
  | pos, s :: ss, stop => s.start = pos ∧ s.stop = pos + s.length - 1 ∧ 0 ≤ s.length ∧ Tiles (pos + s.length) ss stop

/-- An alignment of several texts: the items partition every text, none is empty in all texts, and the substrings of a
matched item are the same nonempty string without reject characters in all texts. -/
structure IsAlignment (texts : List (List Nat)) (items : List Sync) : Prop where
  width    : ∀ s ∈ items, s.substr.length = texts.length
  tiles    : ∀ t (h : t < texts.length), Tiles 0 (items.map (·.sub t)) texts[t].length
  nonempty : ∀ s ∈ items, ∃ t, t < texts.length ∧ 0 < (s.sub t).length
  matched  : ∀ s ∈ items, s.mtch ≠ none →
    ∃ w, w ≠ [] ∧ REJECT_CHARACTER ∉ w ∧ ∀ t (h : t < texts.length), piece texts[t] (s.sub t) = w

/-- The matched items point to different cells, which hold 1, 2, 3, ... in order. -/
def Numbered (items : List Sync) (cells : Nat → Int) : Prop :=
  (items.filterMap (·.mtch)).Nodup ∧
    (items.filterMap (·.mtch)).map cells = (List.range (items.filterMap (·.mtch)).length).map (fun (i : Nat) => (i : Int) + 1)

/-- The cost of an alignment of two texts: an unmatched region costs the length of its longer side. -/
def cost (items : List Sync) : Int :=
  (items.map (fun s => if s.mtch = none then max (s.sub 0).length (s.sub 1).length else 0)).sum

end Ocr.Sync
