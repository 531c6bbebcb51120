import Verif.Model.Text

/-!
# Texts that are alike

Which positions of some texts hold matching characters, whatever the characters are.
-/

namespace Ocr.Alike

/-- Text `i` has at `p` the same character as text `j` at `q`, other than the reject character `~`. -/
def Match (texts : List (List Nat)) (i p j q : Nat) : Prop :=
  ∃ s t c, texts[i]? = some s ∧ texts[j]? = some t ∧ s[p]? = some c ∧ t[q]? = some c ∧ c ≠ 126

/-- The texts have the same lengths, and the same positions match. -/
def SameMatches (texts texts' : List (List Nat)) : Prop :=
  texts.map List.length = texts'.map List.length ∧ ∀ i p j q, Match texts i p j q ↔ Match texts' i p j q

/-- The characters of a text are exchanged for others; the marks stay. -/
def recode (f : Nat → Nat) (t : List Text.Ch) : List Text.Ch := t.map (fun c => { c with value := f c.value })

/-- A code for the characters: different characters stay different, and `~` stays as it is. -/
def Code (f : Nat → Nat) : Prop := (∀ x y, f x = f y → x = y) ∧ f 126 = 126

end Ocr.Alike
