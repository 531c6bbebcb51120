import Verif.Spec.TextEndings

/-!
# How a run over words, or over a list and a report, can end
-/

namespace Ocr.Ending
open Text Spec AnyText AnyReport

/-- A list of words of which all can be normalized, and these words. -/
def ReadsList (U : Unicode) (prop : Nat → Word.WB) (nfc : List Nat → Option (List Nat)) (file : List Nat) (ws : List (List Nat)) : Prop :=
  ∃ t, IsList U false true file t ∧ Strings U prop nfc t (ws.map some)

/-- A list with a word that cannot be normalized. -/
def BadList (U : Unicode) (prop : Nat → Word.WB) (nfc : List Nat → Option (List Nat)) (file : List Nat) : Prop :=
  ∃ t ws, IsList U false true file t ∧ Strings U prop nfc t ws ∧ none ∈ ws

/-- The file of stopwords, if one is named, can be opened and satisfies `R`. -/
def Stops (fs : List Nat → Option (List Nat)) (R : List Nat → Prop) (s : Option (List Nat)) : Prop :=
  ∀ name, s = some name → ∃ f, fs name = some f ∧ R f

/-- A file of stopwords is named, can be opened, and satisfies `B`. -/
def BadStops (fs : List Nat → Option (List Nat)) (B : List Nat → Prop) (s : Option (List Nat)) : Prop :=
  ∃ name f, s = some name ∧ fs name = some f ∧ B f

/-- The first file of a comparison of words, which has no header, and the name of the second. -/
def Correct (fs : List Nat → Option (List Nat)) (names : List (List Nat)) (f0 : List Nat) (n1 : List Nat) : Prop :=
  ∃ n0 rest, names = n0 :: n1 :: rest ∧ fs n0 = some f0 ∧ ¬ Headed f0

/-- The number of words that occur in the other text. -/
def common (u v : List (List Nat)) : Nat := (u.filter (fun w => decide (w ∈ v))).length

/-- The number of words left when those listed are taken off, each as often as it is listed, whether the report shows them as
stopwords or not. -/
def left (p : WordaccParts) (ws : List (List Nat)) : Int :=
  p.words - (ws.map (fun w => firsts (fun r => word r = w) p.terms1 + firsts (fun r => word r = w) p.terms2)).sum

/-- A word that cannot be normalized is reached: there are words left before it and before all words listed before it. -/
def Reached (p : WordaccParts) (ws : List (Option (List Nat))) : Prop :=
  ∃ (pre : List (List Nat)) (post : List (Option (List Nat))), ws = pre.map some ++ none :: post ∧ ∀ i, i ≤ pre.length → left p (pre.take i) ≠ 0

end Ocr.Ending
