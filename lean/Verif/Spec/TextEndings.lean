import Verif.Spec.Endings
import Verif.Spec.AnyText
import Verif.Spec.Ngram

/-!
# How a run over texts can end
-/

namespace Ocr.Ending
open Text Spec AnyText

/-- The two texts of a comparison: two files or three are named, the first two can be opened and are text, and the first, the
correct one, has no header. -/
def Compared (U : Unicode) (fold : Bool) (fs : List Nat → Option (List Nat)) (names : List (List Nat)) (t0 t1 : List Ch) : Prop :=
  ∃ n0 n1 rest f0 f1, names = n0 :: n1 :: rest ∧ rest.length ≤ 1 ∧ fs n0 = some f0 ∧ ¬ Headed f0 ∧ TextOf U fold f0 t0 ∧
    fs n1 = some f1 ∧ TextOf U fold f1 t1

/-- Lower-case letters are code points. -/
def Lower (U : Unicode) : Prop := ∀ v, v < 0x110000 → U.tolower v < 0x110000

/-- The words of any text, `none` for one that cannot be normalized.  A text of nothing but Extend and Format characters has none
(see C35). -/
def Strings (U : Unicode) (prop : Nat → Word.WB) (nfc : List Nat → Option (List Nat)) (t : List Ch) (ws : List (Option (List Nat))) : Prop :=
  ((∀ c ∈ t, Word.isExt (prop c.value) = true) ∧ ws = []) ∨
    ((∃ c ∈ t, Word.isExt (prop c.value) = false) ∧
      ∃ segs, Word.CutAt (Word.SkipBreak prop) (t.map (·.value)) segs ∧ ws = Word.wordsOf U nfc segs)

/-- A file of which all words can be normalized, and these words. -/
def ReadsWords (U : Unicode) (prop : Nat → Word.WB) (nfc : List Nat → Option (List Nat)) (file : List Nat) (ws : List (List Nat)) : Prop :=
  ∃ t, TextOf U true file t ∧ Strings U prop nfc t (ws.map some)

/-- A file with a word that cannot be normalized. -/
def BadWords (U : Unicode) (prop : Nat → Word.WB) (nfc : List Nat → Option (List Nat)) (file : List Nat) : Prop :=
  ∃ t ws, TextOf U true file t ∧ Strings U prop nfc t ws ∧ none ∈ ws

end Ocr.Ending
