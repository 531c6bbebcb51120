import Verif.Model.NgramMain
import Verif.Model.Wordfreq

/-!
# What ngram and wordfreq report
-/

namespace Ocr.Text

/-- The texts of the files, read one after the other with the same options. -/
inductive Texts (U : Unicode) (junk : List Nat) : Textopt → List (List Nat) → List (List Ch) → Prop
  | nil {opt} : Texts U junk opt [] []
  | cons {opt opt' : Textopt} {file text files texts} : read_text U junk [] file opt = .ok (text, opt') →
      Texts U junk opt' files texts → Texts U junk opt (file :: files) (text :: texts)

end Ocr.Text

namespace Ocr.Ngram
open Text

/-- The runs of `n` consecutive characters of a text, one for each position at which they start. -/
def windows (n : Nat) (text : List Ch) : List (List Ch) :=
  (List.range (text.length + 1 - n)).map (fun i => (text.drop i).take n)

/-- The figures of the n-gram with values `d` among the windows `W`. -/
def occurrences (W : List (List Ch)) (d : List Nat) : Nat := W.countP (fun w => decide (w.map Ch.value = d))

/-- The number of windows with values `d` that contain a suspect character. -/
def suspects (W : List (List Ch)) (d : List Nat) : Nat :=
  W.countP (fun w => decide (w.map Ch.value = d) && w.any Ch.suspect)

/-- The entries are one for each n-gram that occurs, with its key, occurrences and suspect occurrences. -/
structure Counted (U : Unicode) (W : List (List Ch)) (rows : List Sequence) : Prop where
  distinct : (rows.map Sequence.value).Nodup
  occur    : ∀ d, d ∈ rows.map Sequence.value ↔ ∃ w ∈ W, w.map Ch.value = d
  key      : ∀ r ∈ rows, ngramKey U r.value = .ok r.key
  count    : ∀ r ∈ rows, r.count = occurrences W r.value
  suspect  : ∀ r ∈ rows, r.suspect = suspects W r.value

/-- The first order: increasing values. -/
def ByValue (x y : Sequence) : Prop := x.value < y.value

/-- The second order: decreasing count, decreasing suspect count, increasing values. -/
def ByCount (x y : Sequence) : Prop :=
  y.count < x.count ∨ (x.count = y.count ∧ (y.suspect < x.suspect ∨ (x.suspect = y.suspect ∧ x.value < y.value)))

/-- A listing: the rows and the totals. -/
def listing (rows : List Sequence) (total suspect : Nat) : List Nat :=
  ascii "   Count  Suspect\n" ++
  rows.flatMap (fun r => fmtLong 8 r.count ++ ascii " " ++ fmtLong 8 r.suspect ++ ascii "   {" ++ r.key ++ ascii "}\n") ++
  fmtLong 8 total ++ ascii " " ++ fmtLong 8 suspect ++ ascii "   Total\n"

end Ocr.Ngram

namespace Ocr.Wordfreq

/-- The rows are one for each word that occurs, with the number of occurrences. -/
structure Counted (words : List (List Nat)) (rows : List (List Nat × Nat)) : Prop where
  distinct : (rows.map Prod.fst).Nodup
  occur    : ∀ w, w ∈ rows.map Prod.fst ↔ w ∈ words
  count    : ∀ r ∈ rows, r.2 = words.count r.1

/-- A listing: the rows and the total. -/
def listing (rows : List (List Nat × Nat)) (total : Nat) : List Nat :=
  ascii "   Count\n" ++ rows.flatMap (fun r => fmtLong 8 r.2 ++ ascii "   " ++ r.1 ++ ascii "\n") ++
  fmtLong 8 total ++ ascii "   Total\n"

end Ocr.Wordfreq
