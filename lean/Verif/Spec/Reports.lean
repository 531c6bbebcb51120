import Verif.Spec.Confusions
import Verif.Spec.Charclass
import Verif.Spec.Wacrpt
import Verif.Model.Edorpt

/-!
# What a report should look like

The reports consist of lines with numbers in columns of eight characters, followed by labels.  `pct` is the way of printing percentages.
-/

namespace Ocr.Spec
open Text Charclass

/-- A number in a column. -/
def num (n : Int) : List Nat := fmtLong 8 n

/-- A percentage in a column. -/
def share (pct : Int → Int → List Nat) (part whole : Int) : List Nat := if whole = 0 then ascii "  ------" else pct part whole

/-- A line with columns and a label. -/
def row (columns : List (List Nat)) (label : List Nat) : List Nat := [32].intercalate columns ++ ascii "   " ++ label ++ [10]

/-- A line for something that can be recognized or missed. -/
def countRow (pct : Int → Int → List Nat) (count missed : Int) (label : List Nat) : List Nat :=
  row [num count, num missed, share pct (count - missed) count] label

/-- A line for edit operations. -/
def opsRow (o : Acc.Accops) (label : String) : List Nat := row [num o.ins, num o.subst, num o.del, num o.errors] (ascii label)

/-- The names of the classes of characters, in the order in which the table of ranges mentions them first. -/
def classOrder : List String := (ranges.map Range.name).eraseDups

/-- Confusions with more errors come first, then those with more marked errors, then in the order of the strings. -/
def ConfBefore (x y : Conf) : Prop :=
  y.errors < x.errors ∨ (x.errors = y.errors ∧ (y.marked < x.marked ∨ (x.marked = y.marked ∧ x.key < y.key)))

/-- The text of an accuracy report: the figures, the classes, the confusions, if there are errors, and the characters, if there are any. -/
def accuracyText (U : Unicode) (pct : Int → Int → List Nat) (D : Acc.Accdata) (confs : List Conf) (chars : List Nat) : List Nat :=
  ascii "ocreval Accuracy Report Version 7.0\n" ++
  ascii "-----------------------------------\n" ++
  row [num D.characters] (ascii "Characters") ++
  row [num D.errors] (ascii "Errors") ++
  share pct (D.characters - D.errors) D.characters ++ ascii "%  Accuracy\n\n" ++
  row [num D.reject_characters] (ascii "Reject Characters") ++
  row [num D.suspect_markers] (ascii "Suspect Markers") ++
  row [num D.false_marks] (ascii "False Marks") ++
  share pct (D.reject_characters + D.suspect_markers) D.characters ++ ascii "%  Characters Marked\n" ++
  share pct (D.characters - D.unmarked_ops.errors) D.characters ++ ascii "%  Accuracy After Correction\n\n" ++
  ascii "     Ins    Subst      Del   Errors\n" ++
  opsRow D.marked_ops "Marked" ++ opsRow D.unmarked_ops "Unmarked" ++ opsRow D.total_ops "Total" ++
  ascii "\n   Count   Missed   %Right\n" ++
  ((List.range classOrder.length).filter (fun i => 0 < (D.large_class i).count)).flatMap (fun i =>
    countRow pct (D.large_class i).count (D.large_class i).missed (ascii (classOrder.getD i ""))) ++
  countRow pct D.total_class.count D.total_class.missed (ascii "Total") ++
  (if 0 < D.errors then
    ascii "\n  Errors   Marked   Correct-Generated\n" ++ confs.flatMap (fun c => num c.errors ++ [32] ++ num c.marked ++ ascii "   " ++ c.key)
  else []) ++
  (if 0 < D.characters then
    ascii "\n   Count   Missed   %Right\n" ++ chars.flatMap (fun v =>
      countRow pct (D.small_class v).count (D.small_class v).missed (ascii "{" ++ Acc.named U v ++ ascii "}"))
  else [])

/-- A part of a word accuracy report: the figures for the numbers from 1 to `limit`, those for greater numbers, and the total, as far as
these are given. -/
def numbersText (pct : Int → Int → List Nat) (title label : String) (figures : Nat → Wac.Wac) (limit : Nat) (more total : Option Wac.Wac) :
    List Nat :=
  ascii "\n" ++ ascii title ++ ascii "\n   Count   Missed   %Right   " ++ ascii label ++ ascii "\n" ++
  ((List.range' 1 limit).filter (fun i => 0 < (figures i).count)).flatMap (fun i =>
    countRow pct (figures i).count (figures i).missed (ascii "    " ++ fmtLong 2 i)) ++
  (match more with
    | some w => if 0 < w.count then countRow pct w.count w.missed (ascii "   >" ++ fmtLong 2 limit) else []
    | none => []) ++
  (match total with
    | some w => countRow pct w.count w.missed (ascii " Total")
    | none => [])

/-- A part of a word accuracy report: the words themselves. -/
def termsText (pct : Int → Int → List Nat) (title : String) (terms : List Term) : List Nat :=
  ascii "\n" ++ ascii title ++ ascii "\n   Count   Missed   %Right   \n" ++ terms.flatMap (fun t => countRow pct t.count t.missed t.key)

/-- The text of a word accuracy report: the figures; if there are words, also the phrases, the stopwords and the other words. -/
def wordaccText (pct : Int → Int → List Nat) (D : Wac.Wacdata) (stopwords others : List Term) : List Nat :=
  ascii "ocreval Word Accuracy Report Version 7.0\n" ++
  ascii "----------------------------------------\n" ++
  row [num D.total.count] (ascii "Words") ++
  row [num D.total.missed] (ascii "Misrecognized") ++
  share pct (D.total.count - D.total.missed) D.total.count ++ ascii "%  Accuracy\n" ++
  numbersText pct "Stopwords" "Length" D.stopword 50 none (some (D.stopword 0)) ++
  numbersText pct "Non-stopwords" "Length" D.non_stopword 50 none (some (D.non_stopword 0)) ++
  numbersText pct "Distinct Non-stopwords" "Occurs" D.distinct_non_stopword 10 (some (D.distinct_non_stopword 11))
    (some (D.distinct_non_stopword 0)) ++
  (if 0 < D.total.count then
    numbersText pct "Phrases" "Length" D.phrase 8 none none ++
    (if 0 < (D.stopword 0).count then termsText pct "Stopwords" stopwords else []) ++
    (if 0 < (D.non_stopword 0).count then termsText pct "Non-stopwords" others else [])
  else [])

/-- The text of an edit operation report: the figures; if there are moves, also the moves by length. -/
def editopText (D : Edo.Edodata) : List Nat :=
  ascii "ocreval Edit Operation Report Version 7.0\n" ++
  ascii "-----------------------------------------\n" ++
  row [num D.total_insertions] (ascii "Insertions") ++
  row [num D.total_deletions] (ascii "Deletions") ++
  row [num D.total_moves] (ascii "Moves") ++
  (if 0 < D.total_moves then
    ascii "\nMoves\n   Count   Length\n" ++ ((List.range' 1 100).filter (fun i => 0 < D.moves i)).flatMap (fun i =>
      num (D.moves i) ++ [32] ++ num i ++ [10])
  else [])

end Ocr.Spec
