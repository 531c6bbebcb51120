import Verif.Model.Groupacc
import Verif.Spec.Accrpt
import Verif.Spec.Wacrpt

/-!
# What groupacc and nonstopacc report
-/

namespace Ocr.Groupacc
open Text Acc

/-- The characters of the group that are listed: neither blanks nor newlines, and counted in the report. -/
def listed (D : Accdata) (group : List Nat) : List Nat :=
  group.filter (fun v => decide (v ≠ 32) && decide (v ≠ 10) && decide (0 < (D.small_class v).count))

/-- The line of the character `v`, whose string is `s`. -/
def line (pct : Int → Int → List Nat) (D : Accdata) (s : List Nat) (v : Nat) : List Nat :=
  fmtLong 8 (D.small_class v).count ++ ascii " " ++ fmtLong 8 (D.small_class v).missed ++ ascii " " ++
  pct ((D.small_class v).count - (D.small_class v).missed) (D.small_class v).count ++ ascii "   {" ++ s ++ ascii "}\n"

/-- The last line. -/
def totalLine (pct : Int → Int → List Nat) (count missed : Int) : List Nat :=
  fmtLong 8 count ++ ascii " " ++ fmtLong 8 missed ++ ascii " " ++
  (if count = 0 then ascii "  ------" else pct (count - missed) count) ++ ascii "   Total\n"

/-- The report on the listed characters `vs`; `str v` is the string of a character. -/
def report (pct : Int → Int → List Nat) (D : Accdata) (str : Nat → List Nat) (vs : List Nat) : List Nat :=
  ascii "   Count   Missed   %Right\n" ++ vs.flatMap (fun v => line pct D (str v) v) ++
  totalLine pct (vs.map (fun v => (D.small_class v).count)).sum (vs.map (fun v => (D.small_class v).missed)).sum

end Ocr.Groupacc

namespace Ocr.Nonstopacc
open Wac

/-- The figures of the words other than `ws`. -/
def others (D : Wacdata) (ws : List (List Nat)) : Wac :=
  ⟨(((D.stopword_table ++ D.non_stopword_table).filter (fun t => decide (t.key ∉ ws))).map Term.count).sum,
   (((D.stopword_table ++ D.non_stopword_table).filter (fun t => decide (t.key ∉ ws))).map Term.missed).sum⟩

/-- The figures of a list of words, each as often as it is listed. -/
def figures (D : Wacdata) (ws : List (List Nat)) : Wac :=
  ⟨(ws.map (fun w => termCount w D.stopword_table + termCount w D.non_stopword_table)).sum,
   (ws.map (fun w => termMissed w D.stopword_table + termMissed w D.non_stopword_table)).sum⟩

/-- Data of a word accuracy report: distinct words in each table, and totals that are the sums of the figures of all words. -/
structure Consistent (D : Wacdata) : Prop where
  nodup1 : (D.stopword_table.map Term.key).Nodup
  nodup2 : (D.non_stopword_table.map Term.key).Nodup
  total  : D.total = others D []

/-- The lines for the figures `f 0`, `f 1`, ..., `f n`, up to the first with no words. -/
def lines (pct : Int → Int → List Nat) (f : Nat → Wac) (n : Nat) : List Nat :=
  ((List.range (n + 1)).takeWhile (fun i => decide ((f i).count ≠ 0))).flatMap
    (fun i : Nat => fmtLong 3 i ++ ascii " " ++ pct ((f i).count - (f i).missed) (f i).count ++ ascii "\n")

end Ocr.Nonstopacc
