import Verif.Model.Accrpt
import Verif.Model.Wacrpt
import Verif.Model.Word

/-!
# Models of groupacc.c and nonstopacc.c

`pct n d` stands for the bytes printed for `100.0 * n / d`: with the format `"%8.2f"` in groupacc.c and `"%6.2f"` in
nonstopacc.c.  The counters are unbounded integers.
-/

namespace Ocr.Groupacc
open Text Charclass Acc

/-- groupacc.c:29. -/
def textopt : Textopt := ⟨false, true, 0, true, false, false⟩

/-- groupacc.c:37-46 `write_line`. -/
def write_line (pct : Int → Int → List Nat) (count missed : Int) : List Nat :=
  fmtLong 8 count ++ [32] ++ fmtLong 8 missed ++ [32] ++
    (if count = 0 then ascii "  ------   " else pct (count - missed) count ++ ascii "   ")

/-- groupacc.c:58-71, the loop of `write_report` and the total. -/
def reportLoop (U : Unicode) (pct : Int → Int → List Nat) (D : Accdata) : (c : List Ch) → (total_count total_missed : Int) →
    Res (List Nat)
  | [], total_count, total_missed => .ok (write_line pct total_count total_missed ++ ascii "Total\n")
  | c :: cs, total_count, total_missed => do
    if c.value < NUM_CHARVALUES then
      if (D.small_class c.value).count > 0 ∧ c.value ≠ BLANK ∧ c.value ≠ NEWLINE then do
        let count := (D.small_class c.value).count
        let missed := (D.small_class c.value).missed
        let buffer ← char_to_string U STRING_SIZE false c.value true
        let rest ← reportLoop U pct D cs (total_count + count) (total_missed + missed)
        return write_line pct count missed ++ (ascii "{" ++ cstr buffer ++ ascii "}\n") ++ rest
      else reportLoop U pct D cs total_count total_missed
    else .ub

/-- groupacc.c:49-73 `write_report`: the bytes written. -/
def write_report (U : Unicode) (pct : Int → Int → List Nat) (text : List Ch) (D : Accdata) : Res (List Nat) := do
  let lines ← reportLoop U pct D text 0 0
  return ascii "   Count   Missed   %Right\n" ++ lines

/-- groupacc.c:76-87 `main` after `initialize`, on the contents of the two files. -/
def groupaccMain (U : Unicode) (pct : Int → Int → List Nat) (junk : List Nat) (group report : List Nat) : Res (List Nat) := do
  let (text, _) ← read_text U junk [] group textopt
  let D ← read_accrpt Accdata.zero report
  write_report U pct text D

end Ocr.Groupacc

namespace Ocr.Nonstopacc
open Text Wac

/-- nonstopacc.c:29. -/
def textopt : Textopt := ⟨false, false, 0, true, true, false⟩

/-- nonstopacc.c:39-50 `find_stopword`: the new values of `count` and `missed`. -/
def find_stopword (table : List Term) (string : List Nat) (count missed : Int) : Int × Int :=
  match Store.lookup Term.key string table with
  | some term => (count - term.count, missed - term.missed)
  | none => (count, missed)

/-- nonstopacc.c:53-57 `write_line`. -/
def write_line (pct : Int → Int → List Nat) (linenum : Nat) (count missed : Int) : List Nat :=
  fmtLong 3 linenum ++ [32] ++ pct (count - missed) count ++ [10]

/-- nonstopacc.c:68-75, the loop of `write_results`; a word that could not be normalized is a null pointer. -/
def resultLoop (pct : Int → Int → List Nat) (D : Wacdata) : (word : List (Option (List Nat))) → (linenum : Nat) →
    (count missed : Int) → Res (List Nat)
  | [], _, _, _ => .ok []
  | none :: _, _, _, _ => .ub
  | some w :: ws, linenum, count, missed => do
    let (count, missed) := find_stopword D.stopword_table w count missed
    let (count, missed) := find_stopword D.non_stopword_table w count missed
    if count = 0 then .ok []
    else do
      let rest ← resultLoop pct D ws (linenum + 1) count missed
      return write_line pct linenum count missed ++ rest

/-- nonstopacc.c:60-76 `write_results`. -/
def write_results (pct : Int → Int → List Nat) (D : Wacdata) (words : List (Option (List Nat))) : Res (List Nat) :=
  if D.total.count = 0 then .ok []
  else do
    let rest ← resultLoop pct D words 1 D.total.count D.total.missed
    return write_line pct 0 D.total.count D.total.missed ++ rest

/-- nonstopacc.c:79-91 `main` after `initialize`, on the contents of the two files. -/
def nonstopaccMain (U : Unicode) (prop : Nat → Word.WB) (nfc : List Nat → Option (List Nat)) (pct : Int → Int → List Nat)
    (junk : List Nat) (junk' : Nat) (stopwords report : List Nat) : Res (List Nat) := do
  let (text, _) ← read_text U junk [] stopwords textopt
  let words ← Word.find_words U prop nfc junk' text
  let D ← read_wacrpt Wacdata.zero report
  write_results pct D words

end Ocr.Nonstopacc
