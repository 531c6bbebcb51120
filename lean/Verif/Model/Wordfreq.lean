import Verif.Model.Wacrpt
import Verif.Model.Word
import Verif.Model.Sort

/-!
# Model of wordfreq.c
-/

namespace Ocr.Wordfreq
open Text

/-- wordfreq.c:30. -/
def textopt : Textopt := ⟨true, true, 0, true, true, false⟩

/-- wordfreq.c:45-46: `add_term` for each word.  A word whose string could not be normalized is a null pointer. -/
def addWords : List (Option (List Nat)) → List Term → Res (List Term)
  | [], t => .ok t
  | none :: _, _ => .ub
  | some w :: ws, t => addWords ws (Wac.add_term t w 1 0)

/-- wordfreq.c:39-49 `process_file` for the files in turn. -/
def processFiles (U : Unicode) (prop : Nat → Word.WB) (nfc : List Nat → Option (List Nat)) (junk : List Nat) (junk' : Nat) :
    (opt : Textopt) → (files : List (List Nat)) → List Term → Res (List Term)
  | _, [], t => .ok t
  | opt, file :: files, t => do
    let (text, opt) ← read_text U junk [] file opt
    let words ← Word.find_words U prop nfc junk' text
    let t ← addWords words t
    processFiles U prop nfc junk junk' opt files t

/-- wordfreq.c:74-75: one line. -/
def writeTerm (t : Term) : List Nat := fmtLong 8 t.count ++ ascii "   " ++ t.key ++ [10]

/-- wordfreq.c:68-79 `write_array`. -/
def write_array (array : List Term) : List Nat :=
  ascii "   Count\n" ++ array.flatMap writeTerm ++
    (fmtLong 8 ((array.map Term.count).foldl (· + ·) 0) ++ ascii "   Total\n")

/-- wordfreq.c:82-90 `write_report`. -/
def write_report (t : List Term) : Res (List Nat) := do
  let array := Store.in_array Term.key t
  let array ← Sort.sort array.length compare_term array
  let first := write_array array
  let array ← Sort.sort array.length wf_order_by_count array
  return first ++ ascii "\n\n" ++ write_array array

/-- wordfreq.c:93-104 `main` after `initialize`. -/
def wordfreqMain (U : Unicode) (prop : Nat → Word.WB) (nfc : List Nat → Option (List Nat)) (junk : List Nat) (junk' : Nat)
    (files : List (List Nat)) : Res (List Nat) := do
  if files.length = 0 then .err "no text files specified"
  else
    let t ← processFiles U prop nfc junk junk' textopt files []
    write_report t

end Ocr.Wordfreq
