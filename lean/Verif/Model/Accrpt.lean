import Verif.Model.AccData
import Verif.Model.ReadChar
import Verif.Model.Report
import Verif.Model.Sort

/-!
# Model of the reading and writing of accuracy reports (accrpt.c) and of accsum.c

`pct n d` stands for the bytes printed by `fprintf(f, "%8.2f", 100.0 * n / d)`; floating point is not modelled.
-/

namespace Ocr.Acc
open Text Charclass Report

/-- accrpt.c:37 with OCREVAL_VERSION "7.0". -/
def TITLE : List Nat := ascii "ocreval Accuracy Report Version 7.0\n"
/-- accrpt.c:38. -/
def DIVIDER : List Nat := ascii "-----------------------------------\n"
/-- accrpt.c:41. -/
def CONF_OFFSET : Nat := 20
/-- accrpt.c:40. -/
def CLASS_OFFSET : Nat := 29

/-- `&line[offset]` as a C string.  If the line ends before `offset` the C code sees what an earlier line has left in the
buffer; this is not modelled and counted as undefined (accrpt.c:91-260). -/
def strAt (line : List Nat) (offset : Nat) : Res (List Nat) :=
  if offset ≤ line.length then .ok (line.drop offset) else .ub

/-- accrpt.c:112-128 `read_ops` without the addition. -/
def read_ops (file : List Nat) : Option (Accops × List Nat) := do
  let (line, file) ← read_line file
  match scanLongs 4 line with
  | some [ins, subst, del, errors] => some (⟨ins, subst, del, errors⟩, file)
  | _ => none

/-- The figures at the top of a report (accrpt.h:58-79). -/
structure Head where
  characters        : Int
  errors            : Int
  reject_characters : Int
  suspect_markers   : Int
  false_marks       : Int
  marked_ops        : Accops
  unmarked_ops      : Accops
  total_ops         : Accops

/-- The condition of accrpt.c:222-234.  The figures read are returned; they are added in `add_head`.  (The C code adds
each figure as soon as it is read, but the program ends if the condition fails.) -/
def read_head (file : List Nat) : Option (Head × List Nat) := do
  let f ← read_title TITLE DIVIDER file
  let (characters, f) ← read_value f
  let (errors, f) ← read_value f
  let f ← skip_lines 2 f
  let (reject, f) ← read_value f
  let (suspect, f) ← read_value f
  let (false_marks, f) ← read_value f
  let f ← skip_lines 4 f
  let (marked, f) ← read_ops f
  let (unmarked, f) ← read_ops f
  let (total, f) ← read_ops f
  let f ← skip_lines 1 f
  some (⟨characters, errors, reject, suspect, false_marks, marked, unmarked, total⟩, f)

/-- The additions made by accrpt.c:98-128 `read_value` and `read_ops`. -/
def add_head (D : Accdata) (h : Head) : Accdata := { D with
  characters := D.characters + h.characters
  errors := D.errors + h.errors
  reject_characters := D.reject_characters + h.reject_characters
  suspect_markers := D.suspect_markers + h.suspect_markers
  false_marks := D.false_marks + h.false_marks
  marked_ops := add_ops D.marked_ops h.marked_ops
  unmarked_ops := add_ops D.unmarked_ops h.unmarked_ops
  total_ops := add_ops D.total_ops h.total_ops }

/-- accrpt.c:236: `while (read_line(f) && line[0] != NEWLINE);`. -/
def skipClasses : (fuel : Nat) → (file : List Nat) → Res (List Nat)
  | fuel, file =>
    match read_line file with
    | none => .ok file
    | some (line, rest) =>
      if line.head? = some NEWLINE then .ok rest
      else
        match fuel with
        | 0 => .fuel
        | fuel + 1 => skipClasses fuel rest

/-- What is left of the file after an attempt to read a line (accrpt.c:91-95). -/
def after_line (file : List Nat) : List Nat := ((read_line file).map Prod.snd).getD file

/-- accrpt.c:238-242: the loop reading the confusions.  The line on which `read_two` fails has been read. -/
def readConfLoop : (fuel : Nat) → (file : List Nat) → Accdata → Res (Accdata × List Nat)
  | fuel, file, D =>
    match read_two file with
    | none => .ok (D, after_line file)
    | some ((value1, value2, line), rest) =>
      match fuel with
      | 0 => .fuel
      | fuel + 1 => do
        let key ← strAt line CONF_OFFSET
        readConfLoop fuel rest (add_conf D key value1 value2)

/-- accrpt.c:244-250: the loop reading the characters. -/
def readClassLoop : (fuel : Nat) → (file : List Nat) → Accdata → Res Accdata
  | fuel, file, D =>
    match read_two file with
    | none => .ok D
    | some ((value1, value2, line), rest) =>
      match fuel with
      | 0 => .fuel
      | fuel + 1 => do
        let s ← strAt line CLASS_OFFSET
        let value3 ← read_char (s ++ [0])
        if value3 = INVALID_CHARVALUE then .err "invalid character in"
        else do
          let D ← add_class D value3 value1 value2
          readClassLoop fuel rest D

/-- accrpt.c:237-242. -/
def readConfs (errors : Int) (file : List Nat) (D : Accdata) : Res (Accdata × List Nat) :=
  if errors > 0 then
    match read_line file with
    | some (_, rest) => readConfLoop rest.length rest D
    | none => .ok (D, file)
  else .ok (D, file)

/-- accrpt.c:243-250. -/
def readClasses (characters : Int) (file : List Nat) (D : Accdata) : Res Accdata :=
  if characters > 0 then
    match read_line file with
    | some (_, rest) => readClassLoop rest.length rest D
    | none => .ok D
  else .ok D

/-- accrpt.c:214-254 `read_accrpt` on the contents of the file. -/
def read_accrpt (D : Accdata) (file : List Nat) : Res Accdata :=
  match read_head file with
  | none => .err "invalid format in"
  | some (h, f) => do
    let f ← skipClasses f.length f
    let (D, f) ← readConfs h.errors f (add_head D h)
    readClasses h.characters f D

/-- accrpt.c:266-274 `write_pct`. -/
def write_pct (pct : Int → Int → List Nat) (numerator denominator : Int) : List Nat :=
  if denominator = 0 then ascii "  ------" else pct numerator denominator

/-- accrpt.c:277-284 `write_ops`. -/
def write_ops (ops : Accops) (string : String) : List Nat :=
  fmtLong 8 ops.ins ++ [32] ++ fmtLong 8 ops.subst ++ [32] ++ fmtLong 8 ops.del ++ [32] ++ fmtLong 8 ops.errors ++
    ascii "   " ++ ascii string ++ [10]

/-- accrpt.c:287-303 `write_class`; `string` is what is printed after the figures (without the newline). -/
def write_class (pct : Int → Int → List Nat) (c : Accclass) (string : List Nat) : List Nat :=
  fmtLong 8 c.count ++ [32] ++ fmtLong 8 c.missed ++
    ([32] ++ write_pct pct (c.count - c.missed) c.count ++ ascii "   " ++ string) ++ [10]

/-- accrpt.c:306-311 `write_conf`. -/
def write_conf (c : Conf) : List Nat := fmtLong 8 c.errors ++ [32] ++ fmtLong 8 c.marked ++ ascii "   " ++ c.key

/-- The loop of accrpt.c:350-352 over the classes `is`. -/
def write_large (pct : Int → Int → List Nat) (D : Accdata) : List Nat → Res (List Nat)
  | [] => .ok []
  | i :: is => do
    let l ← (if (D.large_class i).count > 0 then do
        let name ← charclass_name i
        pure (write_class pct (D.large_class i) (ascii name))
      else pure [])
    let r ← write_large pct D is
    return l ++ r

/-- The loop of accrpt.c:365-367 over the characters `is` (all below NUM_CHARVALUES). -/
def write_small (U : Unicode) (pct : Int → Int → List Nat) (D : Accdata) : List Nat → Res (List Nat)
  | [] => .ok []
  | i :: is => do
    let l ← (if (D.small_class i).count > 0 then do
        let buffer ← char_to_string U STRING_SIZE false i true
        pure (write_class pct (D.small_class i) (ascii "{" ++ buffer ++ ascii "}"))
      else pure [])
    let r ← write_small U pct D is
    return l ++ r

/-- accrpt.c:354-361. -/
def write_confs (D : Accdata) : Res (List Nat) := do
  let array := Store.in_array Conf.key D.conftable
  let array ← Sort.sort array.length compare_conf array
  return ascii "\n  Errors   Marked   Correct-Generated\n" ++ array.flatMap write_conf

/-- The figures printed at the top of a report: accrpt.c:331-349. -/
def write_head (pct : Int → Int → List Nat) (D : Accdata) : List Nat :=
  TITLE ++ DIVIDER ++ write_value D.characters "Characters" ++ write_value D.errors "Errors" ++
    write_pct pct (D.characters - D.errors) D.characters ++ ascii "%  Accuracy\n\n" ++
    write_value D.reject_characters "Reject Characters" ++ write_value D.suspect_markers "Suspect Markers" ++
    write_value D.false_marks "False Marks" ++
    write_pct pct (D.reject_characters + D.suspect_markers) D.characters ++ ascii "%  Characters Marked\n" ++
    write_pct pct (D.characters - D.unmarked_ops.errors) D.characters ++ ascii "%  Accuracy After Correction\n" ++
    ascii "\n     Ins    Subst      Del   Errors\n" ++
    write_ops D.marked_ops "Marked" ++ write_ops D.unmarked_ops "Unmarked" ++ write_ops D.total_ops "Total" ++
    ascii "\n   Count   Missed   %Right\n"

/-- accrpt.c:325-371 `write_accrpt`: the contents of the file. -/
def write_accrpt (U : Unicode) (pct : Int → Int → List Nat) (D : Accdata) : Res (List Nat) := do
  let large ← write_large pct D (List.range MAX_CHARCLASSES)
  let confs ← (if D.errors > 0 then write_confs D else pure [])
  let small ← (if D.characters > 0 then do
      let s ← write_small U pct D (List.range NUM_CHARVALUES)
      pure (ascii "\n   Count   Missed   %Right\n" ++ s)
    else pure [])
  return write_head pct D ++ large ++ write_class pct D.total_class (ascii "Total") ++ confs ++ small

/-- The loop of accsum.c:41-42 (and of accdist.c, accci.c, groupacc.c): reading several reports into the same data. -/
def readAll (D : Accdata) : List (List Nat) → Res Accdata
  | [] => .ok D
  | f :: fs => do
    let D ← read_accrpt D f
    readAll D fs

/-- accsum.c:33-45, the report printed. -/
def accsum (U : Unicode) (pct : Int → Int → List Nat) (files : List (List Nat)) : Res (List Nat) :=
  if files.length < 2 then .err "not enough input files"
  else do
    let D ← readAll Accdata.zero files
    write_accrpt U pct D

end Ocr.Acc
