import Mathlib.Data.List.Sort
import Mathlib.Data.Nat.Digits.Defs
import Verif.Model.CLib
import Verif.Model.WordBreak

/-!
# Model of libexec/generate_word_break.py

The program that writes `word_break_property.h`.  Strings are byte strings (Python 2, for which the program was written).  An exception
is `.err`; then nothing is printed.  The decompression of the input is left out.
-/

namespace Ocr.Gen

/-- The white space that `strip` removes (generate_word_break.py:80, 89, 105). -/
def isspace (c : Nat) : Bool := (9 ≤ c && c ≤ 13) || c == 32

/-- generate_word_break.py:80, 89, 105 `s.strip()`. -/
def strip (s : List Nat) : List Nat := ((s.dropWhile isspace).reverse.dropWhile isspace).reverse

/-- generate_word_break.py:104-105 `s.split(';')` and `s.split('#')`. -/
def split (c : Nat) : List Nat → List (List Nat)
  | [] => [[]]
  | x :: s =>
    if x = c then [] :: split c s
    else match split c s with
      | [] => [[x]]
      | p :: ps => (x :: p) :: ps

/-- generate_word_break.py:89 `s.split('..')`. -/
def splitDots : List Nat → List (List Nat)
  | [] => [[]]
  | [x] => [[x]]
  | x :: y :: s =>
    if x = 46 ∧ y = 46 then [] :: splitDots s
    else match splitDots (y :: s) with
      | [] => [[x]]
      | p :: ps => (x :: p) :: ps

/-- generate_word_break.py:111 `for line in word_break_file`: the lines, with their newlines. -/
def fileLines : List Nat → List (List Nat)
  | [] => []
  | x :: s =>
    if x = 10 then [10] :: fileLines s
    else match fileLines s with
      | [] => [[x]]
      | l :: ls => (x :: l) :: ls

/-- A hexadecimal digit (generate_word_break.py:90). -/
def hexDigit (c : Nat) : Option Nat :=
  if 48 ≤ c ∧ c ≤ 57 then some (c - 48)
  else if 65 ≤ c ∧ c ≤ 70 then some (c - 55)
  else if 97 ≤ c ∧ c ≤ 102 then some (c - 87)
  else none

/-- One more digit of a number (generate_word_break.py:90). -/
def addDigit (n c : Nat) : Res Nat := match hexDigit c with
  | some d => .ok (16 * n + d)
  | none => .err "ValueError"

/-- generate_word_break.py:90 `int(string, base=16)`.  Simplified: a sign or `0x` is refused. -/
def int16 (string : List Nat) : Res Nat :=
  let s := strip string
  if s = [] then .err "ValueError"
  else s.foldlM addDigit 0

/-- A range and its category (generate_word_break.py:108). -/
structure Value where
  start    : Nat
  stop     : Nat
  category : List Nat
  deriving DecidableEq

/-- generate_word_break.py:79-80 `blank_or_comment`. -/
def blank_or_comment (line : List Nat) : Bool := line.head? = some 35 || (strip line).length = 0

/-- generate_word_break.py:82-98 `parse_range`. -/
def parse_range (text : List Nat) : Res (Nat × Nat) :=
  match (splitDots (strip text)).take 2 with
  | [a, b] => do
    let start ← int16 a
    let stop ← int16 b
    return (start, stop)
  | [a] => do
    let start ← int16 a
    return (start, start)
  | _ => .err "AssertionError"

/-- generate_word_break.py:100-108 `parse_line`. -/
def parse_line (line : List Nat) : Res (Option Value) :=
  if blank_or_comment line then .ok none
  else match (split 59 line).take 2 with
    | [cp_range, cat_and_comment] => do
      let category := strip ((split 35 cat_and_comment).headD [])
      let (start, stop) ← parse_range cp_range
      return some ⟨start, stop, category⟩
    | _ => .err "ValueError"

/-- generate_word_break.py:110-116 `parse_lines`. -/
def parse_lines : List (List Nat) → Res (List Value)
  | [] => .ok []
  | line :: lines => do
    let contents ← parse_line line
    let values ← parse_lines lines
    return match contents with
      | none => values
      | some v => v :: values

/-- generate_word_break.py:28-31 `PROLOGUE`. -/
def PROLOGUE : List Nat := ascii "/* AUTOGENERATED FILE! DO NOT MODIFY.\n * See Supplement/generate_word_break.py */\n"

/-- generate_word_break.py:33-38 `STRUCT_DEF`. -/
def STRUCT_DEF : List Nat := ascii "typedef struct {\n    Charvalue start, end;\n    wb_property value;\n} wb_range;\n"

/-- generate_word_break.py:52-72 `CATEGORY_NAMES`. -/
def CATEGORY_NAMES : List (List Nat) :=
  ["Other", "CR", "LF", "Newline", "Extend", "Regional_Indicator", "Format", "Katakana", "Hebrew_Letter", "ALetter", "Single_Quote",
    "Double_Quote", "MidNumLet", "MidLetter", "MidNum", "Numeric", "ExtendNumLet", "sot", "eot"].map ascii

/-- generate_word_break.py:139, 149 `',\n    '.join(...)`. -/
def join (strings : List (List Nat)) : List Nat := List.intercalate (ascii ",\n    ") strings

/-- generate_word_break.py:138-140 `generate_enum`, with `ENUM_TEMP` (40-44) and `enum_name` (130-136). -/
def generate_enum (name : List Nat) (categories : List (List Nat)) : List Nat :=
  ascii "typedef enum {\n    " ++ join categories ++ ascii "\n} " ++ name ++ ascii ";\n"

/-- A hexadecimal digit of `%X` (generate_word_break.py:145). -/
def hexChar (d : Nat) : Nat := if d < 10 then 48 + d else 55 + d

/-- `%0wX` (generate_word_break.py:145). -/
def hex (w n : Nat) : List Nat :=
  let s := ((Nat.digits 16 n).map hexChar).reverse
  List.replicate (w - s.length) 48 ++ s

/-- generate_word_break.py:142-146 `generate_literal`. -/
def generate_literal (v : Value) : List Nat :=
  let w := if v.stop > 0xffff then 6 else 4
  ascii "{0x" ++ hex w v.start ++ ascii ", 0x" ++ hex w v.stop ++ ascii ", " ++ v.category ++ ascii "}"

/-- generate_word_break.py:148-150 `generate_table`, with `TABLE_TEMP` (46-50). -/
def generate_table (values : List Value) : List Nat :=
  ascii "static const wb_range WORD_BREAK_PROPERTY[] = {\n    " ++ join (values.map generate_literal) ++ ascii "\n};\n"

/-- generate_word_break.py:120 `values.sort(key=lambda c: c[0][0])`.  Every stable sort gives the same list. -/
def sorted (values : List Value) : List Value := values.insertionSort (fun a b => a.start ≤ b.start)

/-- generate_word_break.py:118-128 `to_c_header`: what is yielded, one after the other. -/
def to_c_header (values : List Value) : Res (List Nat) :=
  if values.all (fun v => CATEGORY_NAMES.contains v.category) then
    .ok (PROLOGUE ++ [10] ++ generate_enum (ascii "wb_property") CATEGORY_NAMES ++ [10] ++ STRUCT_DEF ++ [10] ++ generate_table (sorted values))
  else .err "AssertionError"

/-- generate_word_break.py:152-157: the main program for the decompressed file. -/
def main (word_break_file : List Nat) : Res (List Nat) := do
  let big_list ← parse_lines (fileLines word_break_file)
  to_c_header big_list

end Ocr.Gen
