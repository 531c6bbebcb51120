import Verif.Model.Stdio

/-!
# The parts shared by the report readers and writers

edorpt.c, accrpt.c and wacrpt.c each have their own copies of the small reading routines; they are identical.
-/

namespace Ocr.Report
open Text

/-- edorpt.c:36-40, accrpt.c:91-95, wacrpt.c:65-69 `read_line`: `fgets` with `sizeof(line) - 1 = 99` stores at most 98
bytes.  The line is returned as a C string. -/
def read_line (file : List Nat) : Option (List Nat × List Nat) :=
  (fgets 98 file).map (fun p => (cstr p.1, p.2))

/-- `sscanf(line, "%ld ... %ld", ...)` (accrpt.c:102, 117, 135; edorpt.c:47, 61; wacrpt.c:76, 84) with `n` conversions, all of them successful. -/
def scanLongs : (n : Nat) → List Nat → Option (List Int)
  | 0, _ => some []
  | n + 1, s => do
    let (v, s) ← scanLong s
    let vs ← scanLongs n s
    some (v :: vs)

/-- A line starting with a number (edorpt.c:43-54, accrpt.c:98-109 `read_value` without the addition; wacrpt.c:72-77
`read_one`). -/
def read_value (file : List Nat) : Option (Int × List Nat) := do
  let (line, file) ← read_line file
  match scanLongs 1 line with
  | some [v] => some (v, file)
  | _ => none

/-- edorpt.c:57-63, accrpt.c:131-137, wacrpt.c:80-86 `read_two`; the line is returned too. -/
def read_two (file : List Nat) : Option ((Int × Int × List Nat) × List Nat) := do
  let (line, file) ← read_line file
  match scanLongs 2 line with
  | some [v, w] => some ((v, w, line), file)
  | _ => none

/-- `read_line(f) && ... && read_line(f)`, `n` times (accrpt.c:226, 230; edorpt.c:79). -/
def skip_lines : (n : Nat) → List Nat → Option (List Nat)
  | 0, file => some file
  | n + 1, file => do
    let (_, file) ← read_line file
    skip_lines n file

/-- `read_line(f) && strncmp(line, TITLE, sizeof(TITLE) - 3) == 0 && read_line(f) && strcmp(line, DIVIDER) == 0`
(accrpt.c:222-223, edorpt.c:73-74, wacrpt.c:131-132): the
last two characters of the title are not compared. -/
def read_title (title divider : List Nat) (file : List Nat) : Option (List Nat) := do
  let (line, file) ← read_line file
  if line.take (title.length - 2) = title.take (title.length - 2) then
    let (line, file) ← read_line file
    if line = divider then some file else none
  else none

/-- `fprintf(f, "%8ld   %s\n", value, string)`: edorpt.c:89-95, accrpt.c:257-263 `write_value`. -/
def write_value (value : Int) (string : String) : List Nat := fmtLong 8 value ++ ascii "   " ++ ascii string ++ [10]

/-- A C `long` (accrpt.h:58-79). -/
def IsLong (v : Int) : Prop := -2^63 ≤ v ∧ v < 2^63

end Ocr.Report
