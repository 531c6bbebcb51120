import Verif.Model.Text

/-!
# The parts of printf and sscanf used for reports

The C library is not part of /repo; these follow the C standard for the conversions used (`%ld`, `%8ld`, `%x`) in the C
locale.  Overflow of the number read is not modelled for `%ld`; `%x` stores the value modulo 2^32.
-/

namespace Ocr

/-- `isspace` in the C locale (for `sscanf` at accrpt.c:102, 117, 135). -/
def isspace (b : Nat) : Bool := b = 32 || (9 ≤ b && b ≤ 13)

/-- Is this a decimal digit? (for `sscanf` at accrpt.c:102, 117, 135) -/
def isdigit (b : Nat) : Bool := 48 ≤ b && b ≤ 57

/-- Value of a digit string, most significant digit first (for `sscanf` at accrpt.c:102, 117, 135). -/
def decVal (ds : List Nat) : Nat := ds.foldl (fun v d => 10 * v + (d - 48)) 0

/-- An optional sign: is it a minus, its length, the rest (for `sscanf` at accrpt.c:102, 117, 135). -/
def scanSign : List Nat → Bool × Nat × List Nat
  | [] => (false, 0, [])
  | b :: t => if b = 45 then (true, 1, t) else if b = 43 then (false, 1, t) else (false, 0, b :: t)

/-- `sscanf("%ld")`: the number and the bytes after it; `none` if there is no number
(accrpt.c:102, 117, 135, edorpt.c:47, 61, wacrpt.c:76, 84). -/
def scanLong (s : List Nat) : Option (Int × List Nat) :=
  let (neg, _, s) := scanSign (s.dropWhile isspace)
  let ds := s.takeWhile isdigit
  if ds = [] then none
  else some (if neg then - (decVal ds : Int) else decVal ds, s.dropWhile isdigit)

/-- Value of a hexadecimal digit (for `sscanf` at accrpt.c:167). -/
def hexVal? (b : Nat) : Option Nat :=
  if 48 ≤ b ∧ b ≤ 57 then some (b - 48)
  else if 65 ≤ b ∧ b ≤ 70 then some (b - 55)
  else if 97 ≤ b ∧ b ≤ 102 then some (b - 87)
  else none

/-- The hexadecimal digits at the start of a string: accumulated value, number of digits (for `sscanf` at accrpt.c:167). -/
def scanHexDigits : (acc n : Nat) → List Nat → Nat × Nat
  | acc, n, [] => (acc, n)
  | acc, n, b :: s =>
    match hexVal? b with
    | some d => scanHexDigits (16 * acc + d) (n + 1) s
    | none => (acc, n)

/-- An optional `0x`: its length, the rest (for `sscanf` at accrpt.c:167). -/
def scanPrefix : List Nat → Nat × List Nat
  | a :: b :: t => if a = 48 ∧ (b = 120 ∨ b = 88) then (2, t) else (0, a :: b :: t)
  | s => (0, s)

/-- `sscanf("%x%n")`: the value stored and the number of bytes consumed; `none` if there is no number (accrpt.c:167). -/
def scanHex (s : List Nat) : Option (Nat × Nat) :=
  let ws := (s.takeWhile isspace).length
  let (neg, sg, s) := scanSign (s.dropWhile isspace)
  let (px, s) := scanPrefix s
  let (v, n) := scanHexDigits 0 0 s
  if n = 0 then none
  else some ((if neg then 2^32 - v % 2^32 else v) % 2^32, ws + sg + px + n)

/-- Decimal digits of a natural number (for `fprintf` at accrpt.c:262, 282, 294, 310). -/
def decDigits (v : Nat) : List Nat :=
  if v < 10 then [48 + v] else decDigits (v / 10) ++ [48 + v % 10]

/-- `printf("%ld")` (synctext.c:120). -/
def fmtInt (v : Int) : List Nat :=
  if v < 0 then 45 :: decDigits v.natAbs else decDigits v.natAbs

/-- `printf("%<w>ld")`: right-justified in at least `w` columns (accrpt.c:262, 282, 294, 310, edorpt.c:94, 102, wacrpt.c:172, 244-245). -/
def fmtLong (w : Nat) (v : Int) : List Nat :=
  List.replicate (w - (fmtInt v).length) 32 ++ fmtInt v

end Ocr
