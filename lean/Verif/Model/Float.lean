import Verif.Model.Stdio
import Mathlib.Data.Int.Log
import Mathlib.Data.Rat.Floor

/-!
# Model of floating point arithmetic

The C code computes with `float` and `double` (vote.c:55, 67, 203, dist.c:34, accrpt.c:273, wacrpt.c:162, groupacc.c:45,
nonstopacc.c:56).  They are the binary formats of IEEE 754 with a precision of 24 and 53 bits, rounding to the nearest value, ties to
the even one; every operation yields the rounded exact result.  Values are rational numbers: a zero has no sign.  Exponents are
unbounded: the values computed are zero or between 2^-57 and 2^70 in size (`c78_range`), hence there is neither overflow nor underflow.
-/

namespace Ocr.Fp

/-- The nearest integer, the even one if there are two (IEEE 754, as used by dist.c:38). -/
def nearest (x : ℚ) : ℤ :=
  if x - ⌊x⌋ < 1 / 2 then ⌊x⌋
  else if 1 / 2 < x - ⌊x⌋ then ⌊x⌋ + 1
  else if ⌊x⌋ % 2 = 0 then ⌊x⌋
  else ⌊x⌋ + 1

/-- The exponent of the last of `p` bits of `x` (IEEE 754, as used by dist.c:38). -/
def scale (p : Nat) (x : ℚ) : ℤ := Int.log 2 |x| + 1 - p

/-- The nearest value with `p` bits (IEEE 754, as used by dist.c:38). -/
def rnd (p : Nat) (x : ℚ) : ℚ := nearest (x / 2 ^ scale p x) * 2 ^ scale p x

/-- `LONG_MIN` and `LONG_MAX` bound the counters (for instance accrpt.h:52-53); other integers, which the C code cannot hold, are
replaced by the bound. -/
def toLong (n : ℤ) : ℤ := max (-2 ^ 63) (min n (2 ^ 63 - 1))

/-- The conversion of a `long` to `double` (for instance dist.c:38). -/
def ofLong (n : ℤ) : ℚ := rnd 53 (toLong n)

/-- `100.0 * n / d` (dist.c:38, 55, accrpt.c:273, wacrpt.c:162, groupacc.c:45, nonstopacc.c:56, accci.c:54, wordaccci.c:55), for a
denominator that is not zero. -/
def percent (n d : ℤ) : ℚ := rnd 53 (rnd 53 (100 * ofLong n) / ofLong d)

/-- `printf("%<w>.<k>f", x)` (accrpt.c:273, vote.c:239): `x` is rounded to the nearest decimal fraction with `k` digits. -/
def fmtFixed (w k : Nat) (x : ℚ) : List Nat :=
  let r := (nearest (|x| * 10 ^ k)).toNat
  let frac := decDigits (r % 10 ^ k)
  let s := (if x < 0 then [45] else []) ++ decDigits (r / 10 ^ k) ++ [46] ++ List.replicate (k - frac.length) 48 ++ frac
  List.replicate (w - s.length) 32 ++ s

/-- `printf("%<w>.2f", 100.0 * n / d)` (dist.c:54-55, accrpt.c:273, wacrpt.c:162, groupacc.c:45, nonstopacc.c:56, accci.c:53-54,
wordaccci.c:54-55).  Division by zero yields an infinity or a NaN; `negative` tells whether the NaN has a sign. -/
def pctText (negative : Bool) (w : Nat) (n d : ℤ) : List Nat :=
  if d = 0 then
    let s := if 0 < n then ascii "inf" else if n < 0 then ascii "-inf" else if negative then ascii "-nan" else ascii "nan"
    List.replicate (w - s.length) 32 ++ s
  else fmtFixed w 2 (percent n d)

end Ocr.Fp
