import Verif.Model.Stdio
import Mathlib.Algebra.Order.Ring.Rat

/-!
# How a percentage should be printed
-/

namespace Ocr.Fp

/-- `s` is `h` hundredths with two decimals, with a sign if `neg`, preceded by blanks to fill `w` columns. -/
def Hundredths (w : Nat) (neg : Bool) (h : Nat) (s : List Nat) : Prop :=
  ∃ k a b c : Nat, s = List.replicate k 32 ++ (if neg then [45] else []) ++ decDigits a ++ [46, 48 + b, 48 + c] ∧
    b < 10 ∧ c < 10 ∧ h = 100 * a + 10 * b + c ∧ w ≤ s.length ∧ (k = 0 ∨ s.length = w)

/-- `s` is a nearest number of hundredths to `x`. -/
def ToHundredths (w : Nat) (x : ℚ) (s : List Nat) : Prop :=
  ∃ h, Hundredths w (decide (x < 0)) h s ∧ |100 * |x| - h| ≤ 1 / 2

end Ocr.Fp
