import Verif.Model.Text
import Mathlib.Data.Nat.Digits.Defs

/-!
# Numerals as sscanf reads them

White space, a sign, a prefix and digits, as in the description of `%ld` and `%x` in the C standard.  The value is that of
`Nat.ofDigits` of Mathlib.  Nothing here is taken from the model.
-/

namespace Ocr.Numerals

/-- White space in the C locale. -/
def Spaces (s : List Nat) : Prop := ∀ b ∈ s, b ∈ ascii " \t\n" ++ [11, 12, 13]

/-- The digit with value `v` is one of these. -/
def digit (base v b : Nat) : Prop := v < base ∧ ((ascii "0123456789abcdef")[v]? = some b ∨ (ascii "0123456789ABCDEF")[v]? = some b)

/-- The digits `ds` have the values `vs`. -/
def Digits (base : Nat) (vs ds : List Nat) : Prop := List.Forall₂ (digit base) vs ds

/-- The value of digits with the values `vs`, the first one most significant. -/
def value (base : Nat) (vs : List Nat) : Nat := Nat.ofDigits base vs.reverse

/-- No digit comes next. -/
def Ended (base : Nat) (s : List Nat) : Prop := ∀ b t, s = b :: t → ∀ v, ¬ digit base v b

/-- The sign and the factor it stands for. -/
def Sign (s : List Nat) (f : Int) : Prop := (s = [] ∧ f = 1) ∨ (s = ascii "+" ∧ f = 1) ∨ (s = ascii "-" ∧ f = -1)

/-- `s` begins with the decimal number `v`, and `rest` follows. -/
def Decimal (s : List Nat) (v : Int) (rest : List Nat) : Prop :=
  ∃ ws sg vs ds f, s = ws ++ sg ++ ds ++ rest ∧ Spaces ws ∧ Sign sg f ∧ ds ≠ [] ∧ Digits 10 vs ds ∧ Ended 10 rest ∧ v = f * value 10 vs

/-- `s` begins with a hexadecimal number of `n` bytes, with white space, sign and prefix, that is `v` modulo `2 ^ 32`. -/
def Hexadecimal (s : List Nat) (v n : Nat) : Prop :=
  ∃ ws sg px vs ds rest f, s = ws ++ sg ++ px ++ ds ++ rest ∧ n = (ws ++ sg ++ px ++ ds).length ∧ Spaces ws ∧ Sign sg f ∧
    (px = ascii "0x" ∨ px = ascii "0X" ∨ px = [] ∧ ¬ ascii "0x" <+: ds ++ rest ∧ ¬ ascii "0X" <+: ds ++ rest) ∧
    ds ≠ [] ∧ Digits 16 vs ds ∧ Ended 16 rest ∧ (v : Int) = (f * value 16 vs) % 2 ^ 32

/-- The number `v` printed right-justified in at least `w` columns: spaces, a minus sign for negative numbers, digits without
superfluous zeros. -/
def Printed (w : Nat) (v : Int) (s : List Nat) : Prop :=
  ∃ k sg vs ds, s = List.replicate k 32 ++ sg ++ ds ∧ ds ≠ [] ∧ Digits 10 vs ds ∧ sg = (if v < 0 then ascii "-" else []) ∧
    value 10 vs = v.natAbs ∧ (ds.head? = some 48 → ds = ascii "0") ∧ k = w - (sg ++ ds).length

end Ocr.Numerals
