import Mathlib.Data.Nat.Digits.Defs
import Verif.Model.CLib
import Verif.Model.Text
import Verif.Spec.Utf8

/-!
# How a character is shown
-/

namespace Ocr.Text

/-- A combining mark: one of the three categories "M". -/
def Mark (U : Unicode) (v : Nat) : Prop := U.cat v = .MN ∨ U.cat v = .MC ∨ U.cat v = .ME

/-- A character that can be seen on paper, or the space; not: unassigned, separators, control and format characters, surrogates. -/
def Printable (U : Unicode) (v : Nat) : Prop :=
  v = 32 ∨ ¬ (U.cat v = .CN ∨ U.cat v = .ZS ∨ U.cat v = .ZL ∨ U.cat v = .ZP ∨ U.cat v = .CC ∨ U.cat v = .CF ∨ U.cat v = .CS)

/-- An upper-case hexadecimal digit and its value. -/
def UpperDigit (c d : Nat) : Prop := (c = 48 + d ∧ d < 10) ∨ (c = 55 + d ∧ 10 ≤ d ∧ d < 16)

/-- A number in hexadecimal notation, with leading zeros only up to the width. -/
def UpperHex (width n : Nat) (s : List Nat) : Prop :=
  ∃ ds, List.Forall₂ UpperDigit s ds ∧ n = Nat.ofDigits 16 ds.reverse ∧ s.length = max width (Nat.digits 16 n).length

/-- The text by which a character is shown: itself, a mark on a dotted circle, and a number in brackets for all that is not printable. -/
inductive Shown (U : Unicode) (fake : Bool) (v : Nat) : List Nat → Prop
  | newline : v = 10 → fake = false → Shown U fake v [10]
  | fake : v = 10 → fake = true → Shown U fake v (ascii "<\\n>")
  | plain (c : Char) : v ≠ 10 → Printable U v → ¬ Mark U v → c.toNat = v → Shown U fake v (utf8 [c])
  | mark (c : Char) : v ≠ 10 → Printable U v → Mark U v → c.toNat = v → Shown U fake v (utf8 ['◌', c])
  | number (s : List Nat) : v ≠ 10 → ¬ Printable U v → UpperHex (if v < 256 then 2 else 4) v s →
      Shown U fake v (ascii "<" ++ s ++ ascii ">")

/-- A character with the marker for suspect ones. -/
def ShownCh (U : Unicode) (fake : Bool) (c : Ch) (s : List Nat) : Prop :=
  ∃ t, Shown U fake c.value t ∧ s = (if c.suspect then ascii "^" else []) ++ t

end Ocr.Text
