import Mathlib.Data.Nat.Digits.Defs
import Verif.Model.CLib
import Verif.Spec.Word

/-!
# The format of WordBreakProperty.txt and of word_break_property.h
-/

namespace Ocr.Gen
open Word

/-- A hexadecimal digit and its value. -/
def IsDigit (c d : Nat) : Prop := (c = 48 + d ∧ d < 10) ∨ (c = 55 + d ∧ 10 ≤ d ∧ d < 16) ∨ (c = 87 + d ∧ 10 ≤ d ∧ d < 16)

/-- A number in hexadecimal notation. -/
def HexText (s : List Nat) (n : Nat) : Prop := s ≠ [] ∧ ∃ ds, List.Forall₂ IsDigit s ds ∧ n = Nat.ofDigits 16 ds.reverse

/-- The name of a property. -/
def nameOf : WB → List Nat
  | .Other => ascii "Other" | .CR => ascii "CR" | .LF => ascii "LF" | .Newline => ascii "Newline" | .Extend => ascii "Extend"
  | .Regional_Indicator => ascii "Regional_Indicator" | .Format => ascii "Format" | .Katakana => ascii "Katakana"
  | .Hebrew_Letter => ascii "Hebrew_Letter" | .ALetter => ascii "ALetter" | .Single_Quote => ascii "Single_Quote"
  | .Double_Quote => ascii "Double_Quote" | .MidNumLet => ascii "MidNumLet" | .MidLetter => ascii "MidLetter" | .MidNum => ascii "MidNum"
  | .Numeric => ascii "Numeric" | .ExtendNumLet => ascii "ExtendNumLet" | .sot => ascii "sot" | .eot => ascii "eot"

/-- White space within a line: spaces, tabs, vertical tabs, form feeds and carriage returns. -/
def Blank (s : List Nat) : Prop := ∀ c ∈ s, c = 32 ∨ c = 9 ∨ c = 11 ∨ c = 12 ∨ c = 13

/-- One code point, or the first and the last one of a range. -/
def RangeText (s : List Nat) (start stop : Nat) : Prop :=
  (HexText s start ∧ stop = start) ∨ ∃ a b, s = a ++ ascii ".." ++ b ∧ HexText a start ∧ HexText b stop

/-- A line that assigns a category to a range: `0041..005A    ; ALetter # L&  [26] ...`. -/
def EntryLine (line : List Nat) (start stop : Nat) (category : List Nat) : Prop :=
  ∃ w0 range w1 w2 w3 comment, line = w0 ++ range ++ w1 ++ ascii ";" ++ w2 ++ category ++ w3 ++ comment ∧
    Blank w0 ∧ Blank w1 ∧ Blank w2 ∧ Blank w3 ∧ RangeText range start stop ∧ (comment = [] ∨ comment.head? = some 35)

/-- A line without an entry. -/
def SkipLine (line : List Nat) : Prop := Blank line ∨ line.head? = some 35

/-- The lines of a file; the newline after the last one may be missing. -/
def IsLines (file : List Nat) (lines : List (List Nat)) : Prop :=
  (∀ l ∈ lines, 10 ∉ l) ∧ (file = lines.flatMap (· ++ [10]) ∨
    ∃ first last, lines = first ++ [last] ∧ last ≠ [] ∧ file = first.flatMap (· ++ [10]) ++ last)

/-- The entries of a file, in order. -/
inductive Holds : List (List Nat) → List Range → Prop
  | nil : Holds [] []
  | skip (line : List Nat) (lines : List (List Nat)) (rs : List Range) : SkipLine line → Holds lines rs → Holds (line :: lines) rs
  | entry (line : List Nat) (lines : List (List Nat)) (r : Range) (rs : List Range) :
      EntryLine line r.start r.stop (nameOf r.value) → Holds lines rs → Holds (line :: lines) (r :: rs)

/-- An element of the table in C. -/
def Literal (r : Range) (s : List Nat) : Prop :=
  ∃ a b, s = ascii "{0x" ++ a ++ ascii ", 0x" ++ b ++ ascii ", " ++ nameOf r.value ++ ascii "}" ∧ HexText a r.start ∧ HexText b r.stop

/-- Elements of a list in C. -/
def Listed (l : List (List Nat)) : List Nat := List.intercalate (ascii ",\n    ") l

/-- A header that defines the type of the properties and this table. -/
def IsHeader (text : List Nat) (table : List Range) : Prop :=
  ∃ literals, List.Forall₂ Literal table literals ∧
    text = ascii "/* AUTOGENERATED FILE! DO NOT MODIFY.\n * See Supplement/generate_word_break.py */\n\n" ++
      ascii "typedef enum {\n    " ++ Listed ([.Other, .CR, .LF, .Newline, .Extend, .Regional_Indicator, .Format, .Katakana, .Hebrew_Letter,
        .ALetter, .Single_Quote, .Double_Quote, .MidNumLet, .MidLetter, .MidNum, .Numeric, .ExtendNumLet, .sot, .eot].map nameOf) ++
      ascii "\n} wb_property;\n\n" ++
      ascii "typedef struct {\n    Charvalue start, end;\n    wb_property value;\n} wb_range;\n\n" ++
      ascii "static const wb_range WORD_BREAK_PROPERTY[] = {\n    " ++ Listed literals ++ ascii "\n};\n"

/-- No code point is in two ranges. -/
def Disjoint (rs : List Range) : Prop :=
  (∀ r ∈ rs, r.start ≤ r.stop) ∧ rs.Pairwise (fun r s => ∀ v, ¬ ((r.start ≤ v ∧ v ≤ r.stop) ∧ s.start ≤ v ∧ v ≤ s.stop))

end Ocr.Gen
