import Verif.Model.Text
import Mathlib.Data.List.Chain

/-!
# Specifications for text.c, independent of the way the loops work
-/

namespace Ocr.Text

/-- C07.  The characters denoted by a file with marker character `m`, given the character that precedes `cs` (if any):
every position holding a character other than the marker yields that character, suspect exactly if
the position before it holds the marker. -/
def markedFrom (m : Nat) (before : Option Nat) (cs : List Nat) : List Ch :=
  (List.zip (before :: cs.map some) cs).filterMap
    (fun (prev, c) => if c = m then none else some ⟨prev = some m, c⟩)

def marked (m : Nat) (cs : List Nat) : List Ch := markedFrom m none cs

/-! ## Spacing -/

/-- Is this value blank, before or after normalization? -/
def blankish (U : Unicode) (v : Nat) : Prop := v = BLANK ∨ is_blank U v = true

/-- A gap: a stretch of blanks and newlines. -/
def Gap (U : Unicode) (g : List Ch) : Prop := ∀ c ∈ g, blankish U c.value ∨ c.value = NEWLINE

/-- A visible character. -/
def Visible (U : Unicode) (c : Ch) : Prop := ¬ blankish U c.value ∧ c.value ≠ NEWLINE

/-- What a gap between two visible characters becomes: its first newline if it has one; otherwise one blank, which
is suspect if some blank of the gap was; nothing if the gap is empty. -/
def innerGap (g : List Ch) : List Ch :=
  match g.find? (fun c => c.value = NEWLINE) with
  | some nl => [nl]
  | none => if g = [] then [] else [⟨g.any (·.suspect), BLANK⟩]

/-- What the gap at the end of the text becomes: its first newline, if any. -/
def finalGap (g : List Ch) : List Ch := (g.find? (fun c => c.value = NEWLINE)).toList

/-- The normal form of the text consisting of visible characters, each followed by a gap. -/
def normalized : List (Ch × List Ch) → List Ch
  | [] => []
  | [(c, g)] => c :: finalGap g
  | (c, g) :: rest => c :: innerGap g ++ normalized rest

/-- The text with leading gap `g0` and visible characters followed by gaps. -/
def assemble (g0 : List Ch) (parts : List (Ch × List Ch)) : List Ch :=
  g0 ++ parts.flatMap (fun (c, g) => c :: g)

/-- Spacing is in normal form: no blank other than U+0020; the text starts with a visible character; so does
everything after a newline or a blank (hence no line starts or ends with a blank, no two blanks are adjacent, and no
line is empty); the text does not end with a blank. -/
structure NormalForm (U : Unicode) (cs : List Ch) : Prop where
  only_blank : ∀ c ∈ cs, blankish U c.value → c.value = BLANK
  start      : ∀ c ∈ cs.head?, Visible U c
  chain      : cs.IsChain (fun c d => c.value = NEWLINE ∨ c.value = BLANK → d.value ≠ BLANK ∧ d.value ≠ NEWLINE)
  stop       : ∀ c ∈ cs.getLast?, c.value ≠ BLANK

/-! ## Facts about Unicode used by some properties -/

/-- Facts about general categories that hold in every version of Unicode: NUL and the surrogates are not graphic,
no ASCII character is a combining mark. -/
structure UnicodeFacts (U : Unicode) : Prop where
  nul       : is_graphic U 0 = false
  surrogate : ∀ v, 0xD800 ≤ v → v < 0xE000 → is_graphic U v = false
  ascii     : ∀ v, v < 0x80 → is_combining U v = false

end Ocr.Text
