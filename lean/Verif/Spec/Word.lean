import Verif.Model.Word

/-!
# Specifications for word.c, independent of the way the loops work

The rules of UAX #29 (Unicode 8.0) are written as data: a rule `left × right` forbids a boundary after a context matching
`left` (given from the boundary backwards) and before a context matching `right`.
-/

namespace Ocr.Word
open WB

/-- C37.  A table of disjoint ranges in ascending order. -/
def SortedTable (table : List Range) : Prop :=
  (∀ r ∈ table, r.start ≤ r.stop) ∧ table.Pairwise (fun r s => r.stop < s.start)

/-- C37.  The property a table assigns to a code point. -/
def Assigned (table : List Range) (v : Nat) (p : WB) : Prop :=
  (∃ r ∈ table, r.start ≤ v ∧ v ≤ r.stop ∧ p = r.value) ∨
    ((∀ r ∈ table, ¬ (r.start ≤ v ∧ v ≤ r.stop)) ∧ p = Other)

/-! ## Boundary rules -/

structure Rule where
  left  : List (List WB)
  right : List (List WB)

def ahLetter : List WB := [ALetter, Hebrew_Letter]
def midNumLetQ : List WB := [MidNumLet, Single_Quote]

/-- WB5 to WB13c. -/
def rules : List Rule := [
  ⟨[ahLetter], [ahLetter]⟩,                                              -- WB5
  ⟨[ahLetter], [MidLetter :: midNumLetQ, ahLetter]⟩,                     -- WB6
  ⟨[MidLetter :: midNumLetQ, ahLetter], [ahLetter]⟩,                     -- WB7
  ⟨[[Hebrew_Letter]], [[Single_Quote]]⟩,                                 -- WB7a
  ⟨[[Hebrew_Letter]], [[Double_Quote], [Hebrew_Letter]]⟩,                -- WB7b
  ⟨[[Double_Quote], [Hebrew_Letter]], [[Hebrew_Letter]]⟩,                -- WB7c
  ⟨[[Numeric]], [[Numeric]]⟩,                                            -- WB8
  ⟨[ahLetter], [[Numeric]]⟩,                                             -- WB9
  ⟨[[Numeric]], [ahLetter]⟩,                                             -- WB10
  ⟨[MidNum :: midNumLetQ, [Numeric]], [[Numeric]]⟩,                      -- WB11
  ⟨[[Numeric]], [MidNum :: midNumLetQ, [Numeric]]⟩,                      -- WB12
  ⟨[[Katakana]], [[Katakana]]⟩,                                          -- WB13
  ⟨[[ALetter, Hebrew_Letter, Numeric, Katakana, ExtendNumLet]], [[ExtendNumLet]]⟩,  -- WB13a
  ⟨[[ExtendNumLet]], [[ALetter, Hebrew_Letter, Numeric, Katakana, ExtendNumLet]]⟩,  -- WB13b
  ⟨[[Regional_Indicator]], [[Regional_Indicator]]⟩]                      -- WB13c

/-- A context matches a pattern if each of its first properties is in the corresponding class. -/
def matchesCtx : List (List WB) → List WB → Bool
  | [], _ => true
  | _ :: _, [] => false
  | c :: cs, p :: ps => c.contains p && matchesCtx cs ps

/-- Does one of the rules WB5 to WB13c forbid a boundary between the contexts? -/
def forbidden (L R : List WB) : Bool := rules.any (fun r => matchesCtx r.left L && matchesCtx r.right R)

def isNewline (p : WB) : Bool := p == CR || p == LF || p == Newline
def isExt (p : WB) : Bool := p == Extend || p == Format

/-- WB3, WB3a, WB3b and WB5 to WB14: is there a boundary between the contexts?  (No boundary is reported at the start and
the end of the text.) -/
def boundary (L R : List WB) : Bool :=
  match L, R with
  | l :: _, r :: _ =>
    if l = CR ∧ r = LF then false
    else if isNewline l ∨ isNewline r then true
    else !forbidden L R
  | _, _ => false

/-- C36.  The rules with all Extend and Format characters skipped: is there a boundary between two parts of a text? -/
def SkipBreak (prop : Nat → WB) (before after : List Nat) : Bool :=
  !(isExt ((after.map prop).headD Other)) &&
    boundary (((before.map prop).filter (fun p => !isExt p)).reverse) ((after.map prop).filter (fun p => !isExt p))

/-- WB4 as in UAX #29: Extend and Format characters are ignored except after the start of the text, CR, LF and Newline. -/
def collapse : (prev : Option WB) → List WB → List WB
  | _, [] => []
  | none, p :: ps => p :: collapse (some p) ps
  | some q, p :: ps => if isExt p && !isNewline q then collapse (some q) ps else p :: collapse (some p) ps

/-- C36.  UAX #29: WB3, WB3a and WB3b look at the adjacent characters, WB4 forbids a boundary before Extend and Format, the
other rules look at the collapsed contexts. -/
def UaxBreak (prop : Nat → WB) (before after : List Nat) : Bool :=
  match (before.map prop).getLast?, (after.map prop).head? with
  | some l, some r =>
    if l = CR ∧ r = LF then false
    else if isNewline l ∨ isNewline r then true
    else if isExt r then false
    else !forbidden (collapse none (before.map prop)).reverse (collapse none (after.map prop))
  | _, _ => false

/-- There is a cut between `before` and `after`. -/
def Cut (segs : List (List Nat)) (before after : List Nat) : Prop :=
  ∃ s1 s2, segs = s1 ++ s2 ∧ s1.flatten = before ∧ s2.flatten = after

/-- `segs` cuts the text at exactly the places where there is a boundary. -/
structure CutAt (brk : List Nat → List Nat → Bool) (text : List Nat) (segs : List (List Nat)) : Prop where
  whole    : segs.flatten = text
  nonempty : ∀ s ∈ segs, s ≠ []
  cut      : ∀ before after, before ++ after = text → before ≠ [] → after ≠ [] →
    (Cut segs before after ↔ brk before after = true)

/-- The text has no Extend or Format character at its start or directly after CR, LF or Newline. -/
def Attached (prop : Nat → WB) (text : List Nat) : Prop :=
  ∀ before v after, text = before ++ v :: after → isExt (prop v) = true →
    ∃ w, before.getLast? = some w ∧ isNewline (prop w) = false

/-- The general categories that may start a word. -/
def wordCats : List Cat := [.LU, .LL, .LT, .LM, .LO, .MN, .MC, .ME, .ND, .NL, .NO, .PC, .CO]

/-- C35.  The words of a segmented text: the normalized UTF-8 strings of the segments starting with a word character. -/
def wordsOf (U : Unicode) (nfc : List Nat → Option (List Nat)) (segs : List (List Nat)) : List (Option (List Nat)) :=
  (segs.filter (fun s => s.head?.any (fun v => wordCats.contains (U.cat v)))).map
    (fun s => nfc ((s.flatMap encode_char).takeWhile (· ≠ 0)))

end Ocr.Word
