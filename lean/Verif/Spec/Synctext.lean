import Verif.Model.Synctext
import Verif.Spec.Sync

/-!
# What synctext should write
-/

namespace Ocr.Synctext
open Text Sync

/-- The writing of a character value: itself if it can be printed, a combining character after a dotted circle; its hexadecimal
number otherwise. -/
def drawn (U : Unicode) (v : Nat) : List Nat :=
  if v = 10 then [10]
  else if is_graphic U v then (if is_combining U v then encode_char 0x25CC else []) ++ encode_char v
  else [60] ++ hexPad (if v < 256 then 2 else 4) v ++ [62]

/-- The writing of a character: `^` before it if it is suspect. -/
def written (U : Unicode) (c : Ch) : List Nat := (if c.suspect then [94] else []) ++ drawn U c.value

/-- A comparison of several texts: text they have in common, then differences, each followed by text they have in common.  A
difference lists the versions of all texts. -/
structure Document where
  head  : List Ch
  notes : List (List (List Ch) × List Ch)

/-- The text number `t`. -/
def Document.text (D : Document) (t : Nat) : List Ch := D.head ++ D.notes.flatMap (fun n => n.1.getD t [] ++ n.2)

/-- 79 equals signs and a newline. -/
def rule : List Nat := ascii "===============================================================================\n"

/-- The common text, with numbers in braces for the differences. -/
def Document.overview (D : Document) (w : Ch → List Nat) : List Nat :=
  D.head.flatMap w ++ (D.notes.zipIdx 1).flatMap (fun n => ascii "{" ++ decDigits n.2 ++ ascii "}" ++ n.1.2.flatMap w)

/-- One version of a difference: the name of the file in a field of `m` bytes, then the characters in braces.  Lines are indented to
the opening brace. -/
def version (w : Ch → List Nat) (m : Nat) (name : List Nat) (cs : List Ch) : List Nat :=
  name ++ List.replicate (m - name.length) 32 ++ ascii " {" ++
    cs.flatMap (fun c => w c ++ if c.value = 10 then List.replicate (m + 2) 32 else []) ++ ascii "}\n"

/-- The whole printout. -/
def Document.print (D : Document) (w : Ch → List Nat) (names : List (List Nat)) : List Nat :=
  let m := (names.map List.length).foldr max 0
  rule ++ [10] ++ D.overview w ++ [10] ++
    (D.notes.zipIdx 1).flatMap (fun n => rule ++ ascii "{" ++ decDigits n.2 ++ ascii "}\n" ++
      (List.zipWith (version w m) names n.1.1).flatten) ++ rule

/-- The characters of a matched substring, suspect if they are suspect in one of the texts. -/
def common (texts : List (List Ch)) (s : Sync) : List Ch :=
  (List.range (s.sub 0).length.toNat).map (fun i =>
    ⟨(List.range texts.length).any (fun t => ((texts.getD t []).getD ((s.sub t).start.toNat + i) ⟨false, 0⟩).suspect),
      ((texts.getD 0 []).getD ((s.sub 0).start.toNat + i) ⟨false, 0⟩).value⟩)

/-- The document for an alignment. -/
def docOf (texts : List (List Ch)) : List Sync → Document
  | [] => ⟨[], []⟩
  | s :: l =>
    let D := docOf texts l
    if s.mtch ≠ none then ⟨common texts s ++ D.head, D.notes⟩
    else ⟨[], ((List.range texts.length).map (fun t => piece (texts.getD t []) (s.sub t)), D.head) :: D.notes⟩

/-- How characters are shown: without marks, unless marks are asked for. -/
def shown (U : Unicode) (show_suspect : Bool) (c : Ch) : List Nat := written U { c with suspect := show_suspect && c.suspect }

/-- A text cut into parts, some of them numbered, with the numbered parts in braces. -/
def printParts (w : Ch → List Nat) (parts : List (Option Nat × List Ch)) : List Nat :=
  parts.flatMap (fun p => match p.1 with
    | some k => ascii "{" ++ decDigits k ++ ascii ":" ++ p.2.flatMap w ++ ascii "}"
    | none => p.2.flatMap w)

/-! ## Reading a printout -/

/-- Take out the indentation of `w` bytes after each newline. -/
def unindent (w : Nat) : (skip : Nat) → List Nat → List Nat
  | _, [] => []
  | skip + 1, _ :: bs => unindent w skip bs
  | 0, b :: bs => b :: unindent w (if b = 10 then w else 0) bs

/-- The text number `t` restored from a printout for `n` texts with names of at most `m` bytes.  The parts between braces alternate with
the parts outside; there are `n + 2` pairs of braces for each difference, one in the overview, and one for the number and for each version
in the list of differences. -/
def restore (n m t : Nat) (out : List Nat) : List Nat :=
  let parts := out.splitOnP (fun b => b = 123 || b = 125)
  let outside (i : Nat) := parts.getD (2 * i) []
  let inside (i : Nat) := parts.getD (2 * i + 1) []
  let k := parts.length / 2 / (n + 2)
  let whole := outside 0 ++ (List.range k).flatMap (fun i => unindent (m + 2) 0 (inside (k + i * (n + 1) + 1 + t)) ++ outside (i + 1))
  (whole.drop 81).take (whole.length - 162)

end Ocr.Synctext
