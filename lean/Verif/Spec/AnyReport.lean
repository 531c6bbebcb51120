import Verif.Model.Accrpt
import Verif.Model.Wacrpt
import Verif.Model.Edorpt
import Verif.Spec.Wacrpt
import Verif.Spec.Utf8

/-!
# What any file means when it is read as a report

A file is cut into lines.  A report is a title, some figures, and sections; a section is a heading and the lines after it
that begin with two numbers, up to and including the first line that does not.  Nothing here follows the loops of the
programs.  Numbers are those found by `sscanf` (`scanLong`, `scanLongs`, `scanHex`); what these are
is said in `Spec/Numerals.lean` and shown in `c69_decimal`, `c69_decimals` and `c69_hexadecimal`.
-/

namespace Ocr.AnyReport
open Text Report

/-- A file cut after every newline and, within a line, after every 98 bytes; `cur` is the piece begun. -/
def pieces : (cur : List Nat) → List Nat → List (List Nat)
  | [], [] => []
  | cur, [] => [cur]
  | cur, b :: file => if b = 10 ∨ cur.length = 97 then (cur ++ [b]) :: pieces [] file else pieces (cur ++ [b]) file

/-- The lines of a file as C strings: they end before the first NUL. -/
def lines (file : List Nat) : List (List Nat) := (pieces [] file).map (·.takeWhile (· ≠ 0))

/-- A line beginning with two numbers. -/
structure Row where
  first  : Int
  second : Int
  line   : List Nat
deriving DecidableEq

def row? (l : List Nat) : Option Row :=
  match scanLongs 2 l with
  | some [a, b] => some ⟨a, b, l⟩
  | _ => none

/-- The lines before the first one that does not begin with two numbers. -/
def rows (ls : List (List Nat)) : List Row := (ls.map row?).takeWhile Option.isSome |>.filterMap id
/-- The lines after it. -/
def afterRows (ls : List (List Nat)) : List (List Nat) := (ls.dropWhile (fun l => (row? l).isSome)).drop 1

/-- The number at the start of a line. -/
def number (l : List Nat) : Option Int := (scanLong l).map Prod.fst

/-- What follows the title and the divider; the last two bytes of the title line are free. -/
def titled (title divider : List Nat) : List (List Nat) → Option (List (List Nat))
  | t :: d :: rest => if (title.take (title.length - 2)) <+: t ∧ d = divider then some rest else none
  | _ => none

/-- Sums over the rows with a property. -/
def firsts (p : Row → Prop) [DecidablePred p] (R : List Row) : Int := ((R.filter (fun r => p r)).map Row.first).sum
def seconds (p : Row → Prop) [DecidablePred p] (R : List Row) : Int := ((R.filter (fun r => p r)).map Row.second).sum

/-! ## Edit operation reports -/

/-- The three figures and the rows (count, length) of the moves. -/
def editop (ls : List (List Nat)) : Option (Int × Int × Int × List Row) :=
  match titled Edo.TITLE Edo.DIVIDER ls with
  | some (a :: b :: c :: rest) => do
    let ins ← number a
    let del ← number b
    let moves ← number c
    some (ins, del, moves, if moves > 0 then rows (rest.drop 3) else [])
  | _ => none

/-! ## Word accuracy reports -/

/-- What a line of figures is about: the number after column 29, 0 for the total, 11 for anything else. -/
def index (r : Row) : Int :=
  let k := (number (r.line.drop 29)).getD 0
  if k ≠ 0 then k else if r.line.drop 29 = ascii " Total\n" then 0 else 11

/-- The count on the last line of totals. -/
def totalCount (R : List Row) : Int :=
  match (R.filter (fun r => r.line.drop 29 = ascii " Total\n")).getLast? with
  | some r => r.first
  | none => 0

/-- The parts of a word accuracy report. -/
structure WordaccParts where
  words    : Int
  missed   : Int
  stop     : List Row
  non      : List Row
  distinct : List Row
  phrases  : List Row
  terms1   : List Row
  terms2   : List Row
deriving DecidableEq

/-- The sections follow each other; the last three are only read if they are expected. -/
def wordaccBody (words missed : Int) (s1 : List (List Nat)) : WordaccParts :=
  let s2 := afterRows (s1.drop 2)
  let s3 := afterRows (s2.drop 2)
  let s4 := afterRows (s3.drop 2)
  let stop := rows (s1.drop 2)
  let non := rows (s2.drop 2)
  let hasP := decide (words > 0)
  let s5 := if hasP then afterRows (s4.drop 2) else s4
  let has1 := decide (words > 0 ∧ totalCount stop > 0)
  let s6 := if has1 then afterRows (s5.drop 2) else s5
  let has2 := decide (words > 0 ∧ totalCount non > 0)
  ⟨words, missed, stop, non, rows (s3.drop 2), if hasP then rows (s4.drop 2) else [],
    if has1 then rows (s5.drop 2) else [], if has2 then rows (s6.drop 2) else []⟩

/-- The figures are on the two lines after the divider. -/
def wordacc (ls : List (List Nat)) : Option WordaccParts :=
  match titled Wac.TITLE Wac.DIVIDER ls with
  | some (a :: b :: _ :: _ :: rest) => do
    let words ← number a
    let missed ← number b
    some (wordaccBody words missed rest)
  | _ => none

/-- Every line of figures is long enough, and is about something in the array. -/
def InArray (size : Nat) (R : List Row) : Prop := ∀ r ∈ R, 29 ≤ r.line.length ∧ 0 ≤ index r ∧ index r < size

/-- Every line is long enough to have a name. -/
def HasNames (column : Nat) (R : List Row) : Prop := ∀ r ∈ R, column ≤ r.line.length

structure WordaccParts.Sound (p : WordaccParts) : Prop where
  stop     : InArray 51 p.stop
  non      : InArray 51 p.non
  distinct : InArray 12 p.distinct
  phrases  : InArray 9 p.phrases
  terms1   : HasNames 29 p.terms1
  terms2   : HasNames 29 p.terms2

/-- The figures of `w'` are those of `w` and of the rows. -/
def AddsFigures (R : List Row) (w w' : Nat → Wac.Wac) : Prop := ∀ i : Nat,
  w' i = ⟨(w i).count + firsts (fun r => index r = i) R, (w i).missed + seconds (fun r => index r = i) R⟩

/-- The word of a line: what follows column 29 without the last byte of the line. -/
def word (r : Row) : List Nat := r.line.dropLast.drop 29

/-- The table `t'` holds the words of `t` and of the rows, with the sums of their figures. -/
structure AddsWords (R : List Row) (t t' : List Term) : Prop where
  count  : ∀ k, Wac.termCount k t' = Wac.termCount k t + firsts (fun r => word r = k) R
  missed : ∀ k, Wac.termMissed k t' = Wac.termMissed k t + seconds (fun r => word r = k) R
  keys   : ∀ k, k ∈ t'.map Term.key ↔ k ∈ t.map Term.key ∨ ∃ r ∈ R, word r = k
  nodup  : (t.map Term.key).Nodup → (t'.map Term.key).Nodup

structure WordaccParts.Adds (p : WordaccParts) (D E : Wac.Wacdata) : Prop where
  total    : E.total = ⟨D.total.count + p.words, D.total.missed + p.missed⟩
  stop     : AddsFigures p.stop D.stopword E.stopword
  non      : AddsFigures p.non D.non_stopword E.non_stopword
  distinct : AddsFigures p.distinct D.distinct_non_stopword E.distinct_non_stopword
  phrases  : AddsFigures p.phrases D.phrase E.phrase
  terms1   : AddsWords p.terms1 D.stopword_table E.stopword_table
  terms2   : AddsWords p.terms2 D.non_stopword_table E.non_stopword_table

/-! ## Accuracy reports -/

/-- How characters are written in an accuracy report: what follows column 29, and the character meant. -/
inductive Names : List Nat → Nat → Prop
  | less (rest : List Nat) : Names (ascii "{<}" ++ rest) 60
  | newline (rest : List Nat) : Names (ascii "{<\\n>}" ++ rest) 10
  | hex (t rest : List Nat) (v n : Nat) : scanHex t = some (v, n) → t.drop n = ascii ">}" ++ rest → Names (ascii "{<" ++ t) v
  | char (c : Char) (rest : List Nat) : c ≠ '<' → c ≠ '\x00' → Names (ascii "{" ++ utf8 [c] ++ ascii "}" ++ rest) c.toNat
  | mark (c : Char) (rest : List Nat) : 128 ≤ c.toNat → Names (ascii "{" ++ utf8 ['◌', c] ++ ascii "}" ++ rest) c.toNat

/-- The four figures of a line of operations. -/
def ops (l : List Nat) : Option Acc.Accops :=
  match scanLongs 4 l with
  | some [a, b, c, d] => some ⟨a, b, c, d⟩
  | _ => none

/-- The parts of an accuracy report: the figures at the top, the confusions and the characters. -/
structure AccuracyParts where
  head    : Acc.Head
  confs   : List Row
  classes : List Row

/-- The classes are passed over up to an empty line; the sections are only read if they are expected. -/
def accuracyBody (h : Acc.Head) (s : List (List Nat)) : AccuracyParts :=
  let s1 := (s.dropWhile (fun l => l.head? ≠ some 10)).drop 1
  let s2 := if h.errors > 0 then afterRows (s1.drop 1) else s1
  ⟨h, if h.errors > 0 then rows (s1.drop 1) else [], if h.characters > 0 then rows (s2.drop 1) else []⟩

/-- The figures are on fixed lines. -/
def accuracy (ls : List (List Nat)) : Option AccuracyParts :=
  match titled Acc.TITLE Acc.DIVIDER ls with
  | some (a :: b :: _ :: _ :: c :: d :: e :: _ :: _ :: _ :: _ :: o1 :: o2 :: o3 :: _ :: s) => do
    let characters ← number a
    let errors ← number b
    let rejects ← number c
    let suspects ← number d
    let falses ← number e
    let marked ← ops o1
    let unmarked ← ops o2
    let total ← ops o3
    some (accuracyBody ⟨characters, errors, rejects, suspects, falses, marked, unmarked, total⟩ s)
  | _ => none

/-- The rows are about the characters `vs`. -/
def About (R : List Row) (vs : List Nat) : Prop :=
  List.Forall₂ (fun r v => 29 ≤ r.line.length ∧ Names (r.line.drop 29) v ∧ v < 0x10FFFF) R vs

/-- A row that is refused: what follows column 29 is no character, or the value kept for "no character". -/
def Refused (r : Row) : Prop :=
  29 ≤ r.line.length ∧ r.line.drop 29 ≠ ascii "{" ∧ ∀ v, Names (r.line.drop 29) v → v = 2^32 - 1

/-- A row that is read beyond the end of the line or of the table. -/
def Outside (r : Row) : Prop :=
  r.line.length < 29 ∨ r.line.drop 29 = ascii "{" ∨ ∃ v, Names (r.line.drop 29) v ∧ 0x10FFFF ≤ v ∧ v ≠ 2^32 - 1

/-- The sums over the rows whose character has a property. -/
def classFirsts (p : Nat → Prop) [DecidablePred p] (R : List Row) (vs : List Nat) : Int :=
  (((R.zip vs).filter (fun x => p x.2)).map (·.1.first)).sum
def classSeconds (p : Nat → Prop) [DecidablePred p] (R : List Row) (vs : List Nat) : Int :=
  (((R.zip vs).filter (fun x => p x.2)).map (·.1.second)).sum

/-- The figures of `E` are those of `D` and of the report. -/
structure AccuracyParts.Adds (p : AccuracyParts) (vs : List Nat) (D E : Acc.Accdata) : Prop where
  characters : E.characters = D.characters + p.head.characters
  errors     : E.errors = D.errors + p.head.errors
  rejects    : E.reject_characters = D.reject_characters + p.head.reject_characters
  suspects   : E.suspect_markers = D.suspect_markers + p.head.suspect_markers
  falses     : E.false_marks = D.false_marks + p.head.false_marks
  marked     : E.marked_ops = Acc.sumOps [D.marked_ops, p.head.marked_ops]
  unmarked   : E.unmarked_ops = Acc.sumOps [D.unmarked_ops, p.head.unmarked_ops]
  total      : E.total_ops = Acc.sumOps [D.total_ops, p.head.total_ops]
  small      : ∀ v, (E.small_class v).count = (D.small_class v).count + classFirsts (· = v) p.classes vs ∧
                    (E.small_class v).missed = (D.small_class v).missed + classSeconds (· = v) p.classes vs
  large      : ∀ c, (E.large_class c).count = (D.large_class c).count + classFirsts (Charclass.charclass · = .ok c) p.classes vs ∧
                    (E.large_class c).missed = (D.large_class c).missed + classSeconds (Charclass.charclass · = .ok c) p.classes vs
  all        : E.total_class.count = D.total_class.count + (p.classes.map Row.first).sum ∧
               E.total_class.missed = D.total_class.missed + (p.classes.map Row.second).sum
  conf       : ∀ k, Acc.confErrors k E = Acc.confErrors k D + firsts (fun r => r.line.drop 20 = k) p.confs ∧
                    Acc.confMarked k E = Acc.confMarked k D + seconds (fun r => r.line.drop 20 = k) p.confs
  keys       : ∀ k, k ∈ E.conftable.map Conf.key ↔ k ∈ D.conftable.map Conf.key ∨ ∃ r ∈ p.confs, r.line.drop 20 = k
  nodup      : (D.conftable.map Conf.key).Nodup → (E.conftable.map Conf.key).Nodup

end Ocr.AnyReport
