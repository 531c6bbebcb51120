import Verif.Model.Accrpt
import Verif.Model.Compare

/-!
# Model of word accuracy reports (wacrpt.c, wacrpt.h) and of wordaccsum.c

The arrays of a `Wacdata` are functions of the index; the accesses made by reading a report are checked against the size
of the array.  `pct n d` stands for the bytes printed by `fprintf(f, "%8.2f", 100.0 * n / d)`.
-/

namespace Ocr.Wac
open Text Report
open Ocr.Acc (strAt after_line)

/-- wacrpt.h:38-43 `Wac`. -/
structure Wac where
  count  : Int
  missed : Int
  deriving DecidableEq, Repr

/-- word.h:32. -/
def MAX_WORDLENGTH : Nat := 50
/-- wacrpt.h:35. -/
def MAX_OCCURRENCES : Nat := 10
/-- wacrpt.h:36. -/
def MAX_PHRASELENGTH : Nat := 8

/-- wacrpt.h:52-75 `Wacdata`.  Tables are lists of entries, most recent first (see `Store`). -/
structure Wacdata where
  total                 : Wac
  stopword              : Nat → Wac
  non_stopword          : Nat → Wac
  distinct_non_stopword : Nat → Wac
  phrase                : Nat → Wac
  stopword_table        : List Term
  non_stopword_table    : List Term

/-- Data before anything is added (wacrpt.h:52-76). -/
def Wacdata.zero : Wacdata :=
  ⟨⟨0, 0⟩, fun _ => ⟨0, 0⟩, fun _ => ⟨0, 0⟩, fun _ => ⟨0, 0⟩, fun _ => ⟨0, 0⟩, [], []⟩

/-- wacrpt.c:29 with OCREVAL_VERSION "7.0". -/
def TITLE : List Nat := ascii "ocreval Word Accuracy Report Version 7.0\n"
/-- wacrpt.c:30. -/
def DIVIDER : List Nat := ascii "----------------------------------------\n"
/-- wacrpt.c:32. -/
def TOTAL : List Nat := ascii " Total\n"
/-- wacrpt.c:33. -/
def OFFSET : Nat := 29

/-- wacrpt.c:39-45 `increment_wac`. -/
def increment_wac (w : Wac) (count missed : Int) : Wac := ⟨w.count + count, w.missed + missed⟩

/-- `increment_wac(&wac[index], ...)` for an array of `size` elements (wacrpt.c:88-105). -/
def incrementAt (size : Nat) (wac : Nat → Wac) (index : Int) (count missed : Int) : Res (Nat → Wac) :=
  if 0 ≤ index ∧ index < size then
    .ok (fun i => if i = index.toNat then increment_wac (wac i) count missed else wac i)
  else .ub

/-- wacrpt.c:48-62 `add_term`. -/
def add_term (table : List Term) (key : List Nat) (count missed : Int) : List Term :=
  Store.add Term.key key (fun t => { t with count := t.count + count, missed := t.missed + missed }) ⟨key, count, missed⟩ table

/-- `atoi`; overflow is not modelled (wacrpt.c:97). -/
def atoi (s : List Nat) : Int := ((scanLong s).map Prod.fst).getD 0

/-- wacrpt.c:97-103: the index for the text after the figures, and whether it is the total. -/
def lineIndex (s : List Nat) : Int × Bool :=
  if atoi s = 0 then
    if s = TOTAL then (0, true) else (MAX_OCCURRENCES + 1, false)
  else (atoi s, false)

/-- wacrpt.c:95-105, the loop of `read_numbers`.  The line on which `read_two` fails has been read. -/
def numbersLoop (size : Nat) : (fuel : Nat) → (file : List Nat) → (wac : Nat → Wac) → (total : Int) →
    Res ((Nat → Wac) × Int × List Nat)
  | fuel, file, wac, total =>
    match read_two file with
    | none => .ok (wac, total, after_line file)
    | some ((count, missed, line), rest) =>
      match fuel with
      | 0 => .fuel
      | fuel + 1 => do
        let s ← strAt line OFFSET
        let x := lineIndex s
        let wac ← incrementAt size wac x.1 count missed
        numbersLoop size fuel rest wac (if x.2 then count else total)

/-- `read_line(f) && read_line(f)` (wacrpt.c:94, 115): did both succeed, and what is left. -/
def two_lines (file : List Nat) : Bool × List Nat :=
  match read_line file with
  | none => (false, file)
  | some (_, f) =>
    match read_line f with
    | none => (false, f)
    | some (_, f) => (true, f)

/-- wacrpt.c:89-107 `read_numbers` for an array of `size` elements: the array, the value returned, the rest of the file. -/
def read_numbers (size : Nat) (file : List Nat) (wac : Nat → Wac) : Res ((Nat → Wac) × Int × List Nat) :=
  if (two_lines file).1 then numbersLoop size (two_lines file).2.length (two_lines file).2 wac 0
  else .ok (wac, 0, (two_lines file).2)

/-- wacrpt.c:116-120, the loop of `read_terms`: the last character of the line is removed. -/
def termsLoop : (fuel : Nat) → (file : List Nat) → (table : List Term) → Res (List Term × List Nat)
  | fuel, file, table =>
    match read_two file with
    | none => .ok (table, after_line file)
    | some ((count, missed, line), rest) =>
      match fuel with
      | 0 => .fuel
      | fuel + 1 =>
        if OFFSET ≤ line.length then termsLoop fuel rest (add_term table (line.dropLast.drop OFFSET) count missed)
        else .ub

/-- wacrpt.c:110-121 `read_terms`. -/
def read_terms (file : List Nat) (table : List Term) : Res (List Term × List Nat) :=
  if (two_lines file).1 then termsLoop (two_lines file).2.length (two_lines file).2 table
  else .ok (table, (two_lines file).2)

/-- wacrpt.c:131-134: the conditions at the top of a report, with the two figures. -/
def read_head (file : List Nat) : Option ((Int × Int) × List Nat) := do
  let f ← read_title TITLE DIVIDER file
  let (words, f) ← read_value f
  let (missed, f) ← read_value f
  let f ← Report.skip_lines 2 f
  some ((words, missed), f)

/-- wacrpt.c:124-152 `read_wacrpt` on the contents of the file. -/
def read_wacrpt (D : Wacdata) (file : List Nat) : Res Wacdata :=
  match read_head file with
  | none => .err "invalid format in"
  | some ((words, missed), f) => do
    let (stopword, stopwords, f) ← read_numbers (MAX_WORDLENGTH + 1) f D.stopword
    let (non_stopword, non_stopwords, f) ← read_numbers (MAX_WORDLENGTH + 1) f D.non_stopword
    let (distinct, _, f) ← read_numbers (MAX_OCCURRENCES + 2) f D.distinct_non_stopword
    let (phrase, _, f) ← (if words > 0 then read_numbers (MAX_PHRASELENGTH + 1) f D.phrase else pure (D.phrase, 0, f))
    let (table1, f) ← (if words > 0 ∧ stopwords > 0 then read_terms f D.stopword_table else pure (D.stopword_table, f))
    let (table2, _) ← (if words > 0 ∧ non_stopwords > 0 then read_terms f D.non_stopword_table
      else pure (D.non_stopword_table, f))
    return ⟨increment_wac D.total words missed, stopword, non_stopword, distinct, phrase, table1, table2⟩

/-- wacrpt.c:155-163 `write_pct`. -/
def write_pct (pct : Int → Int → List Nat) (w : Wac) : List Nat :=
  if w.count = 0 then ascii "  ------" else pct (w.count - w.missed) w.count

/-- wacrpt.c:166-178 `write_wac` for a pointer that is not NULL. -/
def write_wac (pct : Int → Int → List Nat) (w : Wac) : List Nat :=
  fmtLong 8 w.count ++ [32] ++ fmtLong 8 w.missed ++ ([32] ++ write_pct pct w ++ ascii "   ")

/-- wacrpt.c:176-177: `write_wac(f, NULL)`. -/
def write_heading : List Nat := ascii "   Count   Missed   %Right" ++ ascii "   "

/-- wacrpt.c:181-208 `write_numbers`. -/
def write_numbers (pct : Int → Int → List Nat) (wac : Nat → Wac) (limit : Nat) (title : String) (excess total : Bool) : List Nat :=
  [10] ++ ascii title ++ [10] ++ write_heading ++ ascii (if excess then "Occurs" else "Length") ++ [10] ++
    (List.range' 1 limit).flatMap (fun i : Nat =>
      if (wac i).count > 0 then write_wac pct (wac i) ++ ascii "    " ++ fmtLong 2 i ++ [10] else []) ++
    (if excess ∧ (wac (limit + 1)).count > 0 then
      write_wac pct (wac (limit + 1)) ++ ascii "   >" ++ fmtLong 2 limit ++ [10] else []) ++
    (if total then write_wac pct (wac 0) ++ TOTAL else [])

/-- wacrpt.c:218-234 `write_terms`. -/
def write_terms (pct : Int → Int → List Nat) (table : List Term) (title : String) : Res (List Nat) := do
  let array := Store.in_array Term.key table
  let array ← Sort.sort array.length compare_term array
  return [10] ++ ascii title ++ [10] ++ write_heading ++ [10] ++
    array.flatMap (fun t => write_wac pct ⟨t.count, t.missed⟩ ++ t.key ++ [10])

/-- wacrpt.c:243-253: the part of a report before the phrases. -/
def write_top (pct : Int → Int → List Nat) (D : Wacdata) : List Nat :=
  TITLE ++ DIVIDER ++ write_value D.total.count "Words" ++ write_value D.total.missed "Misrecognized" ++
    write_pct pct D.total ++ ascii "%  Accuracy\n" ++
    write_numbers pct D.stopword MAX_WORDLENGTH "Stopwords" false true ++
    write_numbers pct D.non_stopword MAX_WORDLENGTH "Non-stopwords" false true ++
    write_numbers pct D.distinct_non_stopword MAX_OCCURRENCES "Distinct Non-stopwords" true true

/-- wacrpt.c:237-264 `write_wacrpt`: the contents of the file. -/
def write_wacrpt (pct : Int → Int → List Nat) (D : Wacdata) : Res (List Nat) :=
  if D.total.count > 0 then do
    let t1 ← (if (D.stopword 0).count > 0 then write_terms pct D.stopword_table "Stopwords" else pure [])
    let t2 ← (if (D.non_stopword 0).count > 0 then write_terms pct D.non_stopword_table "Non-stopwords" else pure [])
    return write_top pct D ++ write_numbers pct D.phrase MAX_PHRASELENGTH "Phrases" false false ++ t1 ++ t2
  else return write_top pct D

/-- The loop of wordaccsum.c:41-42 (and of other programs reading several reports): reading into the same data. -/
def readAll (D : Wacdata) : List (List Nat) → Res Wacdata
  | [] => .ok D
  | f :: fs => do
    let D ← read_wacrpt D f
    readAll D fs

/-- wordaccsum.c:33-45, the report printed. -/
def wordaccsum (pct : Int → Int → List Nat) (files : List (List Nat)) : Res (List Nat) :=
  if files.length < 2 then .err "not enough input files"
  else do
    let D ← readAll Wacdata.zero files
    write_wacrpt pct D

end Ocr.Wac
