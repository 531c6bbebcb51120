import Verif.Model.Ngram
import Verif.Model.Compare
import Verif.Model.Store
import Verif.Model.Stdio
import Verif.Model.Sort
import Verif.Model.Vote

/-!
# Model of ngram.c

The counters are unbounded integers.
-/

namespace Ocr.Ngram
open Text
open Ocr.Vote (charVal)

/-- ngram.c:50-52 `Seqtable`: the entries (see `Store`) and the totals. -/
structure Seqtable where
  entries       : List Sequence
  total_count   : Int
  total_suspect : Int
  deriving DecidableEq, Repr

/-- ngram.c:57-64 `get_n`: `nstring` is the value of the option, a NUL-terminated string. -/
def get_n (signed : Bool) : (nstring : Option (List Nat)) → Res Nat
  | none => .ok 1
  | some s => do
    let s0 ← byteAt s 0
    if charVal signed s0 ≥ 49 then
      if charVal signed s0 ≤ 48 + MAX_N then do
        let s1 ← byteAt s 1
        if s1 = 0 then return (charVal signed s0 - 48).toNat else .err "invalid value"
      else .err "invalid value"
    else .err "invalid value"

/-- ngram.c:67-90 `add_sequence`. -/
def add_sequence (key value : List Nat) (suspect : Bool) (t : Seqtable) : Seqtable where
  entries := Store.add Sequence.key key
    (fun s => { s with count := s.count + 1, suspect := if suspect then s.suspect + 1 else s.suspect })
    ⟨key, value, 1, if suspect then 1 else 0⟩ t.entries
  total_count := t.total_count + 1
  total_suspect := if suspect then t.total_suspect + 1 else t.total_suspect

/-- ngram.c:105-116, the inner loop of `process_file`: `none` where the text ends before `n` characters. -/
def gramLoop (U : Unicode) : (n : Nat) → (c : List Ch) → (key value : List Nat) → (suspect : Bool) →
    Res (Option (List Nat × List Nat × Bool))
  | 0, _, key, value, suspect => .ok (some (key, value, suspect))
  | _ + 1, [], _, _, _ => .ok none
  | n + 1, c :: cs, key, value, suspect => do
    let string ← char_to_string U STRING_SIZE false c.value true
    let key := key ++ cstr string
    if key.length + 1 ≤ MAX_N * STRING_SIZE then gramLoop U n cs key (value ++ [c.value]) (suspect || c.suspect) else .ub

/-- ngram.c:103-118, the outer loop of `process_file`, from `start` on. -/
def startLoop (U : Unicode) (n : Nat) : (start : List Ch) → Seqtable → Res Seqtable
  | [], t => .ok t
  | c :: cs, t => do
    let g ← gramLoop U n (c :: cs) [] [] false
    match g with
    | none => .ok t
    | some (key, value, suspect) => startLoop U n cs (add_sequence key value suspect t)

/-- ngram.c:41. -/
def textopt : Textopt := ⟨true, true, 0, true, false, false⟩

/-- ngram.c:93-119 `process_file` for the files in turn. -/
def processFiles (U : Unicode) (junk : List Nat) (n : Nat) : (opt : Textopt) → (files : List (List Nat)) → Seqtable → Res Seqtable
  | _, [], t => .ok t
  | opt, file :: files, t => do
    let (text, opt) ← read_text U junk [] file opt
    let t ← startLoop U n text t
    processFiles U junk n opt files t

/-- ngram.c:148-150: one line. -/
def writeEntry (s : Sequence) : List Nat :=
  fmtLong 8 s.count ++ [32] ++ fmtLong 8 s.suspect ++ ascii "   {" ++ s.key ++ ascii "}\n"

/-- ngram.c:144-153 `write_array`. -/
def write_array (array : List Sequence) (t : Seqtable) : List Nat :=
  ascii "   Count  Suspect\n" ++ array.flatMap writeEntry ++
    (fmtLong 8 t.total_count ++ [32] ++ fmtLong 8 t.total_suspect ++ ascii "   Total\n")

/-- ngram.c:156-164 `write_report`. -/
def write_report (t : Seqtable) : Res (List Nat) := do
  let array := Store.in_array Sequence.key t.entries
  let array ← Sort.sort array.length ng_order_by_value array
  let first := write_array array t
  let array ← Sort.sort array.length ng_order_by_count array
  return first ++ ascii "\n\n" ++ write_array array t

/-- ngram.c:167-179 `main` after `initialize`. -/
def ngramMain (U : Unicode) (signed : Bool) (junk : List Nat) (nstring : Option (List Nat)) (files : List (List Nat)) :
    Res (List Nat) := do
  if files.length = 0 then .err "no text files specified"
  else
    let n ← get_n signed nstring
    let t ← processFiles U junk n textopt files ⟨[], 0, 0⟩
    write_report t

end Ocr.Ngram
