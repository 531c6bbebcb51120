import Verif.Model.AccData
import Verif.Model.Sync

/-!
# Model of accuracy.c
-/

namespace Ocr.Acc
open Text Sync

/-- accuracy.c:30. -/
def MAX_DISPLAY : Nat := 24

/-- `strcat(a, b)` where the buffer holding `a` has `size` bytes (accuracy.c:54, 57). -/
def strcat (size : Nat) (a b : List Nat) : Res (List Nat) :=
  if a.length + b.length + 1 ≤ size then .ok (a ++ b) else .ub

/-- accuracy.c:49-59: the inner loop of `make_key`; `count` characters are left, `buffer` has MAX_DISPLAY + 4 bytes. -/
def displayLoop (U : Unicode) (text : List Ch) : (count : Nat) → (j : Int) → (buffer : List Nat) → Res (List Nat)
  | 0, _, buffer => .ok buffer
  | n + 1, j, buffer => do
    let c ← rdI text j
    let string ← char_to_string U STRING_SIZE false c.value true
    let string := cstr string
    if buffer.length + string.length > MAX_DISPLAY then strcat (MAX_DISPLAY + 4) buffer (ascii "...")
    else do
      let buffer ← strcat (MAX_DISPLAY + 4) buffer string
      displayLoop U text n (j + 1) buffer

/-- accuracy.c:46-59 for one of the two texts. -/
def display (U : Unicode) (text : List Ch) (s : Substr) : Res (List Nat) :=
  displayLoop U text (s.stop + 1 - s.start).toNat s.start []

/-- accuracy.c:40-61 `make_key`; the result is written to `key[100]` (line 80). -/
def make_key (U : Unicode) (t0 t1 : List Ch) (sync : Sync) : Res (List Nat) := do
  let s0 ← rd sync.substr 0
  let b0 ← display U t0 s0
  let s1 ← rd sync.substr 1
  let b1 ← display U t1 s1
  let key := ascii "{" ++ b0 ++ ascii "}-{" ++ b1 ++ ascii "}\n"
  if key.length + 1 ≤ 100 then return key else .ub

/-- accuracy.c:84-92: the loop over the characters of the correct text; returns `characters` and `wildcards` too. -/
def classLoop (t0 : List Ch) (missed : Int) : (count : Nat) → (i : Int) → (characters wildcards : Int) → Accdata →
    Res (Int × Int × Accdata)
  | 0, _, characters, wildcards, D => .ok (characters, wildcards, D)
  | n + 1, i, characters, wildcards, D => do
    let c ← rdI t0 i
    if c.value = REJECT_CHARACTER then classLoop t0 missed n (i + 1) characters (wildcards + 1) D
    else do
      let D ← add_class D c.value 1 missed
      classLoop t0 missed n (i + 1) (characters + 1) wildcards D

/-- accuracy.c:95-99: the loop over the characters of the generated text; returns `reject_characters` and
`suspect_markers`. -/
def markLoop (t1 : List Ch) : (count : Nat) → (i : Int) → (reject suspect : Int) → Res (Int × Int)
  | 0, _, reject, suspect => .ok (reject, suspect)
  | n + 1, i, reject, suspect => do
    let c ← rdI t1 i
    if c.value = REJECT_CHARACTER then markLoop t1 n (i + 1) (reject + 1) suspect
    else markLoop t1 n (i + 1) reject (if c.suspect then suspect + 1 else suspect)

/-- accuracy.c:105-126: an unmatched item. -/
def errorItem (U : Unicode) (t0 t1 : List Ch) (sync : Sync) (length1 characters wildcards reject suspect : Int)
    (D : Accdata) : Res Accdata := do
  let genchars := max 0 (length1 - wildcards)
  let errors := max characters genchars
  if errors > 0 then
    let D := { D with errors := D.errors + errors }
    let ops : Accops := ⟨max 0 (characters - genchars), min characters genchars, max 0 (genchars - characters), errors⟩
    let key ← make_key U t0 t1 sync
    let D := if reject + suspect > 0 then
        add_conf { D with marked_ops := add_ops D.marked_ops ops } key errors errors
      else add_conf { D with unmarked_ops := add_ops D.unmarked_ops ops } key errors 0
    return { D with total_ops := add_ops D.total_ops ops }
  else return D

/-- accuracy.c:83-127: one round of the loop of `process_synclist`. -/
def processItem (U : Unicode) (t0 t1 : List Ch) (sync : Sync) (D : Accdata) : Res Accdata := do
  let s0 ← rd sync.substr 0
  let (characters, wildcards, D) ← classLoop t0 (if sync.mtch.isSome then 0 else 1) (s0.stop + 1 - s0.start).toNat s0.start 0 0 D
  let D := { D with characters := D.characters + characters }
  let s1 ← rd sync.substr 1
  let (reject, suspect) ← markLoop t1 (s1.stop + 1 - s1.start).toNat s1.start 0 0
  let D := { D with reject_characters := D.reject_characters + reject, suspect_markers := D.suspect_markers + suspect }
  if sync.mtch.isSome then return { D with false_marks := D.false_marks + suspect }
  else errorItem U t0 t1 sync s1.length characters wildcards reject suspect D

/-- accuracy.c:74-129 `process_synclist`. -/
def process_synclist (U : Unicode) (t0 t1 : List Ch) : List Sync → Accdata → Res Accdata
  | [], D => .ok D
  | sync :: l, D => do
    let D ← processItem U t0 t1 sync D
    process_synclist U t0 t1 l D

/-- accuracy.c:132-148, between reading the texts and writing the report. -/
def accuracy (U : Unicode) (t0 t1 : List Ch) : Res Accdata := do
  let r ← fastukk_sync t0 t1
  process_synclist U t0 t1 r.items Accdata.zero

end Ocr.Acc
