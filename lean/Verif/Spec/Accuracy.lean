import Verif.Model.AccData
import Verif.Spec.Sync

/-!
# What the accuracy figures should be
-/

namespace Ocr.Acc
open Text Charclass Sync

/-- The values of the characters of a text other than the reject character. -/
def nonreject (text : List Ch) : List Nat := (text.map Ch.value).filter (· ≠ REJECT_CHARACTER)

/-- A row of the table of edit operations adds up. -/
def Accops.Sound (ops : Accops) : Prop :=
  0 ≤ ops.ins ∧ 0 ≤ ops.subst ∧ 0 ≤ ops.del ∧ ops.errors = ops.ins + ops.subst + ops.del

/-- A sensible enumeration of a class. -/
def Accclass.Sound (c : Accclass) : Prop := 0 ≤ c.missed ∧ c.missed ≤ c.count

/-- The figures of an accuracy report for a correct and a generated text. -/
structure Consistent (correct generated : List Ch) (D : Accdata) : Prop where
  characters : D.characters = (nonreject correct).length
  rejects    : D.reject_characters = (generated.countP (fun c => c.value = REJECT_CHARACTER) : Nat)
  suspects   : D.suspect_markers = (generated.countP (fun c => c.value ≠ REJECT_CHARACTER ∧ c.suspect) : Nat)
  false_lo   : 0 ≤ D.false_marks
  false_hi   : D.false_marks ≤ D.suspect_markers
  errors     : D.errors = D.total_ops.errors
  marked     : D.marked_ops.Sound
  unmarked   : D.unmarked_ops.Sound
  total      : D.total_ops.Sound
  ins        : D.total_ops.ins = D.marked_ops.ins + D.unmarked_ops.ins
  subst      : D.total_ops.subst = D.marked_ops.subst + D.unmarked_ops.subst
  del        : D.total_ops.del = D.marked_ops.del + D.unmarked_ops.del
  small      : ∀ v, (D.small_class v).count = ((nonreject correct).count v : Nat)
  large      : ∀ c, (D.large_class c).count = ((nonreject correct).countP (fun v => charclass v = .ok c) : Nat)
  all        : D.total_class.count = D.characters
  missed     : D.total_class.missed = D.total_ops.ins + D.total_ops.subst
  small_ok   : ∀ v, (D.small_class v).Sound
  large_ok   : ∀ c, (D.large_class c).Sound
  all_ok     : D.total_class.Sound
  sum_count  : ((List.range 256).map (fun c => (D.large_class c).count)).sum = D.total_class.count
  sum_missed : ((List.range 256).map (fun c => (D.large_class c).missed)).sum = D.total_class.missed

/-- Does the generated text of an item contain a mark? -/
def itemMarked (t1 : List Ch) (s : Sync) : Bool :=
  (piece t1 (s.sub 1)).any (fun c => c.value = REJECT_CHARACTER || c.suspect)

/-- The edit operations of an unmatched item: `ch` characters against `g`. -/
def opsFor (ch g : Int) : Accops := ⟨max 0 (ch - g), min ch g, max 0 (g - ch), max ch g⟩

/-- The edit operations of an item.  Each reject character of the correct text stands for any one character. -/
def itemOps (t0 : List Ch) (s : Sync) : Accops :=
  if s.mtch.isSome then ⟨0, 0, 0, 0⟩
  else opsFor ((nonreject (piece t0 (s.sub 0))).length : Int)
    (max 0 ((s.sub 1).length - ((s.sub 0).length - (nonreject (piece t0 (s.sub 0))).length)))

/-- The suspect markers of an item. -/
def itemSuspects (t1 : List Ch) (s : Sync) : Int :=
  ((piece t1 (s.sub 1)).countP (fun c => c.value ≠ REJECT_CHARACTER ∧ c.suspect) : Nat)

/-- The missed characters of an item. -/
def itemMissed (t0 : List Ch) (s : Sync) : List Nat := if s.mtch.isSome then [] else nonreject (piece t0 (s.sub 0))

/-- The number of errors of an item. -/
def itemErrors (t0 : List Ch) (s : Sync) : Int :=
  if s.mtch.isSome then 0
  else max ((nonreject (piece t0 (s.sub 0))).length : Int)
    (max 0 ((s.sub 1).length - ((s.sub 0).length - (nonreject (piece t0 (s.sub 0))).length)))

/-- Column sums. -/
def sumOps (l : List Accops) : Accops :=
  ⟨(l.map (·.ins)).sum, (l.map (·.subst)).sum, (l.map (·.del)).sum, (l.map (·.errors)).sum⟩

/-- The figures that depend on an alignment of the two texts: an unmatched region with a mark counts as marked, marks in
matched regions are false, and the characters of unmatched regions are missed. -/
structure Reported (correct generated : List Ch) (items : List Sync) (D : Accdata) : Prop where
  errors      : D.errors = (items.map (itemErrors correct)).sum
  marked      : D.marked_ops = sumOps ((items.filter (itemMarked generated)).map (itemOps correct))
  unmarked    : D.unmarked_ops = sumOps ((items.filter (fun s => !itemMarked generated s)).map (itemOps correct))
  false_marks : D.false_marks = ((items.filter (·.mtch.isSome)).map (itemSuspects generated)).sum
  small       : ∀ v, (D.small_class v).missed = ((items.flatMap (itemMissed correct)).count v : Nat)
  large       : ∀ c, (D.large_class c).missed = ((items.flatMap (itemMissed correct)).countP (fun v => charclass v = .ok c) : Nat)

end Ocr.Acc
