import Verif.Spec.Accuracy
import Verif.Model.Report

/-!
# Sums of accuracy data, and data that an accuracy report can represent
-/

namespace Ocr.Acc
open Text Charclass

/-- The figures of the confusion `key`. -/
def confErrors (key : List Nat) (D : Accdata) : Int := (D.conftable.map (fun c => if c.key = key then c.errors else 0)).sum
def confMarked (key : List Nat) (D : Accdata) : Int := (D.conftable.map (fun c => if c.key = key then c.marked else 0)).sum

/-- `D` is the sum of the data `Es`, field by field, class by class, confusion by confusion. -/
structure IsSum (Es : List Accdata) (D : Accdata) : Prop where
  characters : D.characters = (Es.map (·.characters)).sum
  errors     : D.errors = (Es.map (·.errors)).sum
  rejects    : D.reject_characters = (Es.map (·.reject_characters)).sum
  suspects   : D.suspect_markers = (Es.map (·.suspect_markers)).sum
  falses     : D.false_marks = (Es.map (·.false_marks)).sum
  marked     : D.marked_ops = sumOps (Es.map (·.marked_ops))
  unmarked   : D.unmarked_ops = sumOps (Es.map (·.unmarked_ops))
  total      : D.total_ops = sumOps (Es.map (·.total_ops))
  small      : ∀ v, (D.small_class v).count = (Es.map (fun E => (E.small_class v).count)).sum ∧
                    (D.small_class v).missed = (Es.map (fun E => (E.small_class v).missed)).sum
  large      : ∀ c, (D.large_class c).count = (Es.map (fun E => (E.large_class c).count)).sum ∧
                    (D.large_class c).missed = (Es.map (fun E => (E.large_class c).missed)).sum
  all        : D.total_class.count = (Es.map (fun E => E.total_class.count)).sum ∧
               D.total_class.missed = (Es.map (fun E => E.total_class.missed)).sum
  conf       : ∀ k, confErrors k D = (Es.map (confErrors k)).sum ∧ confMarked k D = (Es.map (confMarked k)).sum
  keys       : ∀ k, k ∈ D.conftable.map Conf.key ↔ ∃ E ∈ Es, k ∈ E.conftable.map Conf.key
  nodup      : (D.conftable.map Conf.key).Nodup

/-- What is needed of the printing of percentages: no control characters, a bounded width, and 8 columns for a percentage
between 0 and 100. -/
structure PctFormat (pct : Int → Int → List Nat) : Prop where
  bytes : ∀ n d, ∀ b ∈ pct n d, b ≠ 10 ∧ b ≠ 0
  len   : ∀ n d, (pct n d).length ≤ 40
  width : ∀ n d, 0 ≤ n → n ≤ d → 0 < d → (pct n d).length = 8

/-- Data whose figures fit a report: every enumeration of characters has 0 ≤ missed ≤ count < 10^8 and agrees with the
classes, and the confusions have lines as keys and figures from 0 to 10^8 - 1. -/
structure Reportable (D : Accdata) : Prop where
  long         : Report.IsLong D.characters ∧ Report.IsLong D.errors ∧ Report.IsLong D.reject_characters ∧
                 Report.IsLong D.suspect_markers ∧ Report.IsLong D.false_marks
  ops          : ∀ o ∈ [D.marked_ops, D.unmarked_ops, D.total_ops],
                 Report.IsLong o.ins ∧ Report.IsLong o.subst ∧ Report.IsLong o.del ∧ Report.IsLong o.errors
  small        : ∀ v, 0 ≤ (D.small_class v).missed ∧ (D.small_class v).missed ≤ (D.small_class v).count ∧
                 (D.small_class v).count < 10^8
  outside      : ∀ v, 0x10FFFF ≤ v → (D.small_class v).count = 0
  large        : ∀ c, (D.large_class c).count =
                   (((List.range NUM_CHARVALUES).filter (fun v => charclass v = .ok c)).map (fun v => (D.small_class v).count)).sum ∧
                 (D.large_class c).missed =
                   (((List.range NUM_CHARVALUES).filter (fun v => charclass v = .ok c)).map (fun v => (D.small_class v).missed)).sum
  all          : D.total_class.count = ((List.range NUM_CHARVALUES).map (fun v => (D.small_class v).count)).sum ∧
                 D.total_class.missed = ((List.range NUM_CHARVALUES).map (fun v => (D.small_class v).missed)).sum
  nochars      : D.characters ≤ 0 → ∀ v, (D.small_class v).count = 0
  noerrors     : D.errors ≤ 0 → D.conftable = []
  nodup        : (D.conftable.map Conf.key).Nodup
  confs        : ∀ c ∈ D.conftable, 0 ≤ c.errors ∧ c.errors < 10^8 ∧ 0 ≤ c.marked ∧ c.marked < 10^8
  conf_keys    : ∀ c ∈ D.conftable, ∃ s, c.key = s ++ [10] ∧ 10 ∉ s ∧ 0 ∉ s ∧ s.length ≤ 77

/-- The same data, except that the confusions may be stored in another order. -/
def Accdata.Same (D E : Accdata) : Prop := E = { D with conftable := E.conftable } ∧ D.conftable.Perm E.conftable

end Ocr.Acc
