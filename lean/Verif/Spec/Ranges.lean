import Verif.Model.AccData
import Verif.Model.Edorpt
import Verif.Model.Wacrpt

/-!
# Figures that are at most as large as the texts
-/

namespace Ocr

/-- A number between 0 and `n`. -/
def UpTo (n : Nat) (x : Int) : Prop := 0 ≤ x ∧ x ≤ n

/-- All four figures of a row of edit operations are between 0 and `n`. -/
def Acc.Accops.UpTo (n : Nat) (o : Accops) : Prop :=
  Ocr.UpTo n o.ins ∧ Ocr.UpTo n o.subst ∧ Ocr.UpTo n o.del ∧ Ocr.UpTo n o.errors

/-- All figures of an accuracy report are between 0 and `n`. -/
structure Acc.Accdata.UpTo (n : Nat) (D : Accdata) : Prop where
  characters        : Ocr.UpTo n D.characters
  errors            : Ocr.UpTo n D.errors
  reject_characters : Ocr.UpTo n D.reject_characters
  suspect_markers   : Ocr.UpTo n D.suspect_markers
  false_marks       : Ocr.UpTo n D.false_marks
  marked_ops        : D.marked_ops.UpTo n
  unmarked_ops      : D.unmarked_ops.UpTo n
  total_ops         : D.total_ops.UpTo n
  large_class       : ∀ c, Ocr.UpTo n (D.large_class c).count ∧ Ocr.UpTo n (D.large_class c).missed
  total_class       : Ocr.UpTo n D.total_class.count ∧ Ocr.UpTo n D.total_class.missed
  small_class       : ∀ v, Ocr.UpTo n (D.small_class v).count ∧ Ocr.UpTo n (D.small_class v).missed
  conftable         : ∀ c ∈ D.conftable, Ocr.UpTo n c.errors ∧ Ocr.UpTo n c.marked

/-- All figures of a report of edit operations are between 0 and `n`. -/
structure Edo.Edodata.UpTo (n : Nat) (D : Edodata) : Prop where
  insertions : Ocr.UpTo n D.total_insertions
  deletions  : Ocr.UpTo n D.total_deletions
  total      : Ocr.UpTo n D.total_moves
  moves      : ∀ i, Ocr.UpTo n (D.moves i)

/-- A pair of a count between 0 and `n` and the number of those missed. -/
def Wac.Wac.UpTo (n : Nat) (w : Wac) : Prop := Ocr.UpTo n w.count ∧ 0 ≤ w.missed ∧ w.missed ≤ w.count

/-- All figures of a word accuracy report are between 0 and `n`, and no more words are missed than there are. -/
structure Wac.Wacdata.UpTo (n : Nat) (D : Wacdata) : Prop where
  total    : D.total.UpTo n
  stopword : ∀ i, (D.stopword i).UpTo n
  non      : ∀ i, (D.non_stopword i).UpTo n
  distinct : ∀ i, (D.distinct_non_stopword i).UpTo n
  phrase   : ∀ i, (D.phrase i).UpTo n
  table1   : ∀ t ∈ D.stopword_table, (⟨t.count, t.missed⟩ : Wac).UpTo n
  table2   : ∀ t ∈ D.non_stopword_table, (⟨t.count, t.missed⟩ : Wac).UpTo n

end Ocr
