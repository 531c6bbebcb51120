import Verif.Model.Wacrpt
import Verif.Spec.Accrpt

/-!
# Sums of word accuracy data, and data that a word accuracy report can represent
-/

namespace Ocr.Wac

/-- The figures of the word `key` in a table. -/
def termCount (key : List Nat) (t : List Term) : Int := (t.map (fun c => if c.key = key then c.count else 0)).sum
def termMissed (key : List Nat) (t : List Term) : Int := (t.map (fun c => if c.key = key then c.missed else 0)).sum

/-- Column sums. -/
def sumWac (l : List Wac) : Wac := ⟨(l.map (·.count)).sum, (l.map (·.missed)).sum⟩

/-- The table `t` is the sum of the tables `ts`, word by word. -/
structure TableSum (ts : List (List Term)) (t : List Term) : Prop where
  count : ∀ k, termCount k t = (ts.map (termCount k)).sum ∧ termMissed k t = (ts.map (termMissed k)).sum
  keys  : ∀ k, k ∈ t.map Term.key ↔ ∃ u ∈ ts, k ∈ u.map Term.key
  nodup : (t.map Term.key).Nodup

/-- `D` is the sum of the data `Es`, figure by figure and word by word. -/
structure IsSum (Es : List Wacdata) (D : Wacdata) : Prop where
  total    : D.total = sumWac (Es.map (·.total))
  stop     : ∀ i, D.stopword i = sumWac (Es.map (·.stopword i))
  non      : ∀ i, D.non_stopword i = sumWac (Es.map (·.non_stopword i))
  distinct : ∀ i, D.distinct_non_stopword i = sumWac (Es.map (·.distinct_non_stopword i))
  phrase   : ∀ i, D.phrase i = sumWac (Es.map (·.phrase i))
  table1   : TableSum (Es.map (·.stopword_table)) D.stopword_table
  table2   : TableSum (Es.map (·.non_stopword_table)) D.non_stopword_table

/-- A pair of figures that fits its columns. -/
def Wac.Fits (w : Wac) : Prop := 0 ≤ w.missed ∧ w.missed ≤ w.count ∧ w.count < 10^8

/-- A table of words that can be listed: distinct words that fit on a line. -/
structure TableFits (t : List Term) : Prop where
  nodup : (t.map Term.key).Nodup
  fits  : ∀ w ∈ t, (⟨w.count, w.missed⟩ : Wac).Fits
  keys  : ∀ w ∈ t, 10 ∉ w.key ∧ 0 ∉ w.key ∧ w.key.length ≤ 68

/-- Data whose figures fit a report; what is not printed is zero. -/
structure Reportable (D : Wacdata) : Prop where
  total    : Report.IsLong D.total.count ∧ Report.IsLong D.total.missed
  stop     : ∀ i, (D.stopword i).Fits ∧ (50 < i → D.stopword i = ⟨0, 0⟩)
  non      : ∀ i, (D.non_stopword i).Fits ∧ (50 < i → D.non_stopword i = ⟨0, 0⟩)
  distinct : ∀ i, (D.distinct_non_stopword i).Fits ∧ (11 < i → D.distinct_non_stopword i = ⟨0, 0⟩)
  phrase   : ∀ i, (D.phrase i).Fits ∧ (8 < i → D.phrase i = ⟨0, 0⟩) ∧ D.phrase 0 = ⟨0, 0⟩ ∧
               (D.total.count ≤ 0 → D.phrase i = ⟨0, 0⟩)
  table1   : TableFits D.stopword_table
  table2   : TableFits D.non_stopword_table
  empty1   : D.total.count ≤ 0 ∨ (D.stopword 0).count ≤ 0 → D.stopword_table = []
  empty2   : D.total.count ≤ 0 ∨ (D.non_stopword 0).count ≤ 0 → D.non_stopword_table = []

/-- The same data, except that the words may be stored in another order. -/
def Wacdata.Same (D E : Wacdata) : Prop :=
  E = { D with stopword_table := E.stopword_table, non_stopword_table := E.non_stopword_table } ∧
    D.stopword_table.Perm E.stopword_table ∧ D.non_stopword_table.Perm E.non_stopword_table

end Ocr.Wac
