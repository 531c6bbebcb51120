import Verif.Model.Wordacc

/-!
# Longest common subsequences, and the words that are recognized
-/

namespace Ocr.Wordacc

/-- `c` is a common subsequence of `u` and `v` of maximum length. -/
structure IsLCS {α : Type} (c u v : List α) : Prop where
  left  : c.Sublist u
  right : c.Sublist v
  max   : ∀ c' : List α, c'.Sublist u → c'.Sublist v → c'.length ≤ c.length

/-- The words whose flag is set, in order. -/
def flagged (words : List (List Nat)) (flags : List Bool) : List (List Nat) :=
  ((words.zip flags).filter (fun x => x.2)).map (fun x => x.1)

/-- The numbers of words satisfying `p`, and of those among them that are not recognized. -/
def tally (p : List Nat → Bool) (words : List (List Nat × Bool)) : Wac.Wac :=
  ⟨words.countP (fun x => p x.1), words.countP (fun x => p x.1 && !x.2)⟩

/-- The table has one entry for each word satisfying `p`, with the numbers of its occurrences. -/
structure TableOf (p : List Nat → Bool) (words : List (List Nat × Bool)) (table : List Term) : Prop where
  nodup : (table.map Term.key).Nodup
  keys  : ∀ k, k ∈ table.map Term.key ↔ k ∈ words.map (fun x => x.1) ∧ p k = true
  entry : ∀ t ∈ table, t.count = words.countP (fun x => x.1 = t.key) ∧ t.missed = words.countP (fun x => x.1 = t.key && !x.2)

/-- The number of words occurring between `lo` and `hi` times among the `distinct` ones, and the number of those none of
whose occurrences is recognized. -/
def tallyDistinct (lo hi : Nat) (distinct : List (List Nat)) (words : List (List Nat × Bool)) : Wac.Wac :=
  let between := fun w => decide (lo ≤ words.countP (fun x => x.1 = w)) && decide (words.countP (fun x => x.1 = w) ≤ hi)
  ⟨distinct.countP between, distinct.countP (fun w => between w && words.all (fun x => !(decide (x.1 = w) && x.2)))⟩

/-- The numbers of windows of `L` consecutive words, and of those with at least one word that is not recognized. -/
def windows (L : Nat) (flags : List Bool) : Wac.Wac :=
  ⟨(flags.length + 1 - L : Nat), (List.range (flags.length + 1 - L)).countP (fun i => ((flags.drop i).take L).any (fun r => !r))⟩

/-- The figures are exactly what the words of the correct text and the flags say. -/
structure Exact (stop : List Nat → Bool) (words : List (List Nat × Bool)) (D : Wac.Wacdata) : Prop where
  total    : D.total = tally (fun _ => true) words
  stop0    : D.stopword 0 = tally stop words
  stopL    : ∀ i, 1 ≤ i → D.stopword i = tally (fun w => stop w && w.length == i) words
  non0     : D.non_stopword 0 = tally (fun w => !stop w) words
  nonL     : ∀ i, 1 ≤ i → D.non_stopword i = tally (fun w => !stop w && w.length == i) words
  distinct : ∀ E : List (List Nat), E.Nodup → (∀ w, w ∈ E ↔ w ∈ words.map (fun x => x.1) ∧ stop w = false) →
    D.distinct_non_stopword 0 = tallyDistinct 0 words.length E words ∧
    (∀ i, 1 ≤ i → i ≤ 10 → D.distinct_non_stopword i = tallyDistinct i i E words) ∧
    D.distinct_non_stopword 11 = tallyDistinct 11 words.length E words ∧ ∀ i, 11 < i → D.distinct_non_stopword i = ⟨0, 0⟩
  phrase   : D.phrase 0 = ⟨0, 0⟩ ∧ (∀ L, 1 ≤ L → L ≤ 8 → D.phrase L = windows L (words.map (fun x => x.2))) ∧
    ∀ L, 8 < L → D.phrase L = ⟨0, 0⟩
  table1   : TableOf stop words D.stopword_table
  table2   : TableOf (fun w => !stop w) words D.non_stopword_table

end Ocr.Wordacc
