import Verif.Proof.Transpose

/-!
# C16-C20: synchronization
-/

namespace Ocr.Sync
open Text

/-- The character values of a text. -/
def values (text : List Ch) : List Nat := text.map Ch.value

/-- C16.  For all pairs of texts the synchronization found by `fastukk_sync` costs exactly the edit distance. -/
theorem c16_optimal (t0 t1 : List Ch) : ∃ r d, fastukk_sync t0 t1 = .ok r ∧ cost r.items = (d : Nat) ∧
    IsEditDistance (values t0) (values t1) d := by
  obtain ⟨r, h1, _, _, h4⟩ := fastukk_spec t0 t1
  exact ⟨r, _, h1, h4, lev_isEditDistance _ _⟩

/-- C17.  It is a valid alignment of the two texts, with matches numbered 1, 2, 3, ... in order. -/
theorem c17_alignment (t0 t1 : List Ch) : ∃ r, fastukk_sync t0 t1 = .ok r ∧
    IsAlignment [values t0, values t1] r.items ∧ Numbered r.items r.cells := by
  obtain ⟨r, h1, h2, h3, _⟩ := fastukk_spec t0 t1
  exact ⟨r, h1, h2, h3⟩

/-- C18.  The computation ends normally: it neither runs out of its loop bounds, nor accesses a table out of range, nor
reports "internal synchronization error". -/
theorem c18_no_error (t0 t1 : List Ch) : fastukk_sync t0 t1 ≠ .fuel ∧ fastukk_sync t0 t1 ≠ .ub ∧
    ∀ msg, fastukk_sync t0 t1 ≠ .err msg := by
  obtain ⟨r, h1, _⟩ := fastukk_spec t0 t1
  rw [h1]
  simp

/-- A text without marks. -/
def sampleText (s : String) : List Ch := (ascii s).map (fun v => ⟨false, v⟩)

example : (do let r ← fastukk_sync (sampleText "kitten") (sampleText "sitting"); pure (cost r.items) : Res Int) = .ok 3 := by
  decide +kernel
example : (do let r ← fastukk_sync (sampleText "a~b") (sampleText "a~b"); pure (r.items, cost r.items) : Res _) =
    .ok ([⟨[⟨0, 0, 1⟩, ⟨0, 0, 1⟩], some 1⟩, ⟨[⟨1, 1, 1⟩, ⟨1, 1, 1⟩], none⟩, ⟨[⟨2, 2, 1⟩, ⟨2, 2, 1⟩], some 0⟩], 1) := by
  decide +kernel
example : Edits (ascii "kitten") (ascii "sitting") 3 :=
  .subst _ _ (.keep _ (by decide) (.keep _ (by decide) (.keep _ (by decide) (.subst _ _ (.keep _ (by decide) (.ins _ .nil))))))

/-- C19.  For 2 to 16 texts `synchronize` ends normally with a valid alignment of all texts, its matches numbered
1, 2, 3, ... in order. -/
theorem c19_alignment (texts : List (List Nat)) (h1 : 2 ≤ texts.length) (h2 : texts.length ≤ 16) :
    ∃ r, synchronize texts = .ok r ∧ IsAlignment texts r.items ∧ Numbered r.items r.cells := by
  obtain ⟨r, e, a, n, _⟩ := synchronize_spec texts h1 h2
  exact ⟨r, e, a, n⟩

/-- C19 (rejection).  Any other number of texts is refused. -/
theorem c19_refuses (texts : List (List Nat)) (h : texts.length < 2 ∨ 16 < texts.length) :
    ∃ msg, synchronize texts = .err msg := by
  refine ⟨"invalid number of text streams", ?_⟩
  unfold synchronize
  rw [if_pos]
  simpa [MIN_STREAMS, MAX_STREAMS] using h

example : (do let r ← synchronize [ascii "ab~d", ascii "xab~d", ascii "abd"]; pure (r.items, r.cells 0, r.cells 1) : Res _) =
    .ok ([⟨[⟨0, -1, 0⟩, ⟨0, 0, 1⟩, ⟨0, -1, 0⟩], none⟩, ⟨[⟨0, 1, 2⟩, ⟨1, 2, 2⟩, ⟨0, 1, 2⟩], some 0⟩,
      ⟨[⟨2, 2, 1⟩, ⟨3, 3, 1⟩, ⟨2, 1, 0⟩], none⟩, ⟨[⟨3, 3, 1⟩, ⟨4, 4, 1⟩, ⟨2, 2, 1⟩], some 1⟩], 1, 2) := by decide +kernel

/-- C20.  `transpose_sync` ends normally.  Each list is an alignment of its own text; the matches are numbered 1, 2, 3,
... in the order of the first list; both lists carry the same match cells, each once; substrings with the same match
cell are equal; and no character other than the reject character is left unmatched on both sides. -/
theorem c20_transpose (a b : List Nat) : ∃ r, transpose_sync a b = .ok r ∧
    IsAlignment [a] r.items1 ∧ IsAlignment [b] r.items2 ∧ Numbered r.items1 r.cells ∧
    (r.items2.filterMap (·.mtch)).Perm (r.items1.filterMap (·.mtch)) ∧
    (∀ x ∈ r.items1, ∀ y ∈ r.items2, x.mtch ≠ none → x.mtch = y.mtch → piece a (x.sub 0) = piece b (y.sub 0)) ∧
    (∀ x ∈ r.items1, ∀ y ∈ r.items2, x.mtch = none → y.mtch = none → ∀ c, c ≠ 126 →
      c ∈ piece a (x.sub 0) → c ∉ piece b (y.sub 0)) :=
  transpose_spec a b

example : (do let r ← transpose_sync (ascii "abXc") (ascii "cYab"); pure (r.items1, r.items2, r.cells 0, r.cells 1) : Res _) =
    .ok ([⟨[⟨0, 1, 2⟩], some 0⟩, ⟨[⟨2, 2, 1⟩], none⟩, ⟨[⟨3, 3, 1⟩], some 1⟩],
      [⟨[⟨0, 0, 1⟩], some 1⟩, ⟨[⟨1, 1, 1⟩], none⟩, ⟨[⟨2, 3, 2⟩], some 0⟩], 1, 2) := by decide +kernel

end Ocr.Sync
