import Verif.Spec.Edit
import Mathlib.Tactic.Tauto
import Mathlib.Data.Nat.Basic
import Mathlib.Order.Lattice

namespace Ocr

/-- Does a pair of characters match? -/
def Mt (x y : Nat) : Prop := x = y ∧ x ≠ 126
instance (x y : Nat) : Decidable (Mt x y) := inferInstanceAs (Decidable (_ ∧ _))

/-- The edit distance by dynamic programming. -/
def lev : List Nat → List Nat → Nat
  | [], b => b.length
  | a@(_ :: _), [] => a.length
  | x :: a, y :: b => min (min (lev a (y :: b) + 1) (lev (x :: a) b + 1)) (lev a b + if Mt x y then 0 else 1)
  termination_by a b => a.length + b.length

@[simp] theorem lev_nil_left (b) : lev [] b = b.length := by rw [lev]
@[simp] theorem lev_nil_right (a) : lev a [] = a.length := by cases a <;> rw [lev] <;> rfl
theorem lev_cons (x a y b) : lev (x :: a) (y :: b) =
    min (min (lev a (y :: b) + 1) (lev (x :: a) b + 1)) (lev a b + if Mt x y then 0 else 1) := by rw [lev]

theorem edits_lev (a b : List Nat) : Edits a b (lev a b) := by
  fun_induction lev a b with
  | case1 b => induction b with
    | nil => exact .nil
    | cons y b ih => exact .ins y ih
  | case2 x a =>
    suffices h : ∀ a : List Nat, Edits a [] a.length from h _
    intro a; induction a with
    | nil => exact .nil
    | cons y b ih => exact .del y ih
  | case3 x a y b ih1 ih2 ih3 =>
    rcases le_total (min (lev a (y :: b) + 1) (lev (x :: a) b + 1)) (lev a b + if Mt x y then 0 else 1) with h | h
    · rw [min_eq_left h]
      rcases le_total (lev a (y :: b) + 1) (lev (x :: a) b + 1) with h | h
      · rw [min_eq_left h]; exact .del x ih1
      · rw [min_eq_right h]; exact .ins y ih2
    · rw [min_eq_right h]
      split
      · rename_i hm; obtain ⟨rfl, hm⟩ := hm; exact .keep x hm ih3
      · exact .subst x y ih3

theorem lev_le_del (x a b) : lev (x :: a) b ≤ lev a b + 1 := by
  cases b with
  | nil => simp
  | cons y b => rw [lev_cons]; omega

theorem lev_le_ins (a y b) : lev a (y :: b) ≤ lev a b + 1 := by
  cases a with
  | nil => simp
  | cons x a => rw [lev_cons]; omega

theorem lev_le_subst (x a y b) : lev (x :: a) (y :: b) ≤ lev a b + 1 := by
  rw [lev_cons]; split <;> omega

theorem lev_le_keep {x y} (h : Mt x y) (a b) : lev (x :: a) (y :: b) ≤ lev a b := by
  rw [lev_cons, if_pos h]; omega

theorem lev_le_edits {a b n} (h : Edits a b n) : lev a b ≤ n := by
  induction h with
  | nil => simp
  | keep c hc _ ih => exact le_trans (lev_le_keep ⟨rfl, hc⟩ _ _) ih
  | subst x y _ ih => exact le_trans (lev_le_subst _ _ _ _) (by omega)
  | del x _ ih => exact le_trans (lev_le_del _ _ _) (by omega)
  | ins y _ ih => exact le_trans (lev_le_ins _ _ _) (by omega)

theorem edits_drop_left {x a b n} (h : Edits (x :: a) b n) : ∃ n', n' ≤ n + 1 ∧ Edits a b n' := by
  generalize e : x :: a = xa at h
  induction h generalizing a with
  | nil => cases e
  | keep c hc h ih => cases e; exact ⟨_, le_refl _, .ins _ h⟩
  | subst x y h ih => cases e; exact ⟨_, by omega, .ins _ h⟩
  | del x h ih => cases e; exact ⟨_, by omega, h⟩
  | ins y h ih => obtain ⟨n', h1, h2⟩ := ih e; exact ⟨n' + 1, by omega, .ins y h2⟩

theorem edits_drop_right {y a b n} (h : Edits a (y :: b) n) : ∃ n', n' ≤ n + 1 ∧ Edits a b n' := by
  generalize e : y :: b = yb at h
  induction h generalizing b with
  | nil => cases e
  | keep c hc h ih => cases e; exact ⟨_, le_refl _, .del _ h⟩
  | subst x y h ih => cases e; exact ⟨_, by omega, .del _ h⟩
  | ins x h ih => cases e; exact ⟨_, by omega, h⟩
  | del y h ih => obtain ⟨n', h1, h2⟩ := ih e; exact ⟨n' + 1, by omega, .del y h2⟩

theorem edits_drop_both {x y a b n} (h : Edits (x :: a) (y :: b) n) : ∃ n', n' ≤ n ∧ Edits a b n' := by
  cases h with
  | keep c hc h => exact ⟨_, le_refl _, h⟩
  | subst x y h => exact ⟨_, by omega, h⟩
  | del x h => exact edits_drop_right h
  | ins y h => exact edits_drop_left h

/-- Dropping a character from both does not increase the distance. -/
theorem lev_drop_both (x a y b) : lev a b ≤ lev (x :: a) (y :: b) := by
  obtain ⟨n, h1, h2⟩ := edits_drop_both (edits_lev (x :: a) (y :: b))
  exact le_trans (lev_le_edits h2) h1

theorem lev_match {x y} (h : Mt x y) (a b) : lev (x :: a) (y :: b) = lev a b :=
  le_antisymm (lev_le_keep h a b) (lev_drop_both x a y b)

theorem lev_le_max (a b : List Nat) : lev a b ≤ max a.length b.length := by
  induction a generalizing b with
  | nil => simp
  | cons x a ih =>
    cases b with
    | nil => simp
    | cons y b =>
      have := ih b
      have := lev_le_subst x a y b
      simp only [List.length_cons]; omega

theorem edits_len {a b n} (h : Edits a b n) : a.length ≤ b.length + n ∧ b.length ≤ a.length + n := by
  induction h with
  | nil => simp
  | _ => simp only [List.length_cons]; omega

theorem lev_ge_len (a b : List Nat) : a.length ≤ b.length + lev a b ∧ b.length ≤ a.length + lev a b :=
  edits_len (edits_lev a b)

theorem edits_append {a b n a' b' n'} (h : Edits a b n) (h' : Edits a' b' n') : Edits (a ++ a') (b ++ b') (n + n') := by
  induction h with
  | nil => simpa using h'
  | keep c hc h ih => exact .keep c hc ih
  | @subst a b n x y h ih => rw [show n + 1 + n' = n + n' + 1 by omega]; exact .subst x y ih
  | @del a b n x h ih => rw [show n + 1 + n' = n + n' + 1 by omega]; exact .del x ih
  | @ins a b n y h ih => rw [show n + 1 + n' = n + n' + 1 by omega]; exact .ins y ih

theorem lev_append (a b a' b') : lev (a ++ a') (b ++ b') ≤ lev a b + lev a' b' :=
  lev_le_edits (edits_append (edits_lev a b) (edits_lev a' b'))

theorem lev_isEditDistance (a b) : IsEditDistance a b (lev a b) := ⟨edits_lev a b, fun _ h => lev_le_edits h⟩

theorem edit_distance_unique {a b d d'} (h : IsEditDistance a b d) (h' : IsEditDistance a b d') : d = d' :=
  le_antisymm (h.2 _ h'.1) (h'.2 _ h.1)

/-! ## Distances of prefixes and suffixes -/

/-- Distance of the suffixes from `(i, j)`. -/
def dsuf (a b : List Nat) (i j : Nat) : Nat := lev (a.drop i) (b.drop j)
/-- Distance of the prefixes up to `(i, j)`. -/
def dpre (a b : List Nat) (i j : Nat) : Nat := lev (a.take i) (b.take j)

theorem d_le (a b : List Nat) (i j : Nat) : lev a b ≤ dpre a b i j + dsuf a b i j := by
  have := lev_append (a.take i) (b.take j) (a.drop i) (b.drop j)
  simpa [dpre, dsuf] using this

theorem dsuf_le_max (a b : List Nat) (i j : Nat) : dsuf a b i j ≤ max (a.length - i) (b.length - j) := by
  have := lev_le_max (a.drop i) (b.drop j)
  simpa [dsuf] using this

theorem dsuf_ge (a b : List Nat) (i j : Nat) :
    a.length - i ≤ b.length - j + dsuf a b i j ∧ b.length - j ≤ a.length - i + dsuf a b i j := by
  have := lev_ge_len (a.drop i) (b.drop j)
  simpa [dsuf] using this

theorem dsuf_diag (a b : List Nat) (i j : Nat) (hi : i < a.length) (hj : j < b.length) :
    dsuf a b (i + 1) (j + 1) ≤ dsuf a b i j := by
  unfold dsuf
  rw [List.drop_eq_getElem_cons hi, List.drop_eq_getElem_cons hj]
  exact lev_drop_both _ _ _ _

theorem dsuf_diag_add (a b : List Nat) (t : Nat) : ∀ (i j : Nat), i + t ≤ a.length → j + t ≤ b.length →
    dsuf a b (i + t) (j + t) ≤ dsuf a b i j := by
  induction t with
  | zero => intros; exact le_refl _
  | succ t ih =>
    intro i j hi hj
    have h1 := ih (i + 1) (j + 1) (by omega) (by omega)
    have h2 := dsuf_diag a b i j (by omega) (by omega)
    rw [show i + (t + 1) = i + 1 + t by omega, show j + (t + 1) = j + 1 + t by omega]
    omega

theorem dsuf_match (a b : List Nat) (i j : Nat) (hi : i < a.length) (hj : j < b.length) (h : Mt a[i] b[j]) :
    dsuf a b i j = dsuf a b (i + 1) (j + 1) := by
  unfold dsuf
  rw [List.drop_eq_getElem_cons hi, List.drop_eq_getElem_cons hj]
  exact lev_match h _ _

theorem dpre_del (a b : List Nat) (i j : Nat) : dpre a b (i + 1) j ≤ dpre a b i j + 1 := by
  unfold dpre
  by_cases hi : i < a.length
  · have := lev_append (a.take i) (b.take j) [a[i]] []
    rw [List.take_succ_eq_append_getElem hi]
    simpa using this
  · rw [List.take_of_length_le (i := i + 1) (l := a) (by omega), List.take_of_length_le (i := i) (l := a) (by omega)]; omega

theorem dpre_ins (a b : List Nat) (i j : Nat) : dpre a b i (j + 1) ≤ dpre a b i j + 1 := by
  unfold dpre
  by_cases hj : j < b.length
  · have := lev_append (a.take i) (b.take j) [] [b[j]]
    rw [List.take_succ_eq_append_getElem hj]
    simpa using this
  · rw [List.take_of_length_le (i := j + 1) (by omega), List.take_of_length_le (i := j) (by omega)]; omega

theorem dpre_subst (a b : List Nat) (i j : Nat) (hi : i < a.length) (hj : j < b.length) :
    dpre a b (i + 1) (j + 1) ≤ dpre a b i j + 1 := by
  unfold dpre
  have := lev_append (a.take i) (b.take j) [a[i]] [b[j]]
  have h2 := lev_le_subst a[i] [] b[j] []
  rw [List.take_succ_eq_append_getElem hi, List.take_succ_eq_append_getElem hj]
  simp at h2
  omega

theorem dpre_match (a b : List Nat) (i j : Nat) (hi : i < a.length) (hj : j < b.length) (h : Mt a[i] b[j]) :
    dpre a b (i + 1) (j + 1) ≤ dpre a b i j := by
  unfold dpre
  have := lev_append (a.take i) (b.take j) [a[i]] [b[j]]
  have h2 := lev_match h [] []
  rw [List.take_succ_eq_append_getElem hi, List.take_succ_eq_append_getElem hj]
  simp at h2
  omega

/-- The first step of an optimal script from a point where no characters match. -/
theorem dsuf_step (a b : List Nat) (i j : Nat) (hi : i ≤ a.length) (hj : j ≤ b.length)
    (hno : ∀ (h1 : i < a.length) (h2 : j < b.length), ¬ Mt a[i] b[j]) (hne : ¬ (i = a.length ∧ j = b.length)) :
    (i < a.length ∧ dsuf a b (i + 1) j + 1 ≤ dsuf a b i j) ∨
    (j < b.length ∧ dsuf a b i (j + 1) + 1 ≤ dsuf a b i j) ∨
    (i < a.length ∧ j < b.length ∧ dsuf a b (i + 1) (j + 1) + 1 ≤ dsuf a b i j) := by
  unfold dsuf
  by_cases h1 : i < a.length
  · by_cases h2 : j < b.length
    · rw [List.drop_eq_getElem_cons h1, List.drop_eq_getElem_cons h2]
      have := lev_cons a[i] (a.drop (i + 1)) b[j] (b.drop (j + 1))
      rw [if_neg (hno h1 h2)] at this
      omega
    · left
      rw [List.drop_eq_nil_of_le (as := b) (by omega)]
      simp; omega
  · right; left
    rw [List.drop_eq_nil_of_le (as := a) (by omega)]
    simp; omega

end Ocr
