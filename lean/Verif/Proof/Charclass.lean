import Verif.Model.Charclass

namespace Ocr.Charclass
open Text Res

/-- The name of the last of the ranges that contains `v`; `dflt` if none does. -/
def lastName (dflt : String) : List Range → Nat → String
  | [], _ => dflt
  | r :: rs, v => lastName (if r.start ≤ v ∧ v ≤ r.stop then r.name else dflt) rs v

theorem fillRange_spec (j : Nat) : ∀ (n k : Nat) (cls : Nat → Nat), k + n ≤ NUM_CHARVALUES →
    fillRange j n k cls = .ok (fun i => if k ≤ i ∧ i < k + n then j else cls i) := by
  intro n
  induction n with
  | zero =>
    intro k cls _
    rw [fillRange]; congr 1; funext i
    rw [if_neg (by omega)]
  | succ n ih =>
    intro k cls h
    rw [fillRange, if_pos (by omega), ih _ _ (by omega)]
    congr 1; funext i
    by_cases h1 : k + 1 ≤ i ∧ i < k + 1 + n
    · rw [if_pos h1, if_pos (by omega)]
    · rw [if_neg h1]
      by_cases h2 : i = k
      · rw [if_pos h2, if_pos (by omega)]
      · rw [if_neg h2, if_neg (by omega)]

/-- The class numbers and names describe the function `f`. -/
structure Good (t : CTab) (f : Nat → String) : Prop where
  nodup : t.names.Nodup
  name  : ∀ v, t.names[t.cls v]? = some (f v)

theorem initStep_spec {t : CTab} {f : Nat → String} (h : Good t f) (r : Range) (hs : r.stop < NUM_CHARVALUES)
    (hl : t.names.length < 256) : ∃ t', initStep t r = .ok t' ∧ t'.names.length ≤ t.names.length + 1 ∧
      Good t' (fun v => if r.start ≤ v ∧ v ≤ r.stop then r.name else f v) := by
  unfold initStep
  have hj := List.findIdx_le_length (p := fun x => decide (x = r.name)) (xs := t.names)
  by_cases hf : t.names.findIdx (· = r.name) = t.names.length
  · have hmem : r.name ∉ t.names := by
      intro hm
      have := List.findIdx_lt_length_of_exists (p := fun x => decide (x = r.name)) ⟨r.name, hm, by simp⟩
      omega
    simp only [hf, if_true]
    rw [if_neg (by unfold MAX_CHARCLASSES; omega)]
    simp only [bind_ok, pure_eq]
    by_cases hr : r.stop + 1 - r.start = 0
    · rw [hr]
      refine ⟨_, rfl, by simp, ?_, ?_⟩
      · exact List.nodup_append.2 ⟨h.nodup, by simp, by intro a ha b hb; simp at hb; subst hb; intro e; exact hmem (e ▸ ha)⟩
      · intro v
        simp only
        rw [if_neg (by omega), List.getElem?_append_left (by
          have := h.name v; exact (List.getElem?_eq_some_iff.1 this).1)]
        exact h.name v
    · rw [fillRange_spec _ _ _ _ (by omega)]
      refine ⟨_, rfl, by simp, ?_, ?_⟩
      · exact List.nodup_append.2 ⟨h.nodup, by simp, by intro a ha b hb; simp at hb; subst hb; intro e; exact hmem (e ▸ ha)⟩
      · intro v
        simp only
        by_cases hv : r.start ≤ v ∧ v ≤ r.stop
        · rw [if_pos hv, if_pos (by omega), Nat.mod_eq_of_lt hl]; simp
        · rw [if_neg hv, if_neg (by omega), List.getElem?_append_left (by
            have := h.name v; exact (List.getElem?_eq_some_iff.1 this).1)]
          exact h.name v
  · have hlt : t.names.findIdx (· = r.name) < t.names.length := by omega
    have hget := List.findIdx_getElem (w := hlt)
    simp only [decide_eq_true_eq] at hget
    simp only [hf, if_false, bind_ok, pure_eq]
    by_cases hr : r.stop + 1 - r.start = 0
    · rw [hr]
      refine ⟨_, rfl, by simp, h.nodup, ?_⟩
      intro v
      simp only
      rw [if_neg (by omega)]
      exact h.name v
    · rw [fillRange_spec _ _ _ _ (by omega)]
      refine ⟨_, rfl, by simp, h.nodup, ?_⟩
      intro v
      simp only
      by_cases hv : r.start ≤ v ∧ v ≤ r.stop
      · rw [if_pos hv, if_pos (by omega), Nat.mod_eq_of_lt (by omega), List.getElem?_eq_getElem hlt, hget]
      · rw [if_neg hv, if_neg (by omega)]; exact h.name v

theorem initLoop_spec (rs : List Range) : ∀ (t : CTab) (f : Nat → String), Good t f →
    (∀ r ∈ rs, r.stop < NUM_CHARVALUES) → t.names.length + rs.length ≤ 256 →
    ∃ t', initLoop rs t = .ok t' ∧ t'.names.length ≤ 256 ∧ Good t' (fun v => lastName (f v) rs v) := by
  induction rs with
  | nil => intro t f h _ hl; exact ⟨t, rfl, by simpa using hl, h⟩
  | cons r rs ih =>
    intro t f h hs hl
    simp only [List.length_cons] at hl
    obtain ⟨t1, e1, l1, h1⟩ := initStep_spec h r (hs r (by simp)) (by omega)
    obtain ⟨t2, e2, l2, h2⟩ := ih t1 _ h1 (fun r hr => hs r (by simp [hr])) (by omega)
    exact ⟨t2, by rw [initLoop, e1]; exact e2, l2, h2⟩

theorem initialize_spec : ∃ t, initialize_charclass = .ok t ∧ t.names.length ≤ 256 ∧
    Good t (fun v => lastName "Unassigned" ranges v) := by
  have hr : ranges = ⟨0, 0, "Unassigned"⟩ :: ranges.tail := rfl
  have e0 : initStep ⟨[], fun _ => 0⟩ ⟨0, 0, "Unassigned"⟩ = .ok ⟨["Unassigned"], fun _ => 0⟩ := by
    unfold initStep
    have hf := fillRange_spec 0 1 0 (fun _ => 0) (by unfold NUM_CHARVALUES; omega)
    simp [MAX_CHARCLASSES, hf]
  obtain ⟨t, e, l, h⟩ := initLoop_spec ranges.tail ⟨["Unassigned"], fun _ => 0⟩ (fun _ => "Unassigned")
    ⟨by simp, by intro v; simp⟩ (by decide +kernel) (by decide +kernel)
  refine ⟨t, ?_, l, ?_⟩
  · unfold initialize_charclass
    generalize ranges.tail = rs at *
    rw [hr, initLoop, e0, bind_ok]
    exact e
  · have : (fun v => lastName "Unassigned" ranges v) = (fun v => lastName "Unassigned" ranges.tail v) := by
      funext v
      generalize ranges.tail = rs at *
      rw [hr, lastName]
      simp only [ite_self]
    rw [this]; exact h

end Ocr.Charclass
