import Verif.Proof.Charclass
import Verif.Spec.Charclass

/-!
# C15: character classes
-/

namespace Ocr.Charclass
open Text Res

theorem lastName_eq (v : Nat) : ∀ (rs : List Range) (d : String), lastName d rs v =
    match (rs.filter (fun r => r.start ≤ v ∧ v ≤ r.stop)).getLast? with
    | some r => r.name
    | none => d := by
  intro rs
  induction rs with
  | nil => intro d; rfl
  | cons r rs ih =>
    intro d
    rw [lastName, ih]
    by_cases h : r.start ≤ v ∧ v ≤ r.stop
    · rw [if_pos h, List.filter_cons_of_pos (by simpa using h), List.getLast?_cons]
      cases (rs.filter (fun r => r.start ≤ v ∧ v ≤ r.stop)).getLast? <;> rfl
    · rw [if_neg h, List.filter_cons_of_neg (by simpa using h)]

theorem charclass_total : ∃ t : CTab, t.names.length ≤ 256 ∧ Good t className ∧
    (∀ v, charclass v = if v < 0x10FFFF then .ok (t.cls v) else .ub) ∧
    (∀ v, charclass_name (t.cls v) = .ok (className v)) := by
  obtain ⟨t, e, l, h⟩ := initialize_spec
  have hf : (fun v => lastName "Unassigned" ranges v) = className := by
    funext v; rw [lastName_eq]; rfl
  rw [hf] at h
  refine ⟨t, l, h, ?_, ?_⟩
  · intro v; unfold charclass; rw [e]; rfl
  · intro v
    unfold charclass_name
    rw [e, bind_ok]
    have := h.name v
    have hlt := (List.getElem?_eq_some_iff.1 this).1
    rw [if_neg (by omega)]
    unfold rd; rw [this]

/-- C15.  For every code point but the last, `charclass` returns a number below 256 whose `charclass_name` is the
documented class of the character. -/
theorem c15_class (v : Nat) (hv : v < 0x10FFFF) :
    ∃ c, charclass v = .ok c ∧ c < 256 ∧ charclass_name c = .ok (className v) := by
  obtain ⟨t, l, h, h1, h2⟩ := charclass_total
  refine ⟨t.cls v, by rw [h1, if_pos hv], ?_, h2 v⟩
  have := (List.getElem?_eq_some_iff.1 (h.name v)).1
  omega

/-- C15, continued: two characters get the same class number exactly when their documented classes are the same. -/
theorem c15_same (v w : Nat) (hv : v < 0x10FFFF) (hw : w < 0x10FFFF) :
    charclass v = charclass w ↔ className v = className w := by
  obtain ⟨t, l, h, h1, h2⟩ := charclass_total
  rw [h1, h1, if_pos hv, if_pos hw]
  constructor
  · intro e
    have e := Res.ok.inj e
    have a := h.name v
    rw [e, h.name w] at a
    exact (Option.some.inj a).symm
  · intro e
    congr 1
    have a := h.name v
    have b := h.name w
    rw [e, ← b] at a
    exact (List.getElem?_inj (List.getElem?_eq_some_iff.1 (h.name v)).1 h.nodup).1 a

/-- C15, the exception: the table has no element for U+10FFFF, so its class is read from outside the table. -/
theorem c15_last : charclass 0x10FFFF = .ub := by
  obtain ⟨t, l, h, h1, h2⟩ := charclass_total
  rw [h1]; rfl

example : className 0x5B = "ASCII Special Symbols" := by decide +kernel
example : className 0 = "ASCII Control Codes" := by decide +kernel
example : className 0x10FFFE = "Unassigned" := by decide +kernel
example : className 0x05D0 = "Basic Hebrew" := by decide +kernel

end Ocr.Charclass
