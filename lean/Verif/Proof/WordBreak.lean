import Verif.Spec.Word

/-!
# Word boundaries: the decisions of the loop are those of the rules
-/

namespace Ocr.Word
open WB

theorem ext_eq (p : WB) : ExtendOrFormat p = isExt p := by cases p <;> rfl

theorem continues_eot (b l a : WB) : continues b l eot a = false := by
  cases l <;> simp [continues, AHLetter, MidNumLetQ]

theorem ctx_sot (c : List WB) (X : List WB) (h : sot ∉ c) : matchesCtx [c] X = c.contains (X.headD sot) := by
  cases X with
  | nil => simp [matchesCtx, h]
  | cons x X => simp [matchesCtx]

theorem ctx_eot (c : List WB) (X : List WB) (h : eot ∉ c) : matchesCtx [c] X = c.contains (X.headD eot) := by
  cases X with
  | nil => simp [matchesCtx, h]
  | cons x X => simp [matchesCtx]

/-- The rules seen from the four properties the program looks at. -/
def forbids (b l r a : WB) : Bool :=
  rules.any (fun x =>
    (match x.left with
     | [c] => c.contains l
     | [c, d] => c.contains l && d.contains b
     | _ => false) &&
    (match x.right with
     | [c] => c.contains r
     | [c, d] => c.contains r && d.contains a
     | _ => false))

theorem forbidden_eq (l r : WB) (L R : List WB) : forbidden (l :: L) (r :: R) = forbids (L.headD sot) l r (R.headD eot) := by
  unfold forbidden forbids rules
  cases L <;> cases R <;> simp [matchesCtx, ahLetter, midNumLetQ]

def allWB : List WB := [Other, CR, LF, Newline, Extend, Regional_Indicator, Format, Katakana, Hebrew_Letter, ALetter,
  Single_Quote, Double_Quote, MidNumLet, MidLetter, MidNum, Numeric, ExtendNumLet, sot, eot]

theorem mem_allWB (p : WB) : p ∈ allWB := by cases p <;> decide

/-- Only three properties matter in the outer positions. -/
def farWB : List WB := [ALetter, Hebrew_Letter, Numeric, sot]

theorem far_left (b : WB) : ∃ b' ∈ farWB, ∀ l r a, continues b l r a = continues b' l r a ∧ forbids b l r a = forbids b' l r a := by
  cases b
  case ALetter => exact ⟨ALetter, by decide, fun _ _ _ => ⟨rfl, rfl⟩⟩
  case Hebrew_Letter => exact ⟨Hebrew_Letter, by decide, fun _ _ _ => ⟨rfl, rfl⟩⟩
  case Numeric => exact ⟨Numeric, by decide, fun _ _ _ => ⟨rfl, rfl⟩⟩
  all_goals exact ⟨sot, by decide, fun _ _ _ => ⟨rfl, rfl⟩⟩

theorem far_right (a : WB) : ∃ a' ∈ farWB, ∀ b l r, continues b l r a = continues b l r a' ∧ forbids b l r a = forbids b l r a' := by
  cases a
  case ALetter => exact ⟨ALetter, by decide, fun _ _ _ => ⟨rfl, rfl⟩⟩
  case Hebrew_Letter => exact ⟨Hebrew_Letter, by decide, fun _ _ _ => ⟨rfl, rfl⟩⟩
  case Numeric => exact ⟨Numeric, by decide, fun _ _ _ => ⟨rfl, rfl⟩⟩
  all_goals exact ⟨sot, by decide, fun _ _ _ => ⟨rfl, rfl⟩⟩

theorem continues_eq (b l r a : WB) : continues b l r a =
    (if l = CR ∧ r = LF then true else if isNewline l ∨ isNewline r then false else forbids b l r a) := by
  obtain ⟨b', hb, eb⟩ := far_left b
  obtain ⟨a', ha, ea⟩ := far_right a
  rw [(eb l r a).1, (eb l r a).2, (ea b' l r).1, (ea b' l r).2]
  have h : ∀ b ∈ farWB, ∀ l ∈ allWB, ∀ r ∈ allWB, ∀ a ∈ farWB, continues b l r a =
      (if l = CR ∧ r = LF then true else if isNewline l ∨ isNewline r then false else forbids b l r a) := by
    decide +kernel
  exact h b' hb l (mem_allWB l) r (mem_allWB r) a' ha

/-- If a rule depends on the character before, no boundary precedes the character on the left. -/
theorem forbids_sot (b l r a x : WB) (h : forbids b l r a = true) : forbids sot l r a = true ∨
    forbids x b l r = true ∧ isNewline b = false ∧ isNewline l = false := by
  obtain ⟨a', ha, ea⟩ := far_right a
  obtain ⟨x', hx, ex⟩ := far_left x
  rw [(ea b l r).2] at h
  rw [(ea sot l r).2, (ex b l r).2]
  have hb : b ∈ [ALetter, Hebrew_Letter, Numeric] ∨ ∀ l r a, forbids b l r a = forbids sot l r a := by
    cases b
    case ALetter => exact .inl (by decide)
    case Hebrew_Letter => exact .inl (by decide)
    case Numeric => exact .inl (by decide)
    all_goals exact .inr fun _ _ _ => rfl
  rcases hb with hb | hb
  rotate_left
  · rw [hb] at h; exact .inl h
  have key : ∀ b ∈ [ALetter, Hebrew_Letter, Numeric], ∀ l ∈ allWB, ∀ r ∈ allWB, ∀ a ∈ farWB, forbids b l r a = true → forbids sot l r a = true ∨
    (∀ x ∈ farWB, forbids x b l r = true) ∧ isNewline b = false ∧ isNewline l = false := by decide +kernel
  rcases key b hb l (mem_allWB l) r (mem_allWB r) a' ha h with h | ⟨h1, h2⟩
  · exact .inl h
  · exact .inr ⟨h1 x' hx, h2⟩

theorem forbids_mono (b l r a : WB) (h : forbids sot l r a = true) : forbids b l r a = true := by
  obtain ⟨b', hb, eb⟩ := far_left b
  obtain ⟨a', ha, ea⟩ := far_right a
  rw [(ea sot l r).2] at h
  rw [(eb l r a).2, (ea b' l r).2]
  have key : ∀ b ∈ farWB, ∀ l ∈ allWB, ∀ r ∈ allWB, ∀ a ∈ farWB, forbids sot l r a = true → forbids b l r a = true := by
    decide +kernel
  exact key b' hb l (mem_allWB l) r (mem_allWB r) a' ha h

/-- The decision of the loop is that of the rules for the whole text, if `lookbehind` is the character before, or `sot` at
the start of the text or after a boundary. -/
theorem decide_eq (b l r : WB) (L R : List WB)
    (h : b = L.headD sot ∨ b = sot ∧ (L = [] ∨ boundary L (l :: r :: R) = true)) :
    continues b l r (R.headD eot) = !boundary (l :: L) (r :: R) := by
  have key : continues b l r (R.headD eot) = continues (L.headD sot) l r (R.headD eot) := by
    rcases h with h | ⟨rfl, h⟩
    · rw [h]
    · cases L with
      | nil => rfl
      | cons b L =>
        rw [List.headD_cons]
        rcases h with h | h
        · simp at h
        rw [continues_eq, continues_eq]
        have : forbids sot l r (R.headD eot) = forbids b l r (R.headD eot) := by
          cases hf : forbids b l r (R.headD eot) with
          | false =>
            cases hs : forbids sot l r (R.headD eot) with
            | false => rfl
            | true => rw [forbids_mono _ _ _ _ hs] at hf; cases hf
          | true =>
            rcases forbids_sot _ _ _ _ (L.headD sot) hf with h' | ⟨h0, h', h''⟩
            · exact h'
            · simp only [boundary] at h
              split at h
              · simp at h
              rw [if_neg (by simp [h', h'']), forbidden_eq, List.headD_cons, h0] at h
              simp at h
        rw [this]
  rw [key, continues_eq, ← forbidden_eq]
  simp only [boundary]
  split
  · rfl
  · split <;> simp

end Ocr.Word
