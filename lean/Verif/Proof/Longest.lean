import Verif.Proof.Fastukk

/-!
# longest_match finds a longest common run
-/

namespace Ocr.Sync
open Text Res

/-- Matching characters at `s1, s1 + 1, ...` and `s2, s2 + 1, ...`. -/
def Run (c1 c2 : List Nat) (s1 s2 t : Int) : Prop := ∀ x, 0 ≤ x → x < t → MtAt c1 c2 (s1 + x) (s2 + x)

theorem matchRun_spec {c1 c2 : List Nat} {stop1 stop2 : Int} (h1 : stop1 < c1.length) (h2 : stop2 < c2.length) :
    ∀ (fuel : Nat) (i1 i2 : Int), 0 ≤ i1 → 0 ≤ i2 → stop1 - i1 + 1 ≤ fuel →
    ∃ r, matchRun c1 c2 stop1 stop2 fuel i1 i2 = .ok r ∧ i1 ≤ r ∧ (r ≤ stop1 + 1 ∨ r = i1) ∧ (i2 + (r - i1) ≤ stop2 + 1 ∨ r = i1) ∧
      Run c1 c2 i1 i2 (r - i1) ∧ (r ≤ stop1 → i2 + (r - i1) ≤ stop2 → ¬ MtAt c1 c2 r (i2 + (r - i1))) := by
  intro fuel
  induction fuel with
  | zero =>
    intro i1 i2 g1 g2 g3
    unfold matchRun
    rw [if_neg (by omega)]
    exact ⟨i1, rfl, le_refl _, Or.inr rfl, Or.inr rfl, by intro x; omega, by intro; omega⟩
  | succ fuel ih =>
    intro i1 i2 g1 g2 g3
    unfold matchRun
    by_cases hlt : i1 ≤ stop1 ∧ i2 ≤ stop2
    · rw [if_pos hlt]
      have ha : i1.toNat < c1.length := by omega
      have hb : i2.toNat < c2.length := by omega
      rw [rdI_eq g1 (List.getElem?_eq_getElem ha), rdI_eq g2 (List.getElem?_eq_getElem hb)]
      simp only [bind_ok]
      have hmt := mtAt_iff (a := c1) (b := c2) g1 g2 (by omega) (by omega)
      by_cases hm : c1[i1.toNat] = c2[i2.toNat] ∧ c1[i1.toNat] ≠ REJECT_CHARACTER
      · rw [if_pos hm]
        obtain ⟨r, e, r1, r2, r3, r4, r5⟩ := ih (i1 + 1) (i2 + 1) (by omega) (by omega) (by omega)
        refine ⟨r, e, by omega, by omega, by omega, ?_, ?_⟩
        · intro x x1 x2
          by_cases hx : x = 0
          · subst hx; simpa using hmt.2 hm
          · have := r4 (x - 1) (by omega) (by omega)
            rwa [show i1 + 1 + (x - 1) = i1 + x by omega, show i2 + 1 + (x - 1) = i2 + x by omega] at this
        · intro q1 q2
          have := r5 q1 (by omega)
          rwa [show i2 + 1 + (r - (i1 + 1)) = i2 + (r - i1) by omega] at this
      · rw [if_neg hm]
        refine ⟨i1, rfl, le_refl _, Or.inr rfl, Or.inr rfl, by intro x; omega, ?_⟩
        intro _ _ h
        rw [show i2 + (i1 - i1) = i2 by omega] at h
        exact hm (hmt.1 h)
    · rw [if_neg hlt]
      exact ⟨i1, rfl, le_refl _, Or.inr rfl, Or.inr rfl, by intro x; omega, by intro; omega⟩

section
variable (c1 c2 : List Nat) (maxlen0 start1 stop1 start2 stop2 : Int) (m0 : Option (Int × Int))

/-- No run at `(s1, s2)` within the ranges is longer than `n`. -/
def NoLonger (s1 s2 n : Int) : Prop :=
  ∀ t, s1 + t - 1 ≤ stop1 → s2 + t - 1 ≤ stop2 → Run c1 c2 s1 s2 t → t ≤ n

/-- No run that begins before `(s1, s2)` is longer than `n`. -/
def NoneBefore (s1 s2 n : Int) : Prop :=
  ∀ s1' s2', start1 ≤ s1' → start2 ≤ s2' → (s1' < s1 ∨ s1' = s1 ∧ s2' < s2) → NoLonger c1 c2 stop1 stop2 s1' s2' n

/-- Invariant of the search. -/
structure LMOK (st : LM) : Prop where
  l1 : st.s1limit = stop1 - st.maxlen
  l2 : st.s2limit = stop2 - st.maxlen
  ge : maxlen0 ≤ st.maxlen
  found : (st.maxlen = maxlen0 ∧ st.mstart = m0) ∨ (maxlen0 < st.maxlen ∧ ∃ s1 s2, st.mstart = some (s1, s2) ∧
    start1 ≤ s1 ∧ s1 + st.maxlen - 1 ≤ stop1 ∧ start2 ≤ s2 ∧ s2 + st.maxlen - 1 ≤ stop2 ∧ Run c1 c2 s1 s2 st.maxlen ∧
    NoneBefore c1 c2 start1 stop1 start2 stop2 s1 s2 (st.maxlen - 1))

end

variable {c1 c2 : List Nat} {maxlen0 start1 stop1 start2 stop2 : Int} {m0 : Option (Int × Int)}

theorem step_spec (hp : 0 ≤ maxlen0) (h1 : stop1 < c1.length) (h2 : stop2 < c2.length) (g1 : 0 ≤ start1) (g2 : 0 ≤ start2)
    {s1 s2 : Int} {st : LM} (hs1 : start1 ≤ s1) (hs2 : start2 ≤ s2) (hs1' : s1 ≤ stop1) (hs2' : s2 ≤ stop2)
    (hbef : NoneBefore c1 c2 start1 stop1 start2 stop2 s1 s2 st.maxlen)
    (h : LMOK c1 c2 maxlen0 start1 stop1 start2 stop2 m0 st) :
    ∃ st', longestStep c1 c2 stop1 stop2 s1 s2 st = .ok st' ∧ LMOK c1 c2 maxlen0 start1 stop1 start2 stop2 m0 st' ∧
      st.maxlen ≤ st'.maxlen ∧ NoLonger c1 c2 stop1 stop2 s1 s2 st'.maxlen := by
  unfold longestStep
  have ha : s1.toNat < c1.length := by omega
  have hb : s2.toNat < c2.length := by omega
  rw [rdI_eq (by omega) (List.getElem?_eq_getElem ha), rdI_eq (by omega) (List.getElem?_eq_getElem hb)]
  simp only [bind_ok]
  have hmt := mtAt_iff (a := c1) (b := c2) (i := s1) (j := s2) (by omega) (by omega) (by omega) (by omega)
  have hge := h.ge
  by_cases hm : c1[s1.toNat] = c2[s2.toNat] ∧ c1[s1.toNat] ≠ REJECT_CHARACTER
  · rw [if_pos hm]
    obtain ⟨r, e, r1, r2, r3, r4, r5⟩ := matchRun_spec h1 h2 c1.length (s1 + 1) (s2 + 1) (by omega) (by omega) (by omega)
    rw [e]
    simp only [bind_ok]
    have hrun : Run c1 c2 s1 s2 (r - s1) := by
      intro x x1 x2
      by_cases hx : x = 0
      · subst hx; simpa using hmt.2 hm
      · have := r4 (x - 1) (by omega) (by omega)
        rwa [show s1 + 1 + (x - 1) = s1 + x by omega, show s2 + 1 + (x - 1) = s2 + x by omega] at this
    have hno : NoLonger c1 c2 stop1 stop2 s1 s2 (r - s1) := by
      intro t t1 t2 ht
      by_contra hc
      have := ht (r - s1) (by omega) (by omega)
      refine r5 (by omega) (by omega) ?_
      rwa [show s1 + (r - s1) = r by omega, show s2 + (r - s1) = s2 + 1 + (r - (s1 + 1)) by omega] at this
    by_cases hinc : r - s1 - st.maxlen > 0
    · rw [if_pos hinc]
      refine ⟨_, rfl, ⟨?_, ?_, ?_, ?_⟩, ?_, ?_⟩
      · simp only; rw [h.l1]; omega
      · simp only; rw [h.l2]; omega
      · simp only; omega
      · right
        simp only
        rw [show st.maxlen + (r - s1 - st.maxlen) = r - s1 by omega]
        exact ⟨by omega, s1, s2, rfl, hs1, by omega, hs2, by omega, hrun, by
          intro s1' s2' q1 q2 q3 t t1 t2 ht
          have := hbef s1' s2' q1 q2 q3 t t1 t2 ht
          omega⟩
      · simp only; omega
      · simp only
        rw [show st.maxlen + (r - s1 - st.maxlen) = r - s1 by omega]
        exact hno
    · rw [if_neg hinc]
      refine ⟨st, rfl, h, le_refl _, ?_⟩
      intro t t1 t2 ht
      have := hno t t1 t2 ht
      omega
  · rw [if_neg hm]
    refine ⟨st, rfl, h, le_refl _, ?_⟩
    intro t t1 t2 ht
    by_contra hc
    have := ht 0 (le_refl _) (by omega)
    simp only [Int.add_zero] at this
    exact hm (hmt.1 this)

theorem inner_spec (hp : 0 ≤ maxlen0) (h1 : stop1 < c1.length) (h2 : stop2 < c2.length) (g1 : 0 ≤ start1) (g2 : 0 ≤ start2)
    {s1 : Int} (hs1 : start1 ≤ s1) (hs1' : s1 ≤ stop1) : ∀ (fuel : Nat) (s2 : Int) (st : LM), start2 ≤ s2 → stop2 - s2 + 1 ≤ fuel →
    LMOK c1 c2 maxlen0 start1 stop1 start2 stop2 m0 st →
    (∀ s1' s2', start1 ≤ s1' → s1' < s1 → start2 ≤ s2' → NoLonger c1 c2 stop1 stop2 s1' s2' st.maxlen) →
    (∀ s2', start2 ≤ s2' → s2' < s2 → NoLonger c1 c2 stop1 stop2 s1 s2' st.maxlen) →
    ∃ st', longestInner c1 c2 stop1 stop2 s1 fuel s2 st = .ok st' ∧ LMOK c1 c2 maxlen0 start1 stop1 start2 stop2 m0 st' ∧
      st.maxlen ≤ st'.maxlen ∧ ∀ s2', start2 ≤ s2' → NoLonger c1 c2 stop1 stop2 s1 s2' st'.maxlen := by
  intro fuel
  induction fuel with
  | zero =>
    intro s2 st k1 k2 h hout hprev
    have hge := h.ge
    have hl2 := h.l2
    unfold longestInner
    rw [if_neg (by omega)]
    refine ⟨st, rfl, h, le_refl _, ?_⟩
    intro s2' q
    by_cases hq : s2' < s2
    · exact hprev s2' q hq
    · intro t t1 t2 _; omega
  | succ fuel ih =>
    intro s2 st k1 k2 h hout hprev
    have hge := h.ge
    have hl2 := h.l2
    unfold longestInner
    by_cases hc : s2 ≤ st.s2limit
    · rw [if_pos hc]
      obtain ⟨st1, e1, o1, m1, n1⟩ := step_spec hp h1 h2 g1 g2 hs1 k1 hs1' (by omega) (by
        intro s1' s2' q1 q2 q3
        rcases q3 with q3 | ⟨rfl, q3⟩
        · exact hout s1' s2' q1 q3 q2
        · exact hprev s2' q2 q3) h
      rw [e1]
      simp only [bind_ok]
      obtain ⟨st2, e2, o2, m2, n2⟩ := ih (s2 + 1) st1 (by omega) (by omega) o1 (by
        intro s1' s2' q1 q2 q3 t t1 t2 ht
        have := hout s1' s2' q1 q2 q3 t t1 t2 ht; omega) (by
        intro s2' q1 q2 t t1 t2 ht
        by_cases hq : s2' = s2
        · subst hq; exact n1 t t1 t2 ht
        · have := hprev s2' q1 (by omega) t t1 t2 ht; omega)
      exact ⟨st2, e2, o2, by omega, n2⟩
    · rw [if_neg hc]
      refine ⟨st, rfl, h, le_refl _, ?_⟩
      intro s2' q
      by_cases hq : s2' < s2
      · exact hprev s2' q hq
      · intro t t1 t2 _; omega

theorem outer_spec (hp : 0 ≤ maxlen0) (h1 : stop1 < c1.length) (h2 : stop2 < c2.length) (g1 : 0 ≤ start1) (g2 : 0 ≤ start2) :
    ∀ (fuel : Nat) (s1 : Int) (st : LM), start1 ≤ s1 → stop1 - s1 + 1 ≤ fuel →
    LMOK c1 c2 maxlen0 start1 stop1 start2 stop2 m0 st →
    (∀ s1' s2', start1 ≤ s1' → s1' < s1 → start2 ≤ s2' → NoLonger c1 c2 stop1 stop2 s1' s2' st.maxlen) →
    ∃ st', longestOuter c1 c2 stop1 start2 stop2 fuel s1 st = .ok st' ∧ LMOK c1 c2 maxlen0 start1 stop1 start2 stop2 m0 st' ∧
      ∀ s1' s2', start1 ≤ s1' → start2 ≤ s2' → NoLonger c1 c2 stop1 stop2 s1' s2' st'.maxlen := by
  intro fuel
  induction fuel with
  | zero =>
    intro s1 st k1 k2 h hprev
    have hge := h.ge
    have hl1 := h.l1
    unfold longestOuter
    rw [if_neg (by omega)]
    refine ⟨st, rfl, h, ?_⟩
    intro s1' s2' q q2
    by_cases hq : s1' < s1
    · exact hprev s1' s2' q hq q2
    · intro t t1 t2 _; omega
  | succ fuel ih =>
    intro s1 st k1 k2 h hprev
    have hge := h.ge
    have hl1 := h.l1
    unfold longestOuter
    by_cases hc : s1 ≤ st.s1limit
    · rw [if_pos hc]
      obtain ⟨st1, e1, o1, m1, n1⟩ := inner_spec hp h1 h2 g1 g2 k1 (by omega) c2.length start2 st (le_refl _) (by omega) h
        hprev (by intros; omega)
      rw [e1]
      simp only [bind_ok]
      obtain ⟨st2, e2, o2, n2⟩ := ih (s1 + 1) st1 (by omega) (by omega) o1 (by
        intro s1' s2' q1 q2 q3 t t1 t2 ht
        by_cases hq : s1' = s1
        · subst hq; exact n1 s2' q3 t t1 t2 ht
        · have := hprev s1' s2' q1 (by omega) q3 t t1 t2 ht; omega)
      exact ⟨st2, e2, o2, n2⟩
    · rw [if_neg hc]
      refine ⟨st, rfl, h, ?_⟩
      intro s1' s2' q q2
      by_cases hq : s1' < s1
      · exact hprev s1' s2' q hq q2
      · intro t t1 t2 _; omega

/-- `longest_match` improves `maxlen` to the length of a longest common run, if that is longer, and
finds the first such run. -/
theorem longest_first (hp : 0 ≤ maxlen0) (h1 : stop1 < c1.length) (h2 : stop2 < c2.length) (g1 : 0 ≤ start1) (g2 : 0 ≤ start2) :
    ∃ len m, longest_match maxlen0 c1 start1 stop1 c2 start2 stop2 m0 = .ok (len, m) ∧ maxlen0 ≤ len ∧
      ((len = maxlen0 ∧ m = m0) ∨ (maxlen0 < len ∧ ∃ s1 s2, m = some (s1, s2) ∧
        start1 ≤ s1 ∧ s1 + len - 1 ≤ stop1 ∧ start2 ≤ s2 ∧ s2 + len - 1 ≤ stop2 ∧ Run c1 c2 s1 s2 len ∧
        NoneBefore c1 c2 start1 stop1 start2 stop2 s1 s2 (len - 1))) ∧
      ∀ s1 s2, start1 ≤ s1 → start2 ≤ s2 → NoLonger c1 c2 stop1 stop2 s1 s2 len := by
  unfold longest_match
  obtain ⟨st, e, o, n⟩ := outer_spec (m0 := m0) hp h1 h2 g1 g2 c1.length start1 ⟨stop1 - maxlen0, stop2 - maxlen0, maxlen0, m0⟩
    (le_refl _) (by omega) ⟨rfl, rfl, le_refl _, Or.inl ⟨rfl, rfl⟩⟩ (by intros; omega)
  rw [e]
  exact ⟨st.maxlen, st.mstart, rfl, o.ge, o.found, n⟩

/-- `longest_match` improves `maxlen` to the length of a longest common run, if that is longer. -/
theorem longest_spec (hp : 0 ≤ maxlen0) (h1 : stop1 < c1.length) (h2 : stop2 < c2.length) (g1 : 0 ≤ start1) (g2 : 0 ≤ start2) :
    ∃ len m, longest_match maxlen0 c1 start1 stop1 c2 start2 stop2 m0 = .ok (len, m) ∧ maxlen0 ≤ len ∧
      ((len = maxlen0 ∧ m = m0) ∨ (maxlen0 < len ∧ ∃ s1 s2, m = some (s1, s2) ∧
        start1 ≤ s1 ∧ s1 + len - 1 ≤ stop1 ∧ start2 ≤ s2 ∧ s2 + len - 1 ≤ stop2 ∧ Run c1 c2 s1 s2 len)) ∧
      ∀ s1 s2, start1 ≤ s1 → start2 ≤ s2 → NoLonger c1 c2 stop1 stop2 s1 s2 len := by
  obtain ⟨len, m, e, h, f, n⟩ := longest_first (m0 := m0) hp h1 h2 g1 g2
  refine ⟨len, m, e, h, ?_, n⟩
  rcases f with f | ⟨f, s1, s2, f1, f2, f3, f4, f5, f6, _⟩
  · exact Or.inl f
  · exact Or.inr ⟨f, s1, s2, f1, f2, f3, f4, f5, f6⟩

end Ocr.Sync
