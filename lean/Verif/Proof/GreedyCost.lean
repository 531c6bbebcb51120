import Verif.Proof.Transpose
import Verif.Model.GreedyCost
import Mathlib.Tactic.Linarith
import Mathlib.Tactic.Ring

/-!
# The work done by synchronize and transpose_sync
-/

namespace Ocr.Sync
open Text Res

theorem matchRunW_eq {c1 c2 : List Nat} {stop1 stop2 : Int} : ∀ (fuel : Nat) (i1 i2 : Int) (n : Nat) {r : Int},
    matchRun c1 c2 stop1 stop2 fuel i1 i2 = .ok r →
    i1 ≤ r ∧ (r ≤ stop1 + 1 ∨ r = i1) ∧ matchRunW c1 c2 stop1 stop2 fuel i1 i2 n = .ok (r, n + (r - i1).toNat + 1) := by
  intro fuel
  induction fuel with
  | zero =>
    intro i1 i2 n r h
    unfold matchRun at h
    unfold matchRunW
    by_cases hc : i1 ≤ stop1 ∧ i2 ≤ stop2
    · rw [if_pos hc] at h ⊢
      obtain ⟨x, hx, h⟩ := bind_eq_ok.1 h
      obtain ⟨y, hy, h⟩ := bind_eq_ok.1 h
      rw [hx, hy]
      simp only [bind_ok]
      by_cases hm : x = y ∧ x ≠ REJECT_CHARACTER
      · rw [if_pos hm] at h; simp at h
      · rw [if_neg hm] at h ⊢
        simp only [Res.ok.injEq] at h
        subst h
        simp
    · rw [if_neg hc] at h ⊢
      simp only [Res.ok.injEq] at h
      subst h
      simp
  | succ fuel ih =>
    intro i1 i2 n r h
    unfold matchRun at h
    unfold matchRunW
    by_cases hc : i1 ≤ stop1 ∧ i2 ≤ stop2
    · rw [if_pos hc] at h ⊢
      obtain ⟨x, hx, h⟩ := bind_eq_ok.1 h
      obtain ⟨y, hy, h⟩ := bind_eq_ok.1 h
      rw [hx, hy]
      simp only [bind_ok]
      by_cases hm : x = y ∧ x ≠ REJECT_CHARACTER
      · rw [if_pos hm] at h ⊢
        obtain ⟨h1, h2, h3⟩ := ih (i1 + 1) (i2 + 1) (n + 1) h
        refine ⟨by omega, by omega, ?_⟩
        rw [h3]
        congr 2
        omega
      · rw [if_neg hm] at h ⊢
        simp only [Res.ok.injEq] at h
        subst h
        simp
    · rw [if_neg hc] at h ⊢
      simp only [Res.ok.injEq] at h
      subst h
      simp

/-- What one part of the search costs and changes. -/
structure Searched (stop1 start1 : Int) (st st' : LM) (w w' : Tries) (k : Nat) : Prop where
  ge : st.maxlen ≤ st'.maxlen
  l1 : st'.s1limit + st'.maxlen = st.s1limit + st.maxlen
  l2 : st'.s2limit + st'.maxlen = st.s2limit + st.maxlen
  le : st'.maxlen ≤ max st.maxlen (stop1 + 1 - start1)
  low : w.pairs ≤ w'.pairs
  pairs : w'.pairs ≤ w.pairs + k
  tests : w'.tests ≤ w.tests + (w'.pairs - w.pairs) * st'.maxlen.toNat
  calls : w'.calls = w.calls
  found : st.maxlen < st'.maxlen → w.pairs < w'.pairs
  least : w.tests + (st'.maxlen - st.maxlen).toNat ≤ w'.tests

theorem Searched.refl (stop1 start1 : Int) (st : LM) (w : Tries) : Searched stop1 start1 st st w w 0 :=
  ⟨le_refl _, rfl, rfl, by omega, le_refl _, by omega, by omega, rfl, by omega, by omega⟩

theorem Searched.trans {stop1 start1 : Int} {st st' st'' : LM} {w w' w'' : Tries} {k k' : Nat}
    (h : Searched stop1 start1 st st' w w' k) (h' : Searched stop1 start1 st' st'' w' w'' k') :
    Searched stop1 start1 st st'' w w'' (k + k') := by
  obtain ⟨a1, a2, a3, a4, a5, a6, a7, a8, a9, a10⟩ := h
  obtain ⟨b1, b2, b3, b4, b5, b6, b7, b8, b9, b10⟩ := h'
  refine ⟨by omega, by omega, by omega, by omega, by omega, by omega, ?_, by omega, by omega, by omega⟩
  have h1 : (w'.pairs - w.pairs) * st'.maxlen.toNat ≤ (w'.pairs - w.pairs) * st''.maxlen.toNat :=
    Nat.mul_le_mul_left _ (by omega)
  have h2 : (w''.pairs - w.pairs) * st''.maxlen.toNat =
      (w'.pairs - w.pairs) * st''.maxlen.toNat + (w''.pairs - w'.pairs) * st''.maxlen.toNat := by
    rw [← Nat.add_mul]
    congr 1
    omega
  omega

theorem Searched.mono {stop1 start1 : Int} {st st' : LM} {w w' : Tries} {k k' : Nat}
    (h : Searched stop1 start1 st st' w w' k) (hk : k ≤ k') : Searched stop1 start1 st st' w w' k' :=
  ⟨h.ge, h.l1, h.l2, h.le, h.low, by have := h.pairs; omega, h.tests, h.calls, h.found, h.least⟩

theorem longestStepW_eq {c1 c2 : List Nat} {stop1 stop2 s1 s2 start1 : Int} {st st' : LM} (w : Tries)
    (hs : start1 ≤ s1) (hs' : s1 ≤ stop1) (hp : 0 ≤ st.maxlen)
    (h : longestStep c1 c2 stop1 stop2 s1 s2 st = .ok st') :
    ∃ w', longestStepW c1 c2 stop1 stop2 s1 s2 st w = .ok (st', w') ∧ Searched stop1 start1 st st' w w' 1 := by
  unfold longestStep at h
  unfold longestStepW
  obtain ⟨x, hx, h⟩ := bind_eq_ok.1 h
  obtain ⟨y, hy, h⟩ := bind_eq_ok.1 h
  rw [hx, hy]
  simp only [bind_ok]
  by_cases hm : x = y ∧ x ≠ REJECT_CHARACTER
  · rw [if_pos hm] at h ⊢
    obtain ⟨r, hr, h⟩ := bind_eq_ok.1 h
    obtain ⟨e1, e2, e3⟩ := matchRunW_eq _ _ _ w.tests hr
    rw [e3]
    simp only [bind_ok] at h ⊢
    by_cases hi : r - s1 - st.maxlen > 0
    · rw [if_pos hi] at h ⊢
      simp only [pure_eq, Res.ok.injEq] at h ⊢
      subst h
      refine ⟨_, rfl, ⟨?_, ?_, ?_, ?_, ?_, ?_, ?_, rfl, by (try simp only); omega, by (try simp only); omega⟩⟩ <;> (try simp only)
      · omega
      · omega
      · omega
      · omega
      · omega
      · omega
      · rw [show w.pairs + 1 - w.pairs = 1 by omega]
        omega
    · rw [if_neg hi] at h ⊢
      simp only [pure_eq, Res.ok.injEq] at h ⊢
      subst h
      refine ⟨_, rfl, ⟨?_, ?_, ?_, ?_, ?_, ?_, ?_, rfl, by (try simp only); omega, by (try simp only); omega⟩⟩ <;> (try simp only)
      · omega
      · omega
      · omega
      · omega
      · rw [show w.pairs + 1 - w.pairs = 1 by omega]
        omega
  · rw [if_neg hm] at h ⊢
    simp only [pure_eq, Res.ok.injEq] at h ⊢
    subst h
    refine ⟨_, rfl, ⟨?_, ?_, ?_, ?_, ?_, ?_, ?_, rfl, by (try simp only); omega, by (try simp only); omega⟩⟩ <;> (try simp only) <;> omega

theorem longestInnerW_eq {c1 c2 : List Nat} {stop1 stop2 s1 start1 : Int} (hs : start1 ≤ s1) (hs' : s1 ≤ stop1) :
    ∀ (fuel : Nat) (s2 : Int) (st : LM) (w : Tries) {st' : LM}, 0 ≤ st.maxlen →
    longestInner c1 c2 stop1 stop2 s1 fuel s2 st = .ok st' →
    ∃ w', longestInnerW c1 c2 stop1 stop2 s1 fuel s2 st w = .ok (st', w') ∧
      Searched stop1 start1 st st' w w' (st.s2limit - s2 + 1).toNat := by
  intro fuel
  induction fuel with
  | zero =>
    intro s2 st w st' hp h
    unfold longestInner at h
    unfold longestInnerW
    by_cases hc : s2 ≤ st.s2limit
    · rw [if_pos hc] at h; simp at h
    · rw [if_neg hc] at h ⊢
      simp only [Res.ok.injEq] at h
      subst h
      exact ⟨w, rfl, (Searched.refl _ _ _ _).mono (by omega)⟩
  | succ fuel ih =>
    intro s2 st w st' hp h
    unfold longestInner at h
    unfold longestInnerW
    by_cases hc : s2 ≤ st.s2limit
    · rw [if_pos hc] at h ⊢
      simp only at h ⊢
      obtain ⟨st1, h1, h⟩ := bind_eq_ok.1 h
      obtain ⟨w1, e1, k1⟩ := longestStepW_eq w hs hs' hp h1
      obtain ⟨w2, e2, k2⟩ := ih (s2 + 1) st1 w1 (hp.trans k1.ge) h
      rw [e1]
      simp only [bind_ok]
      refine ⟨w2, e2, (k1.trans k2).mono ?_⟩
      have := k1.l2
      have := k1.ge
      omega
    · rw [if_neg hc] at h ⊢
      simp only [Res.ok.injEq] at h
      subst h
      exact ⟨w, rfl, (Searched.refl _ _ _ _).mono (by omega)⟩

theorem longestOuterW_eq {c1 c2 : List Nat} {stop1 start2 stop2 start1 : Int} :
    ∀ (fuel : Nat) (s1 : Int) (st : LM) (w : Tries) {st' : LM}, start1 ≤ s1 → st.s1limit ≤ stop1 → 0 ≤ st.maxlen →
    longestOuter c1 c2 stop1 start2 stop2 fuel s1 st = .ok st' →
    ∃ w', longestOuterW c1 c2 stop1 start2 stop2 fuel s1 st w = .ok (st', w') ∧
      Searched stop1 start1 st st' w w' ((st.s1limit - s1 + 1).toNat * (st.s2limit - start2 + 1).toNat) := by
  intro fuel
  induction fuel with
  | zero =>
    intro s1 st w st' hs hl hp h
    unfold longestOuter at h
    unfold longestOuterW
    by_cases hc : s1 ≤ st.s1limit
    · rw [if_pos hc] at h; simp at h
    · rw [if_neg hc] at h ⊢
      simp only [Res.ok.injEq] at h
      subst h
      exact ⟨w, rfl, (Searched.refl _ _ _ _).mono (by omega)⟩
  | succ fuel ih =>
    intro s1 st w st' hs hl hp h
    unfold longestOuter at h
    unfold longestOuterW
    by_cases hc : s1 ≤ st.s1limit
    · rw [if_pos hc] at h ⊢
      simp only at h ⊢
      obtain ⟨st1, h1, h⟩ := bind_eq_ok.1 h
      obtain ⟨w1, e1, k1⟩ := longestInnerW_eq hs (by omega) _ _ _ w hp h1
      have g1 := k1.l1
      have g2 := k1.l2
      have g3 := k1.ge
      obtain ⟨w2, e2, k2⟩ := ih (s1 + 1) st1 w1 (by omega) (by omega) (by omega) h
      rw [e1]
      simp only [bind_ok]
      refine ⟨w2, e2, (k1.trans k2).mono ?_⟩
      have m1 : (st1.s1limit - (s1 + 1) + 1).toNat ≤ (st.s1limit - (s1 + 1) + 1).toNat := by omega
      have m2 : (st1.s2limit - start2 + 1).toNat ≤ (st.s2limit - start2 + 1).toNat := by omega
      have m3 : (st.s1limit - s1 + 1).toNat = (st.s1limit - (s1 + 1) + 1).toNat + 1 := by omega
      rw [m3, Nat.add_mul, Nat.one_mul]
      have := Nat.mul_le_mul m1 m2
      omega
    · rw [if_neg hc] at h ⊢
      simp only [Res.ok.injEq] at h
      subst h
      exact ⟨w, rfl, (Searched.refl _ _ _ _).mono (by omega)⟩

/-- The work of one call of `longest_match`. -/
theorem longest_matchW_eq {maxlen : Int} {c1 c2 : List Nat} {start1 stop1 start2 stop2 : Int} {m0 : Option (Int × Int)} (w : Tries)
    {len : Int} {m : Option (Int × Int)} (hp : 0 ≤ maxlen)
    (h : longest_match maxlen c1 start1 stop1 c2 start2 stop2 m0 = .ok (len, m)) :
    ∃ w', longest_matchW maxlen c1 start1 stop1 c2 start2 stop2 m0 w = .ok ((len, m), w') ∧ w.pairs ≤ w'.pairs ∧
      w'.pairs ≤ w.pairs + (stop1 - start1 + 1 - maxlen).toNat * (stop2 - start2 + 1 - maxlen).toNat ∧
      w'.tests ≤ w.tests + (w'.pairs - w.pairs) * len.toNat ∧ w'.calls = w.calls ∧ maxlen ≤ len ∧
      len ≤ max maxlen (stop1 + 1 - start1) ∧ (maxlen < len → w.pairs < w'.pairs) ∧ w.tests + (len - maxlen).toNat ≤ w'.tests := by
  unfold longest_match at h
  obtain ⟨st, h1, h⟩ := bind_eq_ok.1 h
  simp only [pure_eq, Res.ok.injEq, Prod.mk.injEq] at h
  obtain ⟨rfl, rfl⟩ := h
  obtain ⟨w', e, k⟩ := longestOuterW_eq (start1 := start1) _ _ _ w (le_refl _) (by simp only; omega) hp h1
  refine ⟨w', ?_, k.low, ?_, k.tests, k.calls, k.ge, k.le, k.found, k.least⟩
  · unfold longest_matchW
    rw [e]
    rfl
  · have := k.pairs
    simp only at this
    rw [show stop1 - maxlen - start1 + 1 = stop1 - start1 + 1 - maxlen by omega,
      show stop2 - maxlen - start2 + 1 = stop2 - start2 + 1 - maxlen by omega] at this
    exact this

/-- The work of the loop over the texts. -/
theorem matchTextsW_eq {text0 : List Nat} : ∀ (more : List (List Nat × Substr)) (start : List Int) (length : Int) (w : Tries)
    {r : Option (List Int × Int)}, 0 ≤ length → matchTexts text0 more start length = .ok r →
    ∃ w', matchTextsW text0 more start length w = .ok (r, w') ∧ w.pairs ≤ w'.pairs ∧
      w'.pairs ≤ w.pairs + length.toNat * (more.map (fun x => (x.2.stop - x.2.start + 1).toNat)).sum ∧
      w'.tests ≤ w.tests + (w'.pairs - w.pairs) * length.toNat ∧ w'.calls = w.calls ∧
      (more.length = 1 → w'.tests ≤ w.tests + (w'.pairs - w.pairs) * (match r with | none => 0 | some x => x.2.toNat)) ∧
      w.tests ≤ w'.tests ∧ (more ≠ [] → ∀ x, r = some x → w.pairs < w'.pairs ∧ w.tests + x.2.toNat ≤ w'.tests) := by
  intro more
  induction more with
  | nil =>
    intro start length w r hp h
    simp only [matchTexts, Res.ok.injEq] at h
    subst h
    exact ⟨w, rfl, le_refl _, by simp, by simp, rfl, by simp, le_refl _, by simp⟩
  | cons x more ih =>
    intro start length w r hp h
    obtain ⟨text, sub⟩ := x
    simp only [matchTexts] at h
    simp only [matchTextsW]
    obtain ⟨start0, h0, h⟩ := bind_eq_ok.1 h
    obtain ⟨⟨len, m⟩, h1, h⟩ := bind_eq_ok.1 h
    obtain ⟨w1, e1, k0, k1, k2, k3, k4, k5, k6, k7⟩ := longest_matchW_eq w (le_refl _) h1
    rw [h0]
    simp only [bind_ok]
    rw [e1]
    simp only [bind_ok] at h ⊢
    rw [show (start0 + length - 1 - start0 + 1 - 0).toNat = length.toNat by omega,
      show (sub.stop - sub.start + 1 - 0).toNat = (sub.stop - sub.start + 1).toNat by omega] at k1
    have hll : len.toNat ≤ length.toNat := by omega
    by_cases hz : len = 0
    · rw [if_pos hz] at h ⊢
      simp only [pure_eq, Res.ok.injEq] at h ⊢
      subst h
      have t0 : (w1.pairs - w.pairs) * len.toNat = 0 := by rw [hz]; simp
      refine ⟨w1, rfl, k0, ?_, ?_, k3, ?_, by omega, by simp⟩
      · simp only [List.map_cons, List.sum_cons, Nat.mul_add]; omega
      · omega
      · intro _; simp only; omega
    · rw [if_neg hz] at h ⊢
      cases m with
      | none => simp at h
      | some q =>
        obtain ⟨ns, si⟩ := q
        simp only at h ⊢
        obtain ⟨w2, e2, j0, j1, j2, j3, j4, j5, j6⟩ := ih _ len w1 k4 h
        refine ⟨w2, e2, by omega, ?_, ?_, by omega, ?_, by omega, ?_⟩
        · simp only [List.map_cons, List.sum_cons, Nat.mul_add]
          have := Nat.mul_le_mul_right (more.map (fun x => (x.2.stop - x.2.start + 1).toNat)).sum hll
          omega
        · have q1 : (w1.pairs - w.pairs) * len.toNat ≤ (w1.pairs - w.pairs) * length.toNat := Nat.mul_le_mul_left _ hll
          have q2 : (w2.pairs - w1.pairs) * len.toNat ≤ (w2.pairs - w1.pairs) * length.toNat := Nat.mul_le_mul_left _ hll
          have q3 : (w2.pairs - w.pairs) * length.toNat =
              (w1.pairs - w.pairs) * length.toNat + (w2.pairs - w1.pairs) * length.toNat := by
            rw [← Nat.add_mul]; congr 1; omega
          omega
        · intro hone
          have hm : more = [] := by simpa using hone
          subst hm
          simp only [matchTexts, matchTextsW, Res.ok.injEq, Prod.mk.injEq] at h e2
          obtain ⟨rfl, rfl⟩ := e2
          exact k2
        · intro _ x hx
          have := k6 (by omega)
          by_cases hm : more = []
          · subst hm
            simp only [matchTexts, Res.ok.injEq] at h
            rw [← h] at hx
            simp only [Option.some.injEq] at hx
            subst hx
            simp only
            omega
          · have := j6 hm x hx
            omega

/-! ## The recursion -/

/-- The number of characters in the matched items of a list. -/
def matchedChars (l : List Sync) : Int := (l.map (fun s => if s.mtch = none then 0 else (s.sub 0).length)).sum

theorem matchedChars_append (l l' : List Sync) : matchedChars (l ++ l') = matchedChars l + matchedChars l' := by simp [matchedChars]

/-- The cost of a call for regions with `n` characters of the first and `S` characters of the other texts, which finds `M`
matches with `T` characters and leaves `K` items. -/
structure Cost (two : Prop) (n S M T K : Nat) (w w' : Tries) (d : Nat) : Prop where
  calls : w'.calls ≤ w.calls + 2 * M + 1
  low : w.pairs ≤ w'.pairs
  depth : d ≤ M + 1
  levels : w'.pairs ≤ w.pairs + d * (n * S)
  square : w'.pairs ≤ w.pairs + n * n * S
  tests : w'.tests ≤ w.tests + (w'.pairs - w.pairs) * n
  sharp : two → w'.tests ≤ w.tests + n * n * S
  least : w.calls + M ≤ w'.calls ∧ w.pairs + M ≤ w'.pairs ∧ w.tests + T ≤ w'.tests
  items : w'.calls = w.calls + K

theorem Cost.zero (two : Prop) (n S : Nat) (w : Tries) : Cost two n S 0 0 0 w w 0 :=
  ⟨by omega, le_refl _, by omega, by omega, by omega, by omega, fun _ => by omega, by omega, rfl⟩

theorem split_sum {two : Prop} {n S nl Sl nr Sr L Ml Mr Tl Tr Kl Kr dl dr : Nat} {w w1 w2 w3 : Tries} (hL : 0 < L) (hn : nl + L + nr ≤ n)
    (hS : Sl + Sr ≤ S) (c1 : w1.calls = w.calls + 1) (p1 : w1.pairs ≤ w.pairs + n * S)
    (t1 : w1.tests ≤ w.tests + (w1.pairs - w.pairs) * n) (t2 : two → w1.tests ≤ w.tests + (w1.pairs - w.pairs) * L)
    (p2 : w.pairs < w1.pairs) (t3 : w.tests + L ≤ w1.tests)
    (hl : Cost two nl Sl Ml Tl Kl w1 w2 dl) (hr : Cost two nr Sr Mr Tr Kr w2 w3 dr) :
    Cost two n S (Ml + 1 + Mr) (Tl + L + Tr) (Kl + 1 + Kr) w w3 (max dl dr + 1) := by
  obtain ⟨a1, a2, a3, a4, a5, a6, a7, a8, a9⟩ := hl
  obtain ⟨b1, b2, b3, b4, b5, b6, b7, b8, b9⟩ := hr
  obtain ⟨m, rfl⟩ : ∃ m, n = m + L := ⟨n - L, by omega⟩
  have hnl : nl ≤ m := by omega
  have hnr : nr ≤ m := by omega
  have prod : nl * Sl + nr * Sr ≤ m * S := by
    have := Nat.mul_le_mul_right Sl hnl
    have := Nat.mul_le_mul_right Sr hnr
    have := Nat.mul_le_mul_left m hS
    rw [Nat.mul_add] at this
    omega
  have sq : nl * nl * Sl + nr * nr * Sr ≤ m * (m + L) * S := by
    have q1 : nl * nl * Sl ≤ m * (m + L) * Sl := Nat.mul_le_mul_right _ (Nat.mul_le_mul hnl (by omega))
    have q2 : nr * nr * Sr ≤ m * (m + L) * Sr := Nat.mul_le_mul_right _ (Nat.mul_le_mul hnr (by omega))
    have q3 := Nat.mul_le_mul_left (m * (m + L)) hS
    rw [Nat.mul_add] at q3
    omega
  have whole : (m + L) * (m + L) * S = m * (m + L) * S + L * ((m + L) * S) := by ring
  have one : (m + L) * S ≤ L * ((m + L) * S) := Nat.le_mul_of_pos_left _ hL
  refine ⟨by omega, by omega, by omega, ?_, by omega, ?_, ?_, by omega, by omega⟩
  · have e1 : dl * (nl * Sl) ≤ max dl dr * (nl * Sl) := Nat.mul_le_mul_right _ (by omega)
    have e2 : dr * (nr * Sr) ≤ max dl dr * (nr * Sr) := Nat.mul_le_mul_right _ (by omega)
    have e3 : max dl dr * (nl * Sl + nr * Sr) ≤ max dl dr * ((m + L) * S) := by
      refine Nat.mul_le_mul_left _ (prod.trans ?_)
      exact Nat.mul_le_mul_right _ (by omega)
    rw [Nat.mul_add] at e3
    rw [Nat.add_mul, Nat.one_mul]
    omega
  · have e1 : (w2.pairs - w1.pairs) * nl ≤ (w2.pairs - w1.pairs) * (m + L) := Nat.mul_le_mul_left _ (by omega)
    have e2 : (w3.pairs - w2.pairs) * nr ≤ (w3.pairs - w2.pairs) * (m + L) := Nat.mul_le_mul_left _ (by omega)
    have e3 : (w3.pairs - w.pairs) * (m + L) = (w1.pairs - w.pairs) * (m + L) + (w2.pairs - w1.pairs) * (m + L) +
        (w3.pairs - w2.pairs) * (m + L) := by
      rw [← Nat.add_mul, ← Nat.add_mul]; congr 1; omega
    omega
  · intro h2
    have e0 := t2 h2
    have e1 := a7 h2
    have e2 := b7 h2
    have e3 : (w1.pairs - w.pairs) * L ≤ L * ((m + L) * S) := by
      rw [Nat.mul_comm]
      exact Nat.mul_le_mul_left _ (by omega)
    omega

/-- The number of characters of an item in the texts `1, 2, ..., N - 1`. -/
def others (N : Nat) (s : Sync) : Nat := ((List.range' 1 (N - 1)).map (fun j => (s.sub j).length.toNat)).sum

theorem sum_le {f g h : Nat → Nat} : ∀ (l : List Nat), (∀ j ∈ l, f j + g j ≤ h j) → (l.map f).sum + (l.map g).sum ≤ (l.map h).sum := by
  intro l
  induction l with
  | nil => intro _; simp
  | cons x l ih =>
    intro hl
    have h1 := hl x (by simp)
    have h2 := ih (fun j hj => hl j (by simp [hj]))
    simp only [List.map_cons, List.sum_cons]
    omega

theorem recursive_syncW_spec {texts : List (List Nat)} (hN : 2 ≤ texts.length) : ∀ (fuel : Nat) (pre post : List Sync) (sync : Sync)
    (next : Nat) (w : Tries), SInv texts (pre ++ sync :: post) next → sync.mtch = none → (sync.sub 0).length < fuel →
    ∃ new next' w' d, recursive_sync texts fuel pre.length (pre ++ sync :: post) next = .ok (pre ++ new ++ post, next') ∧
      recursive_syncW texts fuel pre.length (pre ++ sync :: post) next w = .ok ((pre ++ new ++ post, next'), w', d) ∧
      SInv texts (pre ++ new ++ post) next' ∧
      (∀ t, t < texts.length → ((new.filterMap (·.mtch)).length : Int) ≤ (sync.sub t).length) ∧ 0 ≤ matchedChars new ∧
      Cost (texts.length = 2) (sync.sub 0).length.toNat (others texts.length sync) (new.filterMap (·.mtch)).length (matchedChars new).toNat new.length w w' d := by
  intro fuel
  induction fuel with
  | zero =>
    intro pre post sync next w h hs hf
    have := item_bounds h.al (t := 0) (by omega)
    omega
  | succ fuel ih =>
    intro pre post sync next w h hs hf
    have hwid := h.al.width sync (by simp)
    obtain ⟨text0, more, rfl⟩ : ∃ x y, texts = x :: y := by
      cases texts with
      | nil => simp at hN
      | cons x y => exact ⟨x, y, rfl⟩
    have hgap : (matchedChars [sync]).toNat = 0 := by simp [matchedChars, hs]
    unfold recursive_sync recursive_syncW
    have hget : (pre ++ sync :: post)[pre.length]? = some sync := by simp
    rw [hget]
    simp only
    by_cases hany : sync.substr.any (fun s => s.length = 0) = true
    · rw [if_pos hany, if_pos hany]
      refine ⟨[sync], next, _, 1, by simp, by simp; rfl, by simpa using h, ?_, by simp [matchedChars, hs], ?_⟩
      · intro t ht
        have := item_bounds h.al ht
        simp [hs]; omega
      · simp only [List.filterMap_cons, hs, List.filterMap_nil, List.length_nil]
        rw [hgap]
        refine ⟨?_, ?_, ?_, ?_, ?_, ?_, ?_, ?_, ?_⟩ <;> (try simp only [List.length_singleton]) <;> omega
    · rw [if_neg hany, if_neg hany]
      obtain ⟨sub0, subs, hsub⟩ : ∃ x y, sync.substr = x :: y := by
        cases hc : sync.substr with
        | nil => simp [hc] at hwid
        | cons x y => exact ⟨x, y, rfl⟩
      rw [hsub]
      simp only
      have hs0 : sync.sub 0 = sub0 := by simp [Sync.sub, hsub]
      have hnz : ∀ t, t < (text0 :: more).length → 0 < (sync.sub t).length := by
        intro t ht
        have b := item_bounds h.al ht
        have : (sync.sub t).length ≠ 0 := by
          intro e
          apply hany
          rw [List.any_eq_true]
          refine ⟨sync.sub t, ?_, by simpa using e⟩
          have ht' : t < sync.substr.length := by omega
          simp [Sync.sub, ht']
        omega
      have hzip : more.zip subs = (List.range' 1 more.length).map (fun j => ((text0 :: more).getD j [], sync.sub j)) := by
        have hl : subs.length = more.length := by rw [hsub] at hwid; simpa using hwid
        apply List.ext_getElem
        · simp [hl]
        · intro i h1 h2
          simp at h1 h2
          have g1 : i < more.length := by omega
          have g2 : i < subs.length := by omega
          simp [Nat.add_comm 1 i, Sync.sub, hsub, g1, g2]
      have hsum : ((more.zip subs).map (fun x => (x.2.stop - x.2.start + 1).toNat)).sum = others (text0 :: more).length sync := by
        rw [hzip, List.map_map]
        unfold others
        simp only [List.length_cons, Nat.add_sub_cancel]
        congr 1
        apply List.map_congr_left
        intro j hj
        rw [List.mem_range'_1] at hj
        have b := item_bounds h.al (t := j) (by simp only [List.length_cons]; omega)
        simp only [Function.comp]
        congr 1
        omega
      have b0 := item_bounds h.al (t := 0) (by simp)
      have hn0 := hnz 0 (by simp)
      have hMI : MI (fun j => (text0 :: more).getD j []) sync.sub 1 [sub0.start] sub0.length := by
        rw [hs0] at b0 hn0
        refine ⟨rfl, le_refl _, hn0, ?_, ?_, ?_, ?_⟩
        · intro j hj
          have : j = 0 := by omega
          subst this
          rw [hs0]
          simp only [List.getD_cons_zero]
          omega
        · intro j h1 h2; omega
        · intro hall
          have := (hall 0 (by omega)).1
          rw [hs0] at this
          simp only [List.getD_cons_zero] at this
          omega
        · intro hall
          have := (hall 0 (by omega)).1
          rw [hs0] at this
          simp only [List.getD_cons_zero] at this
          omega
      obtain ⟨r, e, hr⟩ := matchTexts_spec (T := fun j => (text0 :: more).getD j []) (S := sync.sub) (N := (text0 :: more).length)
        (by
          intro j hj
          have b := item_bounds h.al hj
          have : (text0 :: more).getD j [] = (text0 :: more)[j] := by
            rw [List.getD_eq_getElem?_getD, List.getElem?_eq_getElem hj]; rfl
          rw [this]
          exact ⟨b.1, b.2.2.2⟩) more.length 1 [sub0.start] sub0.length (by simp; omega) hMI
      simp only [List.getD_cons_zero] at e
      rw [← hzip] at e
      obtain ⟨w1, f1, f2, f3, f4, f5, f6, f7, f8⟩ := matchTextsW_eq (more.zip subs) [sub0.start] sub0.length ⟨w.pairs, w.tests, w.calls + 1⟩
        (by rw [← hs0]; omega) e
      rw [e, f1]
      rw [hsum] at f3
      simp only at f2 f3 f4 f5 f6 f7 f8
      rw [← hs0] at f3 f4
      have hzl : (text0 :: more).length = 2 → (more.zip subs).length = 1 := by
        intro h2
        rw [hzip]
        simpa using h2
      simp only [bind_ok]
      cases r with
      | none =>
        refine ⟨[sync], next, w1, 1, by simp, by simp, by simpa using h, ?_, by simp [matchedChars, hs], ?_⟩
        · intro t ht
          have := item_bounds h.al ht
          simp [hs]; omega
        · simp only [List.filterMap_cons, hs, List.filterMap_nil, List.length_nil]
          have hsq : (sync.sub 0).length.toNat * others (text0 :: more).length sync ≤
              (sync.sub 0).length.toNat * (sync.sub 0).length.toNat * others (text0 :: more).length sync := by
            rw [Nat.mul_assoc]
            exact Nat.le_mul_of_pos_left _ (by omega)
          rw [hgap]
          refine ⟨by omega, f2, by omega, by omega, by omega, f4, ?_, by omega, f5⟩
          intro h2
          have := f6 (hzl h2)
          simp only at this
          omega
      | some sl =>
        obtain ⟨start, len⟩ := sl
        simp only
        have hm := hr start len rfl
        have hlen := hm.len
        obtain ⟨length, hlength⟩ : ∃ n : Nat, len = n := ⟨len.toNat, by have := hm.pos; omega⟩
        subst hlength
        have hpos := hm.pos
        rw [save_match_eq hget (by omega)]
        simp only [bind_ok]
        obtain ⟨hinv, hl, hrt, lt1, lt2⟩ := split_inv hN h hs hm
        have hparts : ∀ t, t < (text0 :: more).length → 0 ≤ ((leftOf sync start).sub t).length ∧
            0 ≤ ((rightOf sync start length).sub t).length ∧
            ((leftOf sync start).sub t).length + length + ((rightOf sync start length).sub t).length = (sync.sub t).length := by
          intro t ht
          have b := item_bounds h.al ht
          have hin := hm.inside t ht
          have hg : start.getD t 0 = start[t]'(by omega) := by simp [show t < start.length by omega]
          rw [hg] at hin
          rw [sub_left (by omega) (by omega), sub_right (by omega) (by omega)]
          simp only
          omega
        have htake : (pre ++ sync :: post).take pre.length = pre := by simp
        have hdrop : (pre ++ sync :: post).drop (pre.length + 1) = post := by
          rw [show pre ++ sync :: post = (pre ++ [sync]) ++ post by simp]
          exact List.drop_left' (by simp)
        rw [htake, hdrop]
        obtain ⟨L, hL⟩ : ∃ L, L = opt (leftOf sync start) := ⟨_, rfl⟩
        obtain ⟨R, hR⟩ : ∃ R, R = opt (rightOf sync start length) := ⟨_, rfl⟩
        obtain ⟨mid, hmid⟩ : ∃ mid, mid = midOf start length next := ⟨_, rfl⟩
        have hmm : mid.mtch = some next := by rw [hmid]; rfl
        rw [← hL, ← hR, ← hmid] at hinv ⊢
        rw [← hL] at hl
        rw [← hR] at hrt
        -- left part
        have hstep1 : ∃ newL next1 w2 dl, (if (pre ++ L ++ [mid] ++ R ++ post).findIdx (fun s => s.mtch = some next) > 0
            then recursive_sync (text0 :: more) fuel ((pre ++ L ++ [mid] ++ R ++ post).findIdx (fun s => s.mtch = some next) - 1)
              (pre ++ L ++ [mid] ++ R ++ post) (next + 1)
            else pure (pre ++ L ++ [mid] ++ R ++ post, next + 1)) = .ok (pre ++ newL ++ [mid] ++ R ++ post, next1) ∧
            (if (pre ++ L ++ [mid] ++ R ++ post).findIdx (fun s => s.mtch = some next) > 0
            then recursive_syncW (text0 :: more) fuel ((pre ++ L ++ [mid] ++ R ++ post).findIdx (fun s => s.mtch = some next) - 1)
              (pre ++ L ++ [mid] ++ R ++ post) (next + 1) w1
            else pure ((pre ++ L ++ [mid] ++ R ++ post, next + 1), w1, 0)) = .ok ((pre ++ newL ++ [mid] ++ R ++ post, next1), w2, dl) ∧
            SInv (text0 :: more) (pre ++ newL ++ [mid] ++ R ++ post) next1 ∧
            (∀ t, t < (text0 :: more).length → ((newL.filterMap (·.mtch)).length : Int) ≤ ((leftOf sync start).sub t).length) ∧
            0 ≤ matchedChars newL ∧
            Cost ((text0 :: more).length = 2) ((leftOf sync start).sub 0).length.toNat (others (text0 :: more).length (leftOf sync start))
              (newL.filterMap (·.mtch)).length (matchedChars newL).toNat newL.length w1 w2 dl := by
          have hfi : (pre ++ L ++ [mid] ++ R ++ post).findIdx (fun s => s.mtch = some next) = (pre ++ L).length := by
            have := findIdx_mid (A := pre ++ L) (B := R ++ post) hmm (by simpa using hinv.nd)
            simpa using this
          rw [hfi]
          by_cases hLn : L = []
          · have := hl hLn
            subst this
            rw [hLn] at hinv ⊢
            refine ⟨[], next + 1, w1, 0, by simp, by simp, by simpa using hinv, ?_, by simp [matchedChars], ?_⟩
            · intro t ht
              have := hparts t ht
              simp; omega
            · exact Cost.zero _ _ _ _
          · have hLe : L = [leftOf sync start] := by
              rw [hL] at hLn ⊢
              unfold opt at hLn ⊢; split at hLn
              · rename_i hv; rw [if_pos hv]
              · simp at hLn
            rw [hLe] at hinv ⊢
            rw [if_pos (by simp), if_pos (by simp)]
            obtain ⟨new, next', w2, dl, e1, e1', i1, gL, mL, cL⟩ := ih pre ([mid] ++ R ++ post) (leftOf sync start) (next + 1) w1
              (by simpa using hinv) rfl (by omega)
            exact ⟨new, next', w2, dl, by simpa using e1, by simpa using e1', by simpa using i1, gL, mL, cL⟩
        obtain ⟨newL, next1, w2, dl, e1, e1', i1, gL, mL, cL⟩ := hstep1
        have hjoin : ∀ newR w3 dr,
            (∀ t, t < (text0 :: more).length → ((newR.filterMap (·.mtch)).length : Int) ≤ ((rightOf sync start length).sub t).length) →
            0 ≤ matchedChars newR →
            Cost ((text0 :: more).length = 2) ((rightOf sync start length).sub 0).length.toNat
              (others (text0 :: more).length (rightOf sync start length)) (newR.filterMap (·.mtch)).length (matchedChars newR).toNat newR.length w2 w3 dr →
            (∀ t, t < (text0 :: more).length → (((newL ++ [mid] ++ newR).filterMap (·.mtch)).length : Int) ≤ (sync.sub t).length) ∧
            0 ≤ matchedChars (newL ++ [mid] ++ newR) ∧
            Cost ((text0 :: more).length = 2) (sync.sub 0).length.toNat (others (text0 :: more).length sync)
              ((newL ++ [mid] ++ newR).filterMap (·.mtch)).length (matchedChars (newL ++ [mid] ++ newR)).toNat (newL ++ [mid] ++ newR).length w w3 (max dl dr + 1) := by
          intro newR w3 dr gR mR cR
          have hcount : ((newL ++ [mid] ++ newR).filterMap (·.mtch)).length =
              (newL.filterMap (·.mtch)).length + 1 + (newR.filterMap (·.mtch)).length := by
            simp [List.filterMap_append, hmm]; omega
          have hmid1 : matchedChars [mid] = length := by
            rw [hmid]
            have := sub_mid (start := start) (t := 0) (by rw [hlen]; simp) (length : Int) next
            simp [matchedChars, this]
            simp [midOf]
          have hchars : matchedChars (newL ++ [mid] ++ newR) = matchedChars newL + length + matchedChars newR := by
            rw [matchedChars_append, matchedChars_append, hmid1]
          have hne : more.zip subs ≠ [] := by
            rw [hzip]
            simp only [ne_eq, List.map_eq_nil_iff, List.range'_eq_nil_iff]
            simp only [List.length_cons] at hN
            omega
          have hlow := f8 hne _ rfl
          simp only [Int.toNat_natCast] at hlow
          rw [hcount, hchars, show (newL ++ [mid] ++ newR).length = newL.length + 1 + newR.length by simp; omega]
          refine ⟨?_, by omega, ?_⟩
          · intro t ht
            have := gL t ht
            have := gR t ht
            have := hparts t ht
            push_cast
            omega
          · have h00 := hparts 0 (by simp)
            rw [show (matchedChars newL + (length : Int) + matchedChars newR).toNat =
              (matchedChars newL).toNat + length + (matchedChars newR).toNat by omega]
            refine split_sum (L := length) (by omega) (by omega) ?_ f5 f3 f4 ?_ hlow.1 hlow.2 cL cR
            · refine sum_le _ ?_
              intro j hj
              rw [List.mem_range'_1] at hj
              have := hparts j (by omega)
              omega
            · intro h2
              have := f6 (hzl h2)
              simpa using this
        rw [e1, e1']
        simp only [bind_ok]
        have hfi : (pre ++ newL ++ [mid] ++ R ++ post).findIdx (fun s => s.mtch = some next) = (pre ++ newL).length := by
          have := findIdx_mid (A := pre ++ newL) (B := R ++ post) hmm (by simpa using i1.nd)
          simpa using this
        rw [hfi]
        by_cases hRn : R = []
        · have := hrt hRn
          subst this
          rw [hRn] at i1 ⊢
          rw [if_neg (by simp; try omega), if_neg (by simp; try omega)]
          obtain ⟨j1, j3, j2⟩ := hjoin [] w2 0 (by
            intro t ht
            have := hparts t ht
            simp; omega) (by simp [matchedChars]) (Cost.zero _ _ _ _)
          rw [Nat.max_zero] at j2
          exact ⟨newL ++ [mid], next1, w2, dl + 1, by simp, by simp, by simpa using i1, by simpa using j1, by simpa using j3, by simpa using j2⟩
        · have hRe : R = [rightOf sync start length] := by
            rw [hR] at hRn ⊢
            unfold opt at hRn ⊢; split at hRn
            · rename_i hv; rw [if_pos hv]
            · simp at hRn
          rw [hRe] at i1 ⊢
          rw [if_pos (by simp; omega), if_pos (by simp; omega)]
          obtain ⟨new, next', w3, dr, e2, e2', i2, gR, mR, cR⟩ := ih (pre ++ newL ++ [mid]) post (rightOf sync start length) next1 w2
            (by simpa using i1) rfl (by omega)
          obtain ⟨j1, j3, j2⟩ := hjoin new w3 dr gR mR cR
          have e3 : recursive_syncW (text0 :: more) fuel ((pre ++ newL).length + 1)
              (pre ++ newL ++ [mid] ++ [rightOf sync start length] ++ post) next1 w2 =
              .ok ((pre ++ (newL ++ [mid] ++ new) ++ post, next'), w3, dr) := by
            simpa [Nat.add_assoc] using e2'
          refine ⟨newL ++ [mid] ++ new, next', w3, max dl dr + 1, by simpa [Nat.add_assoc] using e2, ?_, by simpa using i2, j1, j3, j2⟩
          rw [e3]
          rfl

/-- The work of `synchronize`. -/
theorem synchronizeW_spec (texts : List (List Nat)) (h1 : MIN_STREAMS ≤ texts.length) (h2 : texts.length ≤ MAX_STREAMS) :
    ∃ r w d, synchronize texts = .ok r ∧ synchronizeW texts = .ok (r, w, d) ∧
      (∀ t ∈ texts, (r.items.filterMap (·.mtch)).length ≤ t.length) ∧
      Cost (texts.length = 2) (texts.headD []).length (texts.tail.map List.length).sum (r.items.filterMap (·.mtch)).length (matchedChars r.items).toNat r.items.length
        ⟨0, 0, 0⟩ w d := by
  unfold synchronize synchronizeW
  rw [if_neg (by omega), if_neg (by omega)]
  simp only
  have hinit := initial_alignment texts
  by_cases hl : initialize_synclist (texts.map List.length) = []
  · rw [if_neg (by simpa using hl), if_neg (by simpa using hl), hl]
    exact ⟨_, _, _, rfl, rfl, by simp, Cost.zero _ _ _ _⟩
  · rw [if_pos hl, if_pos hl]
    obtain ⟨s, hs, hsm⟩ : ∃ s, initialize_synclist (texts.map List.length) = [s] ∧ s.mtch = none := by
      unfold initialize_synclist at hl ⊢
      simp only at hl ⊢
      split
      · exact ⟨_, rfl, rfl⟩
      · rename_i hv; rw [if_neg hv] at hl; exact absurd rfl hl
    have hst : s = ⟨(texts.map List.length).map (fun (c : Nat) => (⟨0, (c : Int) - 1, (c : Int)⟩ : Substr)), none⟩ := by
      unfold initialize_synclist at hs
      simp only at hs
      split at hs
      · simpa using hs.symm
      · simp at hs
    have hsub : ∀ t (ht : t < texts.length), (s.sub t).length = (texts[t].length : Int) := by
      intro t ht
      rw [hst]
      simp [Sync.sub, ht]
    rw [hs] at hinit ⊢
    have hN : 2 ≤ texts.length := h1
    have hinv : SInv texts ([] ++ s :: []) 0 := by
      refine ⟨by simpa using hinit, by simp [hsm], by simp [hsm], by simp⟩
    have hhead : (texts.headD []).length = (texts[0]'(by omega)).length := by
      cases texts with
      | nil => simp at hN
      | cons x y => rfl
    have hsub0 := hsub 0 (by omega)
    obtain ⟨new, next', w, d, e, e', i, g, m, c⟩ := recursive_syncW_spec hN ((texts.headD []).length + 1) [] [] s 0 ⟨0, 0, 0⟩ hinv hsm (by
      rw [hhead]; push_cast; omega)
    simp only [List.length_nil, List.nil_append, List.append_nil] at e e' i
    rw [e, e']
    refine ⟨⟨new, number_matches new (fun _ => 0)⟩, w, d, rfl, rfl, ?_, ?_⟩
    · intro t ht
      obtain ⟨j, hj, rfl⟩ := List.mem_iff_getElem.1 ht
      have := g j hj
      rw [hsub j hj] at this
      simp only
      omega
    · have ho : others texts.length s = (texts.tail.map List.length).sum := by
        unfold others
        congr 1
        apply List.ext_getElem
        · simp
        · intro j j1 j2
          simp only [List.length_map, List.length_range'] at j1
          have := hsub (1 + j) (by omega)
          simp only [List.getElem_map, List.getElem_range', List.getElem_tail, Nat.one_mul]
          rw [this]
          simp [Nat.add_comm]
      rw [hsub0, ho] at c
      rw [hhead]
      simpa using c

/-! ## transpose_sync -/

/-- What a part of the search for the longest match costs. -/
structure Tried (best best' : TBest) (w w' : Tries) (k : Nat) : Prop where
  ge : best.length ≤ best'.length
  low : w.pairs ≤ w'.pairs
  pairs : w'.pairs ≤ w.pairs + k
  tests : w'.tests ≤ w.tests + (w'.pairs - w.pairs) * best'.length.toNat
  found : best.length < best'.length → w.pairs < w'.pairs
  least : w.tests + (best'.length - best.length).toNat ≤ w'.tests

theorem Tried.refl (best : TBest) (w : Tries) (k : Nat) : Tried best best w w k := ⟨le_refl _, le_refl _, by omega, by omega, by omega, by omega⟩

theorem Tried.trans {b b' b'' : TBest} {w w' w'' : Tries} {k k' : Nat} (h : Tried b b' w w' k) (h' : Tried b' b'' w' w'' k') :
    Tried b b'' w w'' (k + k') := by
  obtain ⟨a1, a2, a3, a4, a5, a6⟩ := h
  obtain ⟨b1, b2, b3, b4, b5, b6⟩ := h'
  refine ⟨by omega, by omega, by omega, ?_, by omega, by omega⟩
  have h1 : (w'.pairs - w.pairs) * b'.length.toNat ≤ (w'.pairs - w.pairs) * b''.length.toNat := Nat.mul_le_mul_left _ (by omega)
  have h2 : (w''.pairs - w.pairs) * b''.length.toNat =
      (w'.pairs - w.pairs) * b''.length.toNat + (w''.pairs - w'.pairs) * b''.length.toNat := by
    rw [← Nat.add_mul]; congr 1; omega
  omega

theorem transInnerW_eq {a b : List Nat} {sub1 : Substr} {p1 : Nat} (h1 : sub1.stop = sub1.start + sub1.length - 1) :
    ∀ (l : List Sync) (p2 : Nat) (best : TBest) (w : Tries) {best' : TBest}, 0 ≤ best.length →
    (∀ s ∈ l, s.only = .ok (s.sub 0) ∧ (s.sub 0).stop = (s.sub 0).start + (s.sub 0).length - 1 ∧ 0 ≤ (s.sub 0).length) →
    transInner a b sub1 p1 l p2 best = .ok best' →
    ∃ w', transInnerW a b sub1 p1 l p2 best w = .ok (best', w') ∧ Tried best best' w w' (sub1.length.toNat * (unmatched l).toNat) := by
  intro l
  induction l with
  | nil =>
    intro p2 best w best' _ _ h
    simp only [transInner, Res.ok.injEq] at h
    subst h
    exact ⟨w, rfl, Tried.refl _ _ _⟩
  | cons s l ih =>
    intro p2 best w best' hp hl h
    obtain ⟨ho, hs, hn⟩ := hl s (by simp)
    have hl' : ∀ s ∈ l, s.only = .ok (s.sub 0) ∧ (s.sub 0).stop = (s.sub 0).start + (s.sub 0).length - 1 ∧ 0 ≤ (s.sub 0).length :=
      fun s hs => hl s (by simp [hs])
    have hu : 0 ≤ unmatched l := by
      clear ih h hl
      induction l with
      | nil => simp [unmatched]
      | cons s l ih =>
        rw [unmatched_cons]
        have h1 := ih (fun s hs => hl' s (by simp [hs]))
        have h2 := hl' s (by simp)
        split <;> omega
    simp only [transInner] at h
    simp only [transInnerW]
    rw [ho] at h ⊢
    simp only [bind_ok] at h ⊢
    by_cases hc : s.mtch = none ∧ (s.sub 0).length > best.length
    · rw [if_pos hc] at h ⊢
      obtain ⟨⟨len, starts⟩, hm, h⟩ := bind_eq_ok.1 h
      obtain ⟨w1, e1, k0, k1, k2, k3, k4, k5, k6, k7⟩ := longest_matchW_eq w hp hm
      rw [e1]
      simp only [bind_ok] at h ⊢
      have hk : w1.pairs ≤ w.pairs + sub1.length.toNat * (s.sub 0).length.toNat := by
        refine k1.trans (Nat.add_le_add_left (Nat.mul_le_mul ?_ ?_) _) <;> omega
      have hsum : sub1.length.toNat * (unmatched (s :: l)).toNat =
          sub1.length.toNat * (s.sub 0).length.toNat + sub1.length.toNat * (unmatched l).toNat := by
        rw [← Nat.mul_add, unmatched_cons, if_pos hc.1]
        congr 1
        omega
      rw [hsum]
      by_cases hg : len > best.length
      · rw [if_pos hg] at h ⊢
        obtain ⟨w2, e2, k⟩ := ih (p2 + 1) ⟨len, starts, some (p1, p2)⟩ w1 (by simp only; omega) hl' h
        exact ⟨w2, e2, Tried.trans ⟨by simp only; omega, k0, hk, k2, k6, k7⟩ k⟩
      · rw [if_neg hg] at h ⊢
        obtain ⟨w2, e2, k⟩ := ih (p2 + 1) ⟨best.length, starts, best.items⟩ w1 hp hl' h
        have : len = best.length := by omega
        exact ⟨w2, e2, Tried.trans ⟨by simp only; omega, k0, hk, by simpa [this] using k2, by simp, by simp only; omega⟩ k⟩
    · rw [if_neg hc] at h ⊢
      obtain ⟨w2, e2, k⟩ := ih (p2 + 1) best w hp hl' h
      refine ⟨w2, e2, k.ge, k.low, k.pairs.trans (Nat.add_le_add_left (Nat.mul_le_mul_left _ ?_) _), k.tests, k.found, k.least⟩
      rw [unmatched_cons]
      split <;> omega

theorem transOuterW_eq {a b : List Nat} {l2 : List Sync} (h2 : IsAlignment [b] l2) :
    ∀ (l : List Sync) (p1 : Nat) (best : TBest) (w : Tries) {best' : TBest}, 0 ≤ best.length →
    (∀ s ∈ l, s.only = .ok (s.sub 0) ∧ (s.sub 0).stop = (s.sub 0).start + (s.sub 0).length - 1 ∧ 0 ≤ (s.sub 0).length) →
    transOuter a b l2 l p1 best = .ok best' →
    ∃ w', transOuterW a b l2 l p1 best w = .ok (best', w') ∧ 0 ≤ unmatched l ∧
      Tried best best' w w' ((unmatched l).toNat * (unmatched l2).toNat) := by
  intro l
  induction l with
  | nil =>
    intro p1 best w best' _ _ h
    simp only [transOuter, Res.ok.injEq] at h
    subst h
    exact ⟨w, rfl, by simp [unmatched], Tried.refl _ _ _⟩
  | cons s l ih =>
    intro p1 best w best' hp hl h
    obtain ⟨ho, hs, hn⟩ := hl s (by simp)
    have hl' : ∀ s ∈ l, s.only = .ok (s.sub 0) ∧ (s.sub 0).stop = (s.sub 0).start + (s.sub 0).length - 1 ∧ 0 ≤ (s.sub 0).length :=
      fun s hs => hl s (by simp [hs])
    simp only [transOuter] at h
    simp only [transOuterW]
    rw [ho] at h ⊢
    simp only [bind_ok] at h ⊢
    by_cases hc : s.mtch = none ∧ (s.sub 0).length > best.length
    · rw [if_pos hc] at h ⊢
      obtain ⟨best1, hm, h⟩ := bind_eq_ok.1 h
      obtain ⟨w1, e1, k1⟩ := transInnerW_eq hs l2 0 best w hp (fun s hs => ⟨only_eq h2 hs, (mem_bounds h2 hs).2.1, (mem_bounds h2 hs).2.2.1⟩) hm
      obtain ⟨w2, e2, hu, k2⟩ := ih (p1 + 1) best1 w1 (by have := k1.ge; omega) hl' h
      rw [e1]
      simp only [bind_ok]
      refine ⟨w2, e2, by rw [unmatched_cons, if_pos hc.1]; omega, ?_⟩
      have hsum : (unmatched (s :: l)).toNat * (unmatched l2).toNat =
          (s.sub 0).length.toNat * (unmatched l2).toNat + (unmatched l).toNat * (unmatched l2).toNat := by
        rw [← Nat.add_mul, unmatched_cons, if_pos hc.1]
        congr 1
        omega
      rw [hsum]
      exact k1.trans k2
    · rw [if_neg hc] at h ⊢
      obtain ⟨w2, e2, hu, k⟩ := ih (p1 + 1) best w hp hl' h
      have hle : unmatched l ≤ unmatched (s :: l) := by rw [unmatched_cons]; split <;> omega
      exact ⟨w2, e2, by omega, k.ge, k.low, k.pairs.trans (Nat.add_le_add_left (Nat.mul_le_mul_right _ (by omega)) _), k.tests, k.found, k.least⟩

theorem transLoopW_spec {a b : List Nat} : ∀ (fuel : Nat) (l1 l2 : List Sync) (next : Nat) (w : Tries) (k : Nat), TInv a b l1 l2 next →
    unmatched l1 ≤ fuel →
    ∃ l1' l2' w' M, transLoop a b fuel l1 l2 next = .ok (l1', l2') ∧ transLoopW a b fuel l1 l2 next w k = .ok ((l1', l2'), w', k + M + 1) ∧
      (l1'.filterMap (·.mtch)).length = (l1.filterMap (·.mtch)).length + M ∧ 0 ≤ unmatched l1' ∧ 0 ≤ unmatched l2' ∧
      unmatched l1' + M ≤ unmatched l1 ∧ unmatched l2' + M ≤ unmatched l2 ∧
      w'.pairs ≤ w.pairs + (M + 1) * ((unmatched l1).toNat * (unmatched l2).toNat) ∧
      w'.tests ≤ w.tests + (unmatched l1 - unmatched l1').toNat * ((unmatched l1).toNat * (unmatched l2).toNat) ∧
      w.pairs + M ≤ w'.pairs ∧ w.tests + (unmatched l1 - unmatched l1').toNat ≤ w'.tests := by
  intro fuel
  induction fuel with
  | zero =>
    intro l1 l2 next w k h hu
    obtain ⟨best, e, o, n⟩ := transOuter_spec h.al1 h.al2 l1 [] ⟨0, none, none⟩ rfl ⟨le_refl _, Or.inl rfl⟩ (by simp)
    simp only [List.length_nil] at e
    obtain ⟨w1, e1, u1, t1⟩ := transOuterW_eq h.al2 l1 0 ⟨0, none, none⟩ w (le_refl _)
      (fun s hs => ⟨only_eq h.al1 hs, (mem_bounds h.al1 hs).2.1, (mem_bounds h.al1 hs).2.2.1⟩) e
    have u2 := unmatched_nonneg h.al2
    have hz : best.length = 0 := by
      rcases o.found with hz | ⟨s1, s2, p1, p2, x, y, f1, f2, f3, f4, f5, f6, f7, f8, f9, f10, f11⟩
      · exact hz
      · by_contra hz
        have hge := o.ge
        obtain ⟨len, hlen⟩ : ∃ k : Nat, best.length = k := ⟨best.length.toNat, by omega⟩
        have bx := mem_bounds h.al1 (List.mem_of_getElem? f3)
        obtain ⟨w1, w2, w3⟩ := run_eq (a := a) (b := a) len s1.toNat s1.toNat (by
          intro t ht
          obtain ⟨c, q1, q2, q3, q4, q5⟩ := f11 t (by omega) (by omega)
          rw [show (s1 + (t : Int)).toNat = s1.toNat + t by omega] at q3
          exact ⟨c, q3, q3, q5⟩)
        obtain ⟨l', _, al', _, _, _, _, hum⟩ := save_one (len := len) h.al1 h.nd h.lt f3 f5 (by omega) f7 (by omega) w2 w3
        have := unmatched_nonneg al'
        omega
    unfold transLoop transLoopW
    rw [e, e1]
    simp only [bind_ok]
    rw [if_pos hz, if_pos hz]
    have t2 := t1.least
    simp only at t2
    refine ⟨l1, l2, w1, 0, rfl, rfl, by omega, u1, u2, by simp, by simp, ?_, ?_, t1.low, by omega⟩
    · have := t1.pairs; omega
    · have := t1.tests
      rw [hz] at this
      simpa using this
  | succ fuel ih =>
    intro l1 l2 next w k h hu
    obtain ⟨best, e, o, n⟩ := transOuter_spec h.al1 h.al2 l1 [] ⟨0, none, none⟩ rfl ⟨le_refl _, Or.inl rfl⟩ (by simp)
    simp only [List.length_nil] at e
    obtain ⟨w1, e1, u1, t1⟩ := transOuterW_eq h.al2 l1 0 ⟨0, none, none⟩ w (le_refl _)
      (fun s hs => ⟨only_eq h.al1 hs, (mem_bounds h.al1 hs).2.1, (mem_bounds h.al1 hs).2.2.1⟩) e
    have u2 := unmatched_nonneg h.al2
    unfold transLoop transLoopW
    rw [e, e1]
    simp only [bind_ok]
    by_cases hz : best.length = 0
    · rw [if_pos hz, if_pos hz]
      have t2 := t1.least
      simp only at t2
      refine ⟨l1, l2, w1, 0, rfl, rfl, by omega, u1, u2, by simp, by simp, ?_, ?_, t1.low, by omega⟩
      · have := t1.pairs; omega
      · have := t1.tests
        rw [hz] at this
        simpa using this
    · rw [if_neg hz, if_neg hz]
      rcases o.found with hz' | ⟨s1, s2, p1, p2, x, y, f1, f2, f3, f4, f5, f6, f7, f8, f9, f10, f11⟩
      · exact absurd hz' hz
      · have hge := o.ge
        obtain ⟨len, hlen⟩ : ∃ k : Nat, best.length = k := ⟨best.length.toNat, by omega⟩
        have bx := mem_bounds h.al1 (List.mem_of_getElem? f3)
        have by_ := mem_bounds h.al2 (List.mem_of_getElem? f4)
        have hrun := run_eq (a := a) (b := b) len s1.toNat s2.toNat (by
          intro t ht
          obtain ⟨c, q1, q2, q3, q4, q5⟩ := f11 t (by omega) (by omega)
          rw [show (s1 + (t : Int)).toNat = s1.toNat + t by omega] at q3
          rw [show (s2 + (t : Int)).toNat = s2.toNat + t by omega] at q4
          exact ⟨c, q3, q4, q5⟩)
        obtain ⟨q1, q2, q3⟩ := hrun
        rw [f1, f2]
        simp only
        obtain ⟨l1', e1, al1, nd1, lt1, pm1, ns1, hum⟩ := save_one (len := len) h.al1 h.nd h.lt f3 f5 (by omega) f7 (by omega) q2 q3
        have hlt2 : ∀ z ∈ l2.filterMap (·.mtch), z < next := fun z hz => h.lt z (h.perm.mem_iff.1 hz)
        obtain ⟨l2', e2, al2, nd2, lt2, pm2, ns2, hum2⟩ := save_one (len := len) h.al2 (h.perm.nodup_iff.2 h.nd) hlt2 f4 f6 (by omega) f9
          (by omega) (q1 ▸ q2) (q1 ▸ q3)
        rw [hlen, e1, e2]
        simp only [bind_ok]
        obtain ⟨l1'', l2'', w', M, g1, g2, g3, g4, g5, g6, g7, g8, g9, g10, g11⟩ := ih l1' l2' (next + 1) w1 (k + 1)
          ⟨al1, al2, nd1, lt1, pm2.trans ((h.perm.cons next).trans pm1.symm), by
            intro u hu v hv hum huv
            have hvm : v.mtch ≠ none := huv ▸ hum
            rcases ns1 u hu hum with hu1 | ⟨hu1, hu2⟩
            · rcases ns2 v hv hvm with hv1 | ⟨hv1, hv2⟩
              · exact h.same u hu1 v hv1 hum huv
              · have := h.lt next (List.mem_filterMap.2 ⟨u, hu1, huv.trans hv1⟩)
                omega
            · rcases ns2 v hv hvm with hv1 | ⟨hv1, hv2⟩
              · have := hlt2 next (List.mem_filterMap.2 ⟨v, hv1, huv.symm.trans hu1⟩)
                omega
              · rw [hu2, hv2, q1]⟩ (by omega)
        have hless : (unmatched l1').toNat * (unmatched l2').toNat ≤ (unmatched l1).toNat * (unmatched l2).toNat :=
          Nat.mul_le_mul (by omega) (by omega)
        have hpl := pm1.length_eq
        simp only [List.length_cons] at hpl
        have t2 := t1.least
        have t3 := t1.found
        simp only at t2 t3
        have t4 := t3 (by omega)
        refine ⟨l1'', l2'', w', M + 1, g1, ?_, by omega, g4, g5, by push_cast; omega, by push_cast; omega, ?_, ?_, by omega, by omega⟩
        · rw [g2, show k + 1 + M + 1 = k + (M + 1) + 1 by omega]
        · have := Nat.mul_le_mul_left (M + 1) hless
          have := t1.pairs
          rw [show (M + 1 + 1) * ((unmatched l1).toNat * (unmatched l2).toNat) =
            (M + 1) * ((unmatched l1).toNat * (unmatched l2).toNat) + (unmatched l1).toNat * (unmatched l2).toNat by ring]
          omega
        · have c1 := t1.tests
          have c2 := t1.pairs
          rw [hlen] at c1
          have c3 : (w1.pairs - w.pairs) * (len : Int).toNat ≤ len * ((unmatched l1).toNat * (unmatched l2).toNat) := by
            rw [Nat.mul_comm, show (len : Int).toNat = len by omega]
            exact Nat.mul_le_mul_left _ (by omega)
          have c4 := Nat.mul_le_mul_left (unmatched l1' - unmatched l1'').toNat hless
          have c5 : (unmatched l1 - unmatched l1'').toNat = len + (unmatched l1' - unmatched l1'').toNat := by omega
          rw [c5, Nat.add_mul]
          omega

theorem tiles_sum : ∀ (l : List Sync) (p q : Int), Tiles p (l.map (·.sub 0)) q → p + unmatched l + matchedChars l = q := by
  intro l
  induction l with
  | nil => intro p q h; simp only [List.map_nil, Tiles] at h; simp [unmatched, matchedChars, h]
  | cons s l ih =>
    intro p q h
    simp only [List.map_cons, Tiles] at h
    have := ih _ _ h.2.2.2
    rw [unmatched_cons]
    unfold matchedChars at this ⊢
    simp only [List.map_cons, List.sum_cons]
    split <;> omega

/-- The work of `transpose_sync`. -/
theorem transpose_syncW_spec (a b : List Nat) : ∃ r w M, transpose_sync a b = .ok r ∧ transpose_syncW a b = .ok (r, w, M + 1) ∧
    M = (r.items1.filterMap (·.mtch)).length ∧ M ≤ a.length ∧ M ≤ b.length ∧ w.pairs ≤ (M + 1) * (a.length * b.length) ∧
    0 ≤ matchedChars r.items1 ∧ matchedChars r.items1 ≤ a.length ∧
    w.tests ≤ (matchedChars r.items1).toNat * (a.length * b.length) ∧ M ≤ w.pairs ∧ matchedChars r.items1 ≤ w.tests := by
  obtain ⟨r, er, ra, _⟩ := transpose_spec a b
  have i1 := initial_alignment [a]
  have i2 := initial_alignment [b]
  simp only [List.map_cons, List.map_nil] at i1 i2
  have hnone : ∀ n : Nat, (initialize_synclist [n]).filterMap (·.mtch) = [] := by
    intro n; unfold initialize_synclist; simp only; split <;> simp
  have hum : ∀ n : Nat, unmatched (initialize_synclist [n]) = n := by
    intro n
    unfold initialize_synclist
    simp only
    split
    · simp [unmatched, Sync.sub]
    · rename_i hv
      simp [valid_sync] at hv
      simp [unmatched, hv]
  obtain ⟨l1, l2, w, M, e, e', g3, g4, g5, g6, g7, g8, g9, g10, g11⟩ := transLoopW_spec (a := a) (b := b) a.length _ _ 0 ⟨0, 0, 0⟩ 0
    ⟨i1, i2, by simp [hnone], by simp [hnone], by simp [hnone], by
      intro x hx _ _ hm
      exfalso
      have : (initialize_synclist [a.length]).filterMap (·.mtch) = [] := hnone _
      rw [List.filterMap_eq_nil_iff] at this
      exact hm (this x hx)⟩ (le_of_eq (hum _))
  have hr : r = ⟨l1, l2, number_matches l1 (fun _ => 0)⟩ := by
    unfold transpose_sync at er
    simp only at er
    rw [e] at er
    simpa using er.symm
  refine ⟨r, w, M, er, ?_, ?_, ?_, ?_, ?_, ?_, ?_, ?_, by omega, ?_⟩
  · unfold transpose_syncW
    simp only
    rw [e', hr]
    simp
  · rw [hr]
    simp only
    rw [g3, hnone]
    simp
  · rw [hum] at g6; omega
  · rw [hum] at g7; omega
  · simpa [hum] using g8
  all_goals
    have ht := tiles_sum _ _ _ (ra.tiles 0 (by simp))
    rw [hr] at ht ⊢
    simp only [List.getElem_cons_zero] at ht ⊢
    rw [hum] at g6
  · omega
  · omega
  · rw [hum, hum] at g9
    rw [show (matchedChars l1).toNat = (↑a.length - unmatched l1).toNat by omega]
    simpa using g9
  · rw [hum] at g11
    omega

end Ocr.Sync
