import Verif.Model.SyncCost
import Verif.Proof.Fastukk
import Mathlib.Algebra.BigOperators.Intervals
import Mathlib.Algebra.Order.BigOperators.Group.Finset
import Mathlib.Order.Interval.Finset.Defs
import Mathlib.Data.Int.Interval
import Mathlib.Algebra.Order.Group.Abs
import Mathlib.Algebra.Order.Group.Unbundled.Abs
import Mathlib.Tactic.Ring

/-!
# The work done by fastukk_sync
-/

namespace Ocr.Sync
open Text Res

/-! ## The functions with counters compute the same -/

theorem initialLoopW_eq {k : Int} {P : Path} : ∀ (count : Nat) (i result : Int) (pk : Option Int) (l : Nat) {r},
    initialLoop k P count i result pk = .ok r → initialLoopW k P count i result pk l = .ok (r, l + count) := by
  intro count
  induction count with
  | zero => intro i result pk l r h; simp only [initialLoop, Res.ok.injEq] at h; simp [initialLoopW, ← h]
  | succ count ih =>
    intro i result pk l r h
    unfold initialLoop at h
    obtain ⟨v, hv, h⟩ := bind_eq_ok.1 h
    unfold initialLoopW
    rw [hv]
    simp only [bind_ok]
    simp only at h
    generalize (if i ≥ k then v + 1 else v) = value at h ⊢
    split at h
    · rename_i hc
      rw [if_pos hc, ih _ _ _ _ h]
      congr 2; omega
    · rename_i hc
      rw [if_neg hc, ih _ _ _ _ h]
      congr 2; omega

theorem initial_fW_eq {k : Int} {prev : Option Path} {r : Int × Option Int} (h : initial_f k prev = .ok r) :
    ∃ l ≤ 3, initial_fW k prev = .ok (r, l) := by
  cases prev with
  | none => simp only [initial_f, Res.ok.injEq] at h; exact ⟨0, by omega, by simp [initial_fW, ← h]⟩
  | some P =>
    unfold initial_f at h
    unfold initial_fW
    simp only at h ⊢
    split at h
    · simp at h
    · rename_i hc
      rw [if_neg hc, initialLoopW_eq _ _ _ _ _ h]
      exact ⟨_, by omega, rfl⟩

theorem extendLoopW_eq {a b : List Nat} : ∀ (fuel : Nat) (i j : Int) (t : Nat) {i'}, extendLoop a b fuel i j = .ok i' →
    i ≤ i' ∧ extendLoopW a b fuel i j t = .ok (i', t + (i' - i).toNat + 1) := by
  intro fuel
  induction fuel with
  | zero =>
    intro i j t i' h
    unfold extendLoop at h
    unfold extendLoopW
    split at h
    · rename_i hc
      obtain ⟨x, hx, h⟩ := bind_eq_ok.1 h
      obtain ⟨y, hy, h⟩ := bind_eq_ok.1 h
      rw [if_pos hc, hx, hy]
      simp only [bind_ok]
      split at h
      · simp at h
      · rename_i hm
        rw [if_neg hm]
        simp only [Res.ok.injEq] at h
        subst h; simp
    · rename_i hc
      rw [if_neg hc]
      simp only [Res.ok.injEq] at h
      subst h; simp
  | succ fuel ih =>
    intro i j t i' h
    unfold extendLoop at h
    unfold extendLoopW
    split at h
    · rename_i hc
      obtain ⟨x, hx, h⟩ := bind_eq_ok.1 h
      obtain ⟨y, hy, h⟩ := bind_eq_ok.1 h
      rw [if_pos hc, hx, hy]
      simp only [bind_ok]
      split at h
      · rename_i hm
        rw [if_pos hm]
        obtain ⟨g1, g2⟩ := ih _ _ (t + 1) h
        refine ⟨by omega, ?_⟩
        simp only at h ⊢
        rw [g2]
        congr 2; omega
      · rename_i hm
        rw [if_neg hm]
        simp only [Res.ok.injEq] at h
        subst h; simp
    · rename_i hc
      rw [if_neg hc]
      simp only [Res.ok.injEq] at h
      subst h; simp

/-- Where the while loop of `compute_f` starts on diagonal `k`. -/
def begins (prev : Option Path) (k : Int) : Int :=
  match initial_f k prev with
  | .ok (i, _) => i
  | _ => 0

/-- The tests of a level with the values `vs` on the diagonals from `k` on. -/
def levelCost (prev : Option Path) : (k : Int) → List Int → Int
  | _, [] => 0
  | k, v :: vs => (v - begins prev k + 1) + levelCost prev (k + 1) vs

theorem levelCost_append (prev : Option Path) (v : Int) : ∀ (vs : List Int) (k : Int),
    levelCost prev k (vs ++ [v]) = levelCost prev k vs + (v - begins prev (k + vs.length) + 1) := by
  intro vs
  induction vs with
  | nil => intro k; simp [levelCost]
  | cons x xs ih =>
    intro k
    simp only [List.cons_append, levelCost, ih, List.length_cons]
    rw [show k + 1 + (xs.length : Int) = k + ((xs.length + 1 : Nat) : Int) by push_cast; omega]
    omega

/-- What the work of some calls of `compute_f` has to do with the cells added. -/
structure Adds (prev : Option Path) (s s' : FState) (w w' : Work) : Prop where
  calls : w'.calls + s.diags.length = w.calls + s'.diags.length
  tests : (w'.tests : Int) + levelCost prev s.start_k s.diags = w.tests + levelCost prev s'.start_k s'.diags
  looks : w'.looks + 3 * w.calls ≤ w.looks + 3 * w'.calls

theorem Adds.refl (prev : Option Path) (s : FState) (w : Work) : Adds prev s s w w := ⟨rfl, rfl, by omega⟩

theorem Adds.trans {prev : Option Path} {s s' s'' : FState} {w w' w'' : Work} (h : Adds prev s s' w w') (h' : Adds prev s' s'' w' w'') :
    Adds prev s s'' w w'' := by
  have := h.calls; have := h'.calls; have := h.tests; have := h'.tests; have := h.looks; have := h'.looks
  exact ⟨by omega, by omega, by omega⟩

theorem compute_fW_eq {a b : List Nat} {p : Int} {prev : Option Path} {k : Int} {s s' : FState} (w : Work)
    (h : compute_f a b p prev k s = .ok s')
    (hadj : s.diags = [] ∨ k = s.start_k - 1 ∨ k = s.start_k + s.diags.length) :
    ∃ v, compute_fW a b p prev k s = .ok (s', v) ∧ Adds prev s s' w (w.add v) := by
  unfold compute_f at h
  obtain ⟨⟨i0, pk⟩, h1, h⟩ := bind_eq_ok.1 h
  obtain ⟨i, h2, h⟩ := bind_eq_ok.1 h
  obtain ⟨l, hl, h1'⟩ := initial_fW_eq h1
  obtain ⟨g1, g2⟩ := extendLoopW_eq _ _ _ 0 h2
  have hb : begins prev k = i0 := by unfold begins; rw [h1]
  unfold compute_fW
  rw [h1']
  simp only [bind_ok]
  rw [g2]
  simp only [bind_ok] at h ⊢
  by_cases hd : s.diags = []
  · rw [if_pos hd] at h ⊢
    simp only [pure_eq, Res.ok.injEq] at h
    subst h
    refine ⟨_, rfl, ?_, ?_, ?_⟩
    · simp [Work.add, hd]
    · simp only [Work.add, hd, levelCost, hb]; push_cast; omega
    · simp only [Work.add]; omega
  · rw [if_neg hd] at h ⊢
    by_cases hk : k < s.start_k
    · rw [if_pos hk] at h ⊢
      simp only [pure_eq, Res.ok.injEq] at h
      subst h
      have hk' : s.start_k = k + 1 := by
        rcases hadj with g | g | g
        · exact absurd g hd
        · omega
        · omega
      refine ⟨_, rfl, ?_, ?_, ?_⟩
      · simp only [Work.add, List.length_cons]; omega
      · simp only [Work.add, levelCost, hb, hk']; push_cast; omega
      · simp only [Work.add]; omega
    · rw [if_neg hk] at h ⊢
      simp only [pure_eq, Res.ok.injEq] at h
      subst h
      have hk' : s.start_k + s.diags.length = k := by
        rcases hadj with g | g | g
        · exact absurd g hd
        · omega
        · omega
      refine ⟨_, rfl, ?_, ?_, ?_⟩
      · simp only [Work.add, List.length_append, List.length_cons, List.length_nil]; omega
      · simp only [Work.add, levelCost_append, hk', hb]; push_cast; omega
      · simp only [Work.add]; omega

/-! ## One level -/

/-- The diagonals of `s` are between `lo` and `hi`. -/
def Inside (lo hi : Int) (s : FState) : Prop := s.diags ≠ [] → lo ≤ s.start_k ∧ s.stop_k ≤ hi

theorem Mid.len {a b : List Nat} {p : Nat} {prev : Option Path} {omin omax : Int} {s : FState} (h : Mid a b p prev omin omax s)
    (hd : s.diags ≠ []) : s.start_k + s.diags.length = s.stop_k + 1 := by
  have := h.shape hd
  simp only [Shape, FState.path] at this
  omega

theorem downW_spec {a b : List Nat} {p : Nat} {prev : Option Path} {omin omax : Int} (hpre : Pre a b p prev omin omax) :
    ∀ (fuel : Nat) (k : Int) (s : FState) (w : Work), Mid a b p prev omin omax s → k ≤ (b.length : Int) - a.length → k ≤ p →
    (-(p : Int) ≤ k → s.diags = [] ∨ s.start_k = k + 1) → k + p + 1 ≤ fuel → Inside omin omax s →
    ∃ s' w', downLoop a b p prev fuel k s = .ok s' ∧ downLoopW a b p prev fuel k s w = .ok (s', w') ∧ Inside omin omax s' ∧
      Adds prev s s' w w' := by
  intro fuel
  induction fuel with
  | zero =>
    intro k s w hm h1 h2 h3 h4 h5
    unfold downLoop downLoopW
    rw [if_neg (by omega), if_neg (by omega)]
    exact ⟨s, w, rfl, rfl, h5, Adds.refl _ _ _⟩
  | succ fuel ih =>
    intro k s w hm h1 h2 h3 h4 h5
    unfold downLoop downLoopW
    by_cases hk : k ≥ max s.min_k (-(p : Int))
    · rw [if_pos hk, if_pos hk]
      have hlo := hm.lo
      have hphi := hpre.hi
      obtain ⟨s1, e, m1, g1, g2, g3, g4, g5, g6, g7⟩ := compute_f_spec hpre hm (k := k) (by omega) (by omega) (by omega) h2
        (by rcases h3 (by omega) with h | h
            · exact Or.inl h
            · exact Or.inr (Or.inl (by omega)))
        (Or.inl (by omega)) (Or.inr h1)
      obtain ⟨v, e', ha⟩ := compute_fW_eq w e (by
        rcases h3 (by omega) with h | h
        · exact Or.inl h
        · exact Or.inr (Or.inl (by omega)))
      have hst : s1.start_k = k := by
        rw [g6]; split
        · rfl
        · rcases h3 (by omega) with h | h
          · contradiction
          · omega
      have hin : Inside omin omax s1 := by
        intro _
        rw [hst, g7]
        refine ⟨by omega, ?_⟩
        split
        · omega
        · rename_i hd
          have := (h5 hd).2
          omega
      obtain ⟨s2, w2, r1, r2, r3, r4⟩ := ih (k - 1) s1 (w.add v) m1 (by omega) (by omega) (fun _ => Or.inr (by omega)) (by omega) hin
      simp only [e, e', bind_ok]
      exact ⟨s2, w2, r1, r2, r3, ha.trans r4⟩
    · rw [if_neg hk, if_neg hk]
      exact ⟨s, w, rfl, rfl, h5, Adds.refl _ _ _⟩

theorem upW_spec {a b : List Nat} {p : Nat} {prev : Option Path} {omin omax : Int} (hpre : Pre a b p prev omin omax) :
    ∀ (fuel : Nat) (k : Int) (s : FState) (w : Work), Mid a b p prev omin omax s → (b.length : Int) - a.length ≤ k → -(p : Int) ≤ k →
    (k ≤ p → s.diags = [] ∨ s.stop_k = k - 1) → (p : Int) - k + 1 ≤ fuel → Inside omin omax s →
    ∃ s' w', upLoop a b p prev fuel k s = .ok s' ∧ upLoopW a b p prev fuel k s w = .ok (s', w') ∧ Inside omin omax s' ∧
      Adds prev s s' w w' := by
  intro fuel
  induction fuel with
  | zero =>
    intro k s w hm h1 h2 h3 h4 h5
    unfold upLoop upLoopW
    rw [if_neg (by omega), if_neg (by omega)]
    exact ⟨s, w, rfl, rfl, h5, Adds.refl _ _ _⟩
  | succ fuel ih =>
    intro k s w hm h1 h2 h3 h4 h5
    unfold upLoop upLoopW
    by_cases hk : k ≤ min s.max_k (p : Int)
    · rw [if_pos hk, if_pos hk]
      have hhi := hm.hi
      have hplo := hpre.lo
      obtain ⟨s1, e, m1, g1, g2, g3, g4, g5, g6, g7⟩ := compute_f_spec hpre hm (k := k) (by omega) (by omega) h2 (by omega)
        (by rcases h3 (by omega) with h | h
            · exact Or.inl h
            · exact Or.inr (Or.inr (by omega)))
        (Or.inr h1) (Or.inl (by omega))
      obtain ⟨v, e', ha⟩ := compute_fW_eq w e (by
        by_cases hd : s.diags = []
        · exact Or.inl hd
        · have := hm.len hd
          rcases h3 (by omega) with h | h
          · contradiction
          · exact Or.inr (Or.inr (by omega)))
      have hst : s1.stop_k = k := by
        rw [g7]; split
        · rfl
        · rcases h3 (by omega) with h | h
          · contradiction
          · omega
      have hin : Inside omin omax s1 := by
        intro _
        rw [hst, g6]
        refine ⟨?_, by omega⟩
        split
        · omega
        · rename_i hd
          have := (h5 hd).1
          omega
      obtain ⟨s2, w2, r1, r2, r3, r4⟩ := ih (k + 1) s1 (w.add v) m1 (by omega) (by omega) (fun _ => Or.inr (by omega)) (by omega) hin
      simp only [e, e', bind_ok]
      exact ⟨s2, w2, r1, r2, r3, ha.trans r4⟩
    · rw [if_neg hk, if_neg hk]
      exact ⟨s, w, rfl, rfl, h5, Adds.refl _ _ _⟩

theorem levelW_spec {a b : List Nat} {p : Nat} {prev : Option Path} {omin omax : Int} (hpre : Pre a b p prev omin omax) (w : Work) :
    ∃ s w', computeLevel a b p prev omin omax = .ok s ∧ computeLevelW a b p prev omin omax w = .ok (s, w') ∧
      Inside omin omax s ∧ Adds prev ⟨omin, omax, 0, 0, []⟩ s w w' := by
  have h1 := hpre.lo
  have h2 := hpre.hi
  have h3 := hpre.lop
  have h4 := hpre.hip
  have hm0 : Mid a b p prev omin omax ⟨omin, omax, 0, 0, []⟩ :=
    ⟨fun h => absurd rfl h, fun k i h => (cell_nil h).elim, le_refl _, le_refl _, fun k h => (cell_nil h).elim,
      fun k i h => (cell_nil h).elim, fun k h => Or.inl h, fun k h => Or.inl h⟩
  have hi0 : Inside omin omax ⟨omin, omax, 0, 0, []⟩ := fun h => absurd rfl h
  unfold computeLevel computeLevelW
  simp only
  split
  · rename_i hle
    obtain ⟨s1, e1, m1, a1, a2, a3, a4, a5, a6⟩ := down_spec hpre (2 * p + 1) (min ((b.length : Int) - a.length) p) _ hm0
      (by omega) (by omega) (fun _ => Or.inl rfl) (by push_cast; omega)
    obtain ⟨b1, b2⟩ := a6 rfl (by simp only; omega)
    obtain ⟨s1', w1, f1, f2, f3, f4⟩ := downW_spec hpre (2 * p + 1) (min ((b.length : Int) - a.length) p) _ w hm0
      (by omega) (by omega) (fun _ => Or.inl rfl) (by push_cast; omega) hi0
    obtain rfl : s1 = s1' := by rw [e1] at f1; simpa using f1
    obtain ⟨s2, w2, c1, c2, c3, c4⟩ := upW_spec hpre (2 * p + 1) ((b.length : Int) - a.length + 1) s1 w1 m1
      (by omega) (by omega) (fun _ => Or.inr (by omega)) (by push_cast; omega) f3
    rw [e1, f2]; simp only [bind_ok]
    exact ⟨s2, w2, c1, c2, c3, f4.trans c4⟩
  · rename_i hle
    obtain ⟨s1, e1, m1, a1, a2, a3, a4, a5, a6⟩ := up_spec hpre (2 * p + 1) (max ((b.length : Int) - a.length) (-p)) _ hm0
      (by omega) (by omega) (fun _ => Or.inl rfl) (by push_cast; omega)
    obtain ⟨b1, b2⟩ := a6 rfl (by simp only; omega)
    obtain ⟨s1', w1, f1, f2, f3, f4⟩ := upW_spec hpre (2 * p + 1) (max ((b.length : Int) - a.length) (-p)) _ w hm0
      (by omega) (by omega) (fun _ => Or.inl rfl) (by push_cast; omega) hi0
    obtain rfl : s1 = s1' := by rw [e1] at f1; simpa using f1
    obtain ⟨s2, w2, c1, c2, c3, c4⟩ := downW_spec hpre (2 * p + 1) ((b.length : Int) - a.length - 1) s1 w1 m1
      (by omega) (by omega) (fun _ => Or.inr (by omega)) (by push_cast; omega) f3
    rw [e1, f2]; simp only [bind_ok]
    exact ⟨s2, w2, c1, c2, c3, f4.trans c4⟩

/-! ## All levels -/

/-- How far diagonal `k` has been searched when row `i` is reached. -/
def far (k i : Int) : Int := min i (i + k) + 1

theorem levelCost_le {prev : Option Path} (g g' : Int → Int) : ∀ (vs : List Int) (k : Int),
    (∀ (x : Nat) v, vs[x]? = some v → v - begins prev (k + x) + 1 ≤ g' (k + x) - g (k + x)) →
    levelCost prev k vs ≤ ∑ q ∈ Finset.Ico k (k + vs.length), (g' q - g q) := by
  intro vs
  induction vs with
  | nil => intro k h; simp [levelCost]
  | cons v vs ih =>
    intro k h
    have h0 := h 0 v rfl
    have h1 := ih (k + 1) (fun x v hv => by
      have := h (x + 1) v (by simpa using hv)
      push_cast at this
      rw [show k + 1 + (x : Int) = k + (x + 1) by omega]
      exact this)
    have hs : Finset.Ico k (k + ((v :: vs).length : Nat)) = insert k (Finset.Ico (k + 1) (k + 1 + (vs.length : Nat))) := by
      ext q
      simp only [Finset.mem_Ico, Finset.mem_insert, List.length_cons]
      push_cast
      omega
    rw [hs, Finset.sum_insert (by simp)]
    simp only [levelCost]
    simp only [Nat.cast_zero, Int.add_zero] at h0
    omega

/-- The work done so far; `g k` is how far diagonal `k` has been searched. -/
structure Tally (a b : List Nat) (paths : List Path) (w : Work) (u : Int) (g : Int → Int) : Prop where
  range : ∀ k, 0 ≤ g k ∧ g k ≤ min (a.length : Int) b.length + 1
  zero : ∀ k, k ≤ -(paths.length : Int) ∨ (paths.length : Int) ≤ k → g k = 0
  last : ∀ P, paths.head? = some P → ∀ k i, Cell P k i → g k = far k i ∧ (paths.length : Int) - |k| ≤ g k
  tests : (w.tests : Int) ≤ ∑ k ∈ Finset.Icc (-(lev a b : Int)) (lev a b), g k
  cells : w.calls = (paths.map (·.f.length)).sum
  square : w.calls ≤ paths.length ^ 2
  looks : w.looks ≤ 3 * w.calls
  ukk : (w.calls : Int) ≤ u

theorem begins_eq {a b : List Nat} {p : Nat} {prev : Option Path} {k i : Int} (c : CellOK a b p prev k i) :
    0 ≤ begins prev k ∧ 0 ≤ begins prev k + k ∧ begins prev k ≤ i ∧
      ∀ P u, prev = some P → Cell P k u → u + 1 ≤ begins prev k := by
  obtain ⟨s, pk, e, hin, h1, h2, h3, _⟩ := c.from_
  have hb : begins prev k = s := by unfold begins; rw [e]
  rw [hb]
  refine ⟨h1, h2, h3, ?_⟩
  rintro P u rfl hu
  obtain ⟨q, u', _, _, _, _, _, hdom⟩ := hin
  have := hdom k u (by omega) (by omega) hu
  unfold bump at this
  rw [if_pos (by omega)] at this
  exact this

theorem ukkonen_le {m n p st sp : Int} (hm : 0 ≤ m) (hn : 0 ≤ n) (hp : 0 ≤ p) (hle : st ≤ sp) (h1 : -m ≤ st) (h2 : -p ≤ st)
    (h3 : sp ≤ n) (h4 : sp ≤ p) (h : ∀ k, st ≤ k → k ≤ sp → p - |k| ≤ min m n) : sp - st + 1 ≤ ukkonenCount m n p := by
  have g1 := h st (le_refl _) hle
  have g2 := h sp hle (le_refl _)
  have g3 : st ≤ 0 → 0 ≤ sp → p ≤ min m n := fun a b => by simpa using h 0 a b
  unfold ukkonenCount
  simp only
  rcases abs_cases st with ⟨e1, _⟩ | ⟨e1, _⟩ <;> rcases abs_cases sp with ⟨e2, _⟩ | ⟨e2, _⟩ <;> rw [e1] at g1 <;> rw [e2] at g2 <;>
    split <;> split <;> omega

theorem Tally.step {a b : List Nat} {paths : List Path} {w : Work} {u mn mx : Int} {g : Int → Int} {s : FState} {w' : Work}
    (ht : Tally a b paths w u g) (hs : StateOK a b paths mn mx)
    (hp : paths.length ≤ lev a b) (hin : Inside mn mx s) (hadd : Adds paths.head? ⟨mn, mx, 0, 0, []⟩ s w w')
    (hl : LevelOK a b paths.length paths.head? (s.path paths.length) s.min_k s.max_k) :
    ∃ g', Tally a b (s.path paths.length :: paths) w' (u + ukkonenCount a.length b.length paths.length) g' := by
  obtain ⟨P, hP⟩ : ∃ P, P = s.path paths.length := ⟨_, rfl⟩
  rw [← hP] at hl ⊢
  have hf : P.f = s.diags := by rw [hP]; rfl
  have hst : P.start_k = s.start_k := by rw [hP]; rfl
  have hsp : P.stop_k = s.stop_k := by rw [hP]; rfl
  have hsh := hl.shape
  unfold Shape at hsh
  have hne := hl.ne
  have hdne : s.diags ≠ [] := by
    intro h
    rw [hf, h] at hsh
    simp at hsh
    omega
  obtain ⟨hin1, hin2⟩ := hin hdne
  -- a cell of the new level
  have hcell : ∀ k, P.start_k ≤ k → k ≤ P.stop_k → ∃ i, Cell P k i ∧ CellOK a b paths.length paths.head? k i ∧
      (if 0 ≤ k then 0 else -k) + g k ≤ begins paths.head? k ∧ (paths.length : Int) + 1 - |k| ≤ far k i := by
    intro k h1 h2
    obtain ⟨i, hi⟩ := cell_exists hl.shape h1 h2
    have c := hl.cells _ _ hi
    obtain ⟨b1, b2, b3, b4⟩ := begins_eq c
    refine ⟨i, hi, c, ?_⟩
    have hcase : (g k = 0 ∧ ((paths.length : Int) ≤ k ∨ k ≤ -(paths.length : Int))) ∨
        ∃ Q v, paths.head? = some Q ∧ Cell Q k v := by
      cases hs with
      | start => left; exact ⟨ht.zero k (by simp; omega), by simp; omega⟩
      | level h =>
        rename_i Q rest
        by_cases hk : k ≤ -((Q :: rest).length : Int) ∨ ((Q :: rest).length : Int) ≤ k
        · left; exact ⟨ht.zero k hk, hk.symm⟩
        · right
          simp only [List.length_cons] at hk
          push_cast at hk
          rcases h.covers k (by omega) (by omega) with ⟨v, hv⟩ | r | r
          · exact ⟨Q, v, rfl, hv⟩
          · omega
          · omega
    have := c.i0
    have := c.j0
    rcases hcase with ⟨h0, hk⟩ | ⟨Q, v, hQ, hv⟩
    · rw [h0]
      unfold far
      rcases abs_cases k with ⟨e, _⟩ | ⟨e, _⟩ <;> rw [e] <;> refine ⟨?_, ?_⟩
      · split <;> omega
      · omega
      · split <;> omega
      · omega
    · obtain ⟨l1, l2⟩ := ht.last Q hQ k v hv
      have := b4 Q v hQ hv
      unfold far at l1 ⊢
      refine ⟨?_, ?_⟩
      · rw [l1]; split <;> omega
      · omega
  obtain ⟨g', hg'⟩ : ∃ g' : Int → Int, g' = fun k => if P.start_k ≤ k ∧ k ≤ P.stop_k then
      far k ((P.f[(k - P.start_k).toNat]?).getD 0) else g k := ⟨_, rfl⟩
  have hgin : ∀ k i, Cell P k i → g' k = far k i := by
    intro k i hi
    rw [hg']
    simp only
    rw [if_pos ⟨hi.1, hi.le hl.shape⟩, hi.2]
    rfl
  have hgout : ∀ k, ¬ (P.start_k ≤ k ∧ k ≤ P.stop_k) → g' k = g k := by
    intro k hk
    rw [hg']
    simp only
    rw [if_neg hk]
  have hb := hl.cells
  obtain ⟨i1, hi1⟩ := cell_exists hl.shape (le_refl _) hne
  obtain ⟨i2, hi2⟩ := cell_exists hl.shape hne (le_refl _)
  have c1 := hb _ _ hi1
  have c2 := hb _ _ hi2
  have := c1.klo; have := c2.khi; have := c1.j0; have := c1.im; have := c2.i0; have := c2.jn
  have hlen := hadd.calls
  have hcost := hadd.tests
  simp only [List.length_nil, levelCost] at hlen hcost
  rw [← hf] at hlen
  rw [← hf, ← hst] at hcost
  have hsum : levelCost paths.head? P.start_k P.f ≤ ∑ q ∈ Finset.Ico P.start_k (P.start_k + P.f.length), (g' q - g q) := by
    apply levelCost_le
    intro x v hv
    have hx : x < P.f.length := (List.getElem?_eq_some_iff.1 hv).1
    obtain ⟨i, hi, c, h3, _⟩ := hcell (P.start_k + x) (by omega) (by omega)
    have hvi : v = i := by
      have := hi.2
      rw [show (P.start_k + (x : Int) - P.start_k).toNat = x by omega, hv] at this
      simpa using this
    rw [hgin _ _ hi, hvi]
    unfold far
    split at h3 <;> omega
  have hext : ∑ q ∈ Finset.Ico P.start_k (P.start_k + P.f.length), (g' q - g q) =
      ∑ q ∈ Finset.Icc (-(lev a b : Int)) (lev a b), (g' q - g q) := by
    apply Finset.sum_subset
    · intro q hq
      rw [Finset.mem_Ico] at hq
      rw [Finset.mem_Icc]
      omega
    · intro q _ hq
      rw [Finset.mem_Ico] at hq
      rw [hgout q (by omega)]
      omega
  rw [hext, Finset.sum_sub_distrib] at hsum
  have hlook := hadd.looks
  have ht1 := ht.tests
  have ht2 := ht.cells
  have ht3 := ht.square
  have ht4 := ht.looks
  have ht5 := ht.ukk
  have hukk := ukkonen_le (m := a.length) (n := b.length) (p := paths.length) (st := P.start_k) (sp := P.stop_k) (by omega) (by omega)
    (by omega) hne (by omega) (by omega) (by omega) (by omega) (by
      intro k h1 h2
      obtain ⟨i, hi, c, _, h4⟩ := hcell k h1 h2
      have := c.im; have := c.jn
      unfold far at h4
      omega)
  refine ⟨g', ?_, ?_, ?_, ?_, ?_, ?_, ?_, ?_⟩
  · intro k
    by_cases hk : P.start_k ≤ k ∧ k ≤ P.stop_k
    · obtain ⟨i, hi, c, _, _⟩ := hcell k hk.1 hk.2
      rw [hgin k i hi]
      have := c.im; have := c.jn; have := c.i0; have := c.j0
      unfold far
      omega
    · rw [hgout k hk]; exact ht.range k
  · intro k hk
    simp only [List.length_cons] at hk
    push_cast at hk
    rw [hgout k (by omega)]
    exact ht.zero k (by omega)
  · intro Q hQ k i hi
    simp only [List.head?_cons, Option.some.injEq] at hQ
    subst hQ
    obtain ⟨i', hi', _, _, h4⟩ := hcell k hi.1 (hi.le hl.shape)
    rw [hgin k i hi, hi.inj hi']
    refine ⟨rfl, ?_⟩
    simp only [List.length_cons]
    push_cast
    exact h4
  · omega
  · simp only [List.map_cons, List.sum_cons]
    omega
  · simp only [List.length_cons]
    have h2 : P.f.length ≤ 2 * paths.length + 1 := by omega
    have : (paths.length + 1) ^ 2 = paths.length ^ 2 + (2 * paths.length + 1) := by ring
    omega
  · omega
  · omega

theorem pathLoopW_spec {a b : List Nat} : ∀ (fuel : Nat) (mn mx : Int) (paths : List Path) (w : Work) (u : Int) (g : Int → Int),
    StateOK a b paths mn mx → lev a b + 1 ≤ fuel + paths.length → Tally a b paths w u g →
    ∃ r w' u' g', pathLoop a b fuel paths.length mn mx paths = .ok r ∧
      pathLoopW a b fuel paths.length mn mx paths w u = .ok (r, w', u') ∧ Tally a b r w' u' g' := by
  intro fuel
  induction fuel with
  | zero =>
    intro mn mx paths w u g hs hf ht
    have hu : ¬ mn ≤ (b.length : Int) - a.length := by
      intro hu
      cases hs with
      | start => simp at hf
      | level h =>
        have := level_bound h hu
        simp only [List.length_cons] at hf
        omega
    unfold pathLoop pathLoopW
    rw [if_neg hu, if_neg hu]
    exact ⟨_, _, _, _, rfl, rfl, ht⟩
  | succ fuel ih =>
    intro mn mx paths w u g hs hf ht
    by_cases hu : mn ≤ (b.length : Int) - a.length
    · unfold pathLoop pathLoopW
      rw [if_pos hu, if_pos hu]
      obtain ⟨s, w', e1, e2, hin, hadd, hp, hl⟩ : ∃ s w', computeLevel a b paths.length paths.head? mn mx = .ok s ∧
          computeLevelW a b paths.length paths.head? mn mx w = .ok (s, w') ∧ Inside mn mx s ∧
          Adds paths.head? ⟨mn, mx, 0, 0, []⟩ s w w' ∧ paths.length ≤ lev a b ∧
          LevelOK a b paths.length paths.head? (s.path paths.length) s.min_k s.max_k := by
        cases hs with
        | start =>
          obtain ⟨s, w', e1, e2, hin, hadd⟩ := levelW_spec (pre_start a b) w
          obtain ⟨s', e, hl⟩ := level_first a b
          obtain rfl : s = s' := by rw [e1] at e; simpa using e
          exact ⟨s, w', e1, e2, hin, hadd, Nat.zero_le _, hl⟩
        | level h =>
          rename_i P rest
          obtain ⟨s, w', e1, e2, hin, hadd⟩ := levelW_spec (h.pre hu) w
          obtain ⟨s', e, hl⟩ := level_next h hu
          obtain rfl : s = s' := by rw [e1] at e; simpa using e
          have := level_bound h hu
          exact ⟨s, w', e1, e2, hin, hadd, by simp only [List.length_cons]; omega, hl⟩
      obtain ⟨g', ht'⟩ := ht.step hs hp hin hadd hl
      simp only [e1, e2, bind_ok]
      exact ih s.min_k s.max_k (s.path paths.length :: paths) w' _ g' (.level hl) (by simp only [List.length_cons]; omega) ht'
    · unfold pathLoop pathLoopW
      rw [if_neg hu, if_neg hu]
      exact ⟨_, _, _, _, rfl, rfl, ht⟩

theorem compute_pathlistW_spec (a b : List Nat) : ∃ r w u g, compute_pathlist a b = .ok r ∧ compute_pathlistW a b = .ok (r, w, u) ∧
    r.length = lev a b + 1 ∧ Tally a b r w u g := by
  have hfuel : lev a b + 1 ≤ a.length + b.length + 1 + ([] : List Path).length := by have := lev_le_max a b; simp; omega
  obtain ⟨P, rest, e, _, _, hlen⟩ := pathLoop_spec (a := a) (b := b) (a.length + b.length + 1) (-a.length) b.length [] .start trivial hfuel
  obtain ⟨r, w, u, g, e1, e2, ht⟩ := pathLoopW_spec (a := a) (b := b) (a.length + b.length + 1) (-a.length) b.length [] Work.none 0
    (fun _ => 0) .start hfuel
    ⟨fun k => ⟨le_refl _, by omega⟩, fun _ _ => rfl, fun P h => by simp at h, by simp [Work.none], by simp [Work.none],
      by simp [Work.none], by simp [Work.none], by simp [Work.none]⟩
  rw [e] at e1
  obtain rfl : P :: rest = r := by simpa using e1
  exact ⟨_, w, u, g, e, e2, by simp [hlen], ht⟩

end Ocr.Sync
