import Verif.Proof.Lcs
import Verif.Spec.Wordacc

/-!
# wordacc computes a longest common subsequence
-/

namespace Ocr.Wordacc
open Res Sync Lcs

theorem rdI_some {α : Type} {xs : List α} {i : Int} {x : α} (hi : 0 ≤ i) (h : xs[i.toNat]? = some x) : rdI xs i = .ok x := by
  unfold rdI rd; rw [if_neg (by omega), h]

/-- Cell `k` of the path holds `i`. -/
structure Cell (P : Path) (k : Int) (i : Nat) : Prop where
  val : P.f[((k + P.p) / 2).toNat]? = some i
  lo  : -P.p ≤ k
  hi  : k ≤ P.p
  par : (k + P.p) % 2 = 0

theorem Cell.rd {P : Path} {k : Int} {i : Nat} (h : Cell P k i) : rdI P.f ((k + P.p) / 2) = .ok i :=
  rdI_some (by have := h.lo; omega) h.val

theorem Cell.unique {P : Path} {k : Int} {i i' : Nat} (h : Cell P k i) (h' : Cell P k i') : i = i' := by
  have := h.val.symm.trans h'.val
  exact Option.some.inj this

theorem initial_some {P : Path} {k : Int} (hp : 0 ≤ P.p) (h1 : -P.p - 1 ≤ k) (h2 : k ≤ P.p + 1) (par : (k + P.p) % 2 = 1)
    (r1 : -P.p < k → ∃ i, Cell P (k - 1) i) (r2 : k < P.p → ∃ i, Cell P (k + 1) i) :
    ∃ s k' : Int, initial_f k (some P) = .ok (s, some k') ∧
      (∃ i' : Nat, Cell P k' i' ∧ ((k' = k - 1 ∧ s = i') ∨ (k' = k + 1 ∧ s = i' + 1))) ∧
      (∀ i' : Nat, Cell P (k - 1) i' → (i' : Int) ≤ s) ∧ (∀ i' : Nat, Cell P (k + 1) i' → (i' : Int) + 1 ≤ s) := by
  unfold initial_f
  simp only
  by_cases c1 : k > -P.p
  · obtain ⟨i1, e1⟩ := r1 c1
    rw [if_pos c1]
    simp only [e1.rd, bind_ok, pure_eq]
    by_cases c2 : k < P.p
    · obtain ⟨i2, e2⟩ := r2 c2
      rw [if_pos c2]
      simp only [e2.rd, bind_ok]
      by_cases c3 : (i2 : Int) + 1 ≥ i1
      · rw [if_pos c3]
        exact ⟨_, _, rfl, ⟨i2, e2, Or.inr ⟨rfl, rfl⟩⟩, fun i h => by have := h.unique e1; omega,
          fun i h => by have := h.unique e2; omega⟩
      · rw [if_neg c3]
        exact ⟨_, _, rfl, ⟨i1, e1, Or.inl ⟨rfl, rfl⟩⟩, fun i h => by have := h.unique e1; omega,
          fun i h => by have := h.unique e2; omega⟩
    · rw [if_neg c2]
      exact ⟨_, _, rfl, ⟨i1, e1, Or.inl ⟨rfl, rfl⟩⟩, fun i h => by have := h.unique e1; omega,
        fun i h => by have := h.hi; omega⟩
  · have c2 : k < P.p := by omega
    obtain ⟨i2, e2⟩ := r2 c2
    rw [if_neg c1]
    simp only [bind_ok, pure_eq]
    rw [if_pos c2]
    simp only [e2.rd, bind_ok]
    rw [if_pos (by omega)]
    exact ⟨_, _, rfl, ⟨i2, e2, Or.inr ⟨rfl, rfl⟩⟩, fun i h => by have := h.lo; omega,
      fun i h => by have := h.unique e2; omega⟩

variable (a b : List (Nat × List Nat))

/-- The words of `a` and `b`. -/
abbrev A : List (List Nat) := a.map Prod.snd

/-- Nothing more to match at `i`, `j`. -/
def Stuck (i j : Nat) : Prop := ¬ ∃ x, (A a)[i]? = some x ∧ (A b)[j]? = some x

theorem extend_spec : ∀ (fuel i j : Nat), i ≤ a.length → j ≤ b.length → a.length ≤ i + fuel →
    ∃ i' : Nat, extend a b fuel i j = .ok (i' : Int) ∧ i ≤ i' ∧ i' ≤ a.length ∧ j + (i' - i) ≤ b.length ∧
      (∀ t, i + t < i' → ∃ x, (A a)[i + t]? = some x ∧ (A b)[j + t]? = some x) ∧ Stuck a b i' (j + (i' - i)) := by
  intro fuel
  induction fuel with
  | zero =>
    intro i j hi hj hf
    refine ⟨i, ?_, by omega, hi, by omega, by intro t ht; omega, ?_⟩
    · rw [extend.eq_def]; simp only; rw [if_neg (by omega)]; rfl
    · rintro ⟨x, hx, _⟩
      have := (List.getElem?_eq_some_iff.1 hx).1
      rw [List.length_map] at this; omega
  | succ fuel ih =>
    intro i j hi hj hf
    rw [extend.eq_def]
    simp only
    by_cases hc : (i : Int) < a.length ∧ (j : Int) < b.length
    · have ha : i < a.length := by omega
      have hb : j < b.length := by omega
      rw [if_pos hc]
      have e1 : rdI a (i : Int) = .ok a[i] := rdI_some (by omega) (by simp [ha])
      have e2 : rdI b (j : Int) = .ok b[j] := rdI_some (by omega) (by simp [hb])
      simp only [e1, e2, bind_ok]
      by_cases he : a[i].2 = b[j].2
      · rw [if_pos he]
        obtain ⟨i', e, h1, h2, h3, h4, h5⟩ := ih (i + 1) (j + 1) ha hb (by omega)
        have eq : j + (i' - i) = j + 1 + (i' - (i + 1)) := by omega
        refine ⟨i', by exact_mod_cast e, by omega, h2, by omega, ?_, by rw [eq]; exact h5⟩
        intro t ht
        cases t with
        | zero => exact ⟨a[i].2, by simp [ha], by simp [hb, he]⟩
        | succ t =>
          have := h4 t (by omega)
          rwa [show i + 1 + t = i + (t + 1) by omega, show j + 1 + t = j + (t + 1) by omega] at this
      · rw [if_neg he]
        refine ⟨i, rfl, by omega, hi, by omega, by intro t ht; omega, ?_⟩
        rintro ⟨x, hx, hy⟩
        simp [ha] at hx
        simp [hb] at hy
        exact he (hx.trans hy.symm)
    · rw [if_neg hc]
      refine ⟨i, rfl, by omega, hi, by omega, by intro t ht; omega, ?_⟩
      rintro ⟨x, hx, hy⟩
      have h1 := (List.getElem?_eq_some_iff.1 hx).1
      have h2 := (List.getElem?_eq_some_iff.1 hy).1
      rw [List.length_map] at h1 h2
      omega

/-- Cell `k` of `P` has been computed (with value `i`) from cells of `prev` in `C'`. -/
structure Comp (prev : Option Path) (C' : Int → Prop) (P : Path) (k : Int) (i : Nat) : Prop where
  cell  : Cell P k i
  fwd   : ∃ j : Nat, (j : Int) = i + k ∧ Fwd (A a) (A b) P.p.toNat i j
  start : ∃ (s : Nat) (pk : Option Int), initial_f k prev = .ok ((s : Int), pk) ∧ s ≤ i ∧
    (∀ x : Nat, s ≤ x → x < i → ∃ y : Nat, (y : Int) = x + k ∧ ∃ w, (A a)[x]? = some w ∧ (A b)[y]? = some w) ∧
    (prev = none → s = 0 ∧ k = 0) ∧
    (∀ P', prev = some P' → ∃ k', pk = some k' ∧ C' k' ∧ ∃ i', Cell P' k' i' ∧
      ((k' = k - 1 ∧ (s : Int) = i') ∨ (k' = k + 1 ∧ (s : Int) = i' + 1)))
  stuck : ∀ j : Nat, (j : Int) = i + k → Stuck a b i j

/-- The paths computed so far, last first; `C` holds for the cells of the last one that have been computed. -/
inductive Hist : List Path → (Int → Prop) → Prop
  | nil : Hist [] (fun _ => False)
  | cons {P : Path} {Ps : List Path} {C C' : Int → Prop} : Hist Ps C' → P.p = Ps.length →
      (∀ k, C k → ∃ i, Comp a b Ps.head? C' P k i) → Hist (P :: Ps) C

/-- The state between two paths, `n` paths having been computed. -/
structure Inv (n : Nat) (lo hi : Int) (paths : List Path) (C : Int → Prop) : Prop where
  hist  : Hist a b paths C
  len   : paths.length = n
  lo_ge : -(a.length : Int) ≤ lo
  hi_le : hi ≤ b.length
  wlo   : lo = -a.length ∨ ∃ p < n, ∃ j : Nat, (j : Int) = a.length + (lo - 1) ∧ Fwd (A a) (A b) p a.length j
  whi   : hi = b.length ∨ ∃ p < n, ∃ i : Nat, (i : Int) + (hi + 1) = b.length ∧ Fwd (A a) (A b) p i b.length
  reads : ∀ k : Int, (k + n) % 2 = 0 → -(n : Int) ≤ k → k ≤ n → lo ≤ k → k ≤ hi →
    (-(n - 1 : Int) < k → C (k - 1)) ∧ (k < (n - 1 : Int) → C (k + 1))
  hit1  : ∀ P k, paths.head? = some P → C k → Cell P k a.length → k < lo
  hit2  : ∀ P k i, paths.head? = some P → C k → Cell P k i → (i : Int) + k = b.length → hi < k
  llo   : hi < lo ∨ (lo = -a.length ∧ n ≤ a.length) ∨ ∃ P, paths.head? = some P ∧ C (lo - 1) ∧ Cell P (lo - 1) a.length
  lhi   : hi < lo ∨ (hi = b.length ∧ n ≤ b.length) ∨
    ∃ P, paths.head? = some P ∧ C (hi + 1) ∧ ∃ i : Nat, Cell P (hi + 1) i ∧ (i : Int) + (hi + 1) = b.length

variable {a b}

theorem Hist.comp {P : Path} {Ps : List Path} {C : Int → Prop} (h : Hist a b (P :: Ps) C) {k : Int} (hk : C k) :
    P.p = Ps.length ∧ ∃ C' i, Comp a b Ps.head? C' P k i := by
  cases h with
  | cons _ hp hc => exact ⟨hp, _, hc k hk⟩

/-- What `initial_f` yields for a cell that is computed. -/
theorem Inv.initial {n : Nat} {lo hi : Int} {paths : List Path} {C : Int → Prop} (h : Inv a b n lo hi paths C) {k : Int}
    (par : (k + n) % 2 = 0) (h1 : -(n : Int) ≤ k) (h2 : k ≤ n) (h3 : lo ≤ k) (h4 : k ≤ hi) :
    ∃ (s j : Nat) (pk : Option Int), initial_f k paths.head? = .ok ((s : Int), pk) ∧ (j : Int) = s + k ∧ Fwd (A a) (A b) n s j ∧
      (paths.head? = none → s = 0 ∧ k = 0) ∧
      (∀ P', paths.head? = some P' → ∃ k', pk = some k' ∧ C k' ∧ ∃ i', Cell P' k' i' ∧
        ((k' = k - 1 ∧ (s : Int) = i') ∨ (k' = k + 1 ∧ (s : Int) = i' + 1))) ∧
      (∀ P', paths.head? = some P' → (∀ i' : Nat, Cell P' (k - 1) i' → i' ≤ s) ∧ (∀ i' : Nat, Cell P' (k + 1) i' → i' + 1 ≤ s)) := by
  obtain ⟨rd1, rd2⟩ := h.reads k par h1 h2 h3 h4
  have hist := h.hist
  have len := h.len
  cases paths with
  | nil =>
    simp at len
    subst len
    refine ⟨0, 0, none, rfl, by omega, Fwd.zero, fun _ => ⟨rfl, by omega⟩, ?_, ?_⟩ <;> intro P' e <;> simp at e
  | cons P Ps =>
    simp only [List.length_cons] at len
    have hp : P.p = (n - 1 : Int) := by
      cases hist with
      | cons _ hp _ => omega
    have c1 : -P.p < k → ∃ i, Cell P (k - 1) i := fun hk => by
      obtain ⟨_, _, i, hc⟩ := hist.comp (rd1 (by omega))
      exact ⟨i, hc.cell⟩
    have c2 : k < P.p → ∃ i, Cell P (k + 1) i := fun hk => by
      obtain ⟨_, _, i, hc⟩ := hist.comp (rd2 (by omega))
      exact ⟨i, hc.cell⟩
    obtain ⟨s, k', e, ⟨i', hc', hs⟩, m1, m2⟩ := initial_some (P := P) (k := k) (by omega) (by omega) (by omega) (by omega) c1 c2
    have hC : C k' := by
      have := hc'.lo
      have := hc'.hi
      rcases hs with ⟨rfl, _⟩ | ⟨rfl, _⟩
      · exact rd1 (by omega)
      · exact rd2 (by omega)
    obtain ⟨_, C', i2, hc2⟩ := hist.comp hC
    have hi2 := hc2.cell.unique hc'
    subst hi2
    obtain ⟨j', hj', hf⟩ := hc2.fwd
    have hpn : P.p.toNat + 1 = n := by omega
    have bd1 : i2 ≤ a.length := by have := hf.1; simpa using this
    have bd2 : j' ≤ b.length := by have := hf.2.1; simpa using this
    refine ⟨s.toNat, (s + k).toNat, some k', ?_, ?_, ?_, by simp, ?_, ?_⟩
    · simp only [List.head?_cons]; rw [e]; congr 2; rcases hs with ⟨_, hs⟩ | ⟨_, hs⟩ <;> omega
    · rcases hs with ⟨hk', hs⟩ | ⟨hk', hs⟩ <;> omega
    · rcases hs with ⟨hk', hs⟩ | ⟨hk', hs⟩
      · have hlt : j' < (A b).length := by
          rw [List.length_map]
          rcases Nat.lt_or_ge j' b.length with h' | h'
          · exact h'
          · have := h.hit2 P k' i2 rfl hC hc' (by omega)
            omega
        have := hf.across hlt
        rw [hpn] at this
        have e1 : s.toNat = i2 := by omega
        have e2 : (s + k).toNat = j' + 1 := by omega
        rw [e1, e2]; exact this
      · have hlt : i2 < (A a).length := by
          rw [List.length_map]
          rcases Nat.lt_or_ge i2 a.length with h' | h'
          · exact h'
          · have : i2 = a.length := by omega
            have := h.hit1 P k' rfl hC (this ▸ hc')
            omega
        have := hf.down hlt
        rw [hpn] at this
        have e1 : s.toNat = i2 + 1 := by omega
        have e2 : (s + k).toNat = j' := by omega
        rw [e1, e2]; exact this
    · intro P' hP'
      simp only [List.head?_cons, Option.some.injEq] at hP'
      subst hP'
      refine ⟨k', rfl, hC, i2, hc', ?_⟩
      rcases hs with ⟨hk', hs⟩ | ⟨hk', hs⟩
      · exact Or.inl ⟨hk', by omega⟩
      · exact Or.inr ⟨hk', by omega⟩
    · intro P' hP'
      simp only [List.head?_cons, Option.some.injEq] at hP'
      subst hP'
      exact ⟨fun i h => by have := m1 i h; omega, fun i h => by have := m2 i h; omega⟩

theorem Fwd.snakes {p i j : Nat} (h : Fwd (A a) (A b) p i j) : ∀ t : Nat, 
    (∀ u, u < t → ∃ x, (A a)[i + u]? = some x ∧ (A b)[j + u]? = some x) → Fwd (A a) (A b) p (i + t) (j + t)
  | 0, _ => h
  | t + 1, hm => by
    obtain ⟨x, h1, h2⟩ := hm t (by omega)
    exact (Fwd.snakes h t (fun u hu => hm u (by omega))).snake h1 h2

/-- The state while path `n` is computed: the cells before `k` have been treated. -/
structure In (a b : List (Nat × List Nat)) (n : Nat) (lo hi : Int) (prev : Option Path) (C' : Int → Prop) (k : Int) (S : State) (C : Int → Prop) : Prop where
  len   : S.f.length = n + 1
  cells : ∀ k', C k' → k' < k ∧ ∃ i, Comp a b prev C' ⟨n, S.f⟩ k' i
  lo_le : lo ≤ S.min_k
  hi_ge : S.max_k ≤ hi
  all   : ∀ k' : Int, (k' + n) % 2 = 0 → -(n : Int) ≤ k' → k' < k → lo ≤ k' → k' ≤ S.max_k → C k'
  amin  : S.min_k = lo ∨ (C (S.min_k - 1) ∧ Cell ⟨n, S.f⟩ (S.min_k - 1) a.length)
  bmax  : S.max_k = hi ∨ (C (S.max_k + 1) ∧ ∃ i : Nat, Cell ⟨n, S.f⟩ (S.max_k + 1) i ∧ (i : Int) + (S.max_k + 1) = b.length)
  hit1  : ∀ k', C k' → Cell ⟨n, S.f⟩ k' a.length → k' < S.min_k
  hit2  : ∀ k' i, C k' → Cell ⟨n, S.f⟩ k' i → (i : Int) + k' = b.length → S.max_k < k'

/-- One call of `compute_f`. -/
theorem compute_spec (hm : a.length ≤ 65535) {n : Nat} {lo hi : Int} {paths : List Path} {C' : Int → Prop} (h : Inv a b n lo hi paths C')
    {k : Int} {S : State} {C : Int → Prop} (par : (k + n) % 2 = 0) (h1 : -(n : Int) ≤ k) (h2 : k ≤ n)
    (hI : In a b n lo hi paths.head? C' k S C) (hc : k ≥ S.min_k ∧ k ≤ S.max_k) :
    ∃ (s i : Nat) (pk : Option Int) (S' : State), initial_f k paths.head? = .ok ((s : Int), pk) ∧
      extend a b a.length s (s + k) = .ok (i : Int) ∧ compute_f a b paths.head? n k S = .ok S' ∧
      S' = ⟨if (i : Int) = a.length then k + 1 else S.min_k, if (i : Int) + k = b.length then k - 1 else S.max_k,
        S.f.set ((k + n) / 2).toNat i⟩ ∧ (0 ≤ (k + n) / 2 ∧ ((k + n) / 2).toNat < S.f.length) ∧ s ≤ i ∧
      Comp a b paths.head? C' ⟨n, S'.f⟩ k i ∧ In a b n lo hi paths.head? C' (k + 2) S' (fun k' => C k' ∨ k' = k) := by
  have hlo := hI.lo_le
  have hhi := hI.hi_ge
  obtain ⟨s, j, pk, e1, hj, hf, hz, hpr, _⟩ := h.initial par h1 (by omega) (by omega) (by omega)
  have bs : s ≤ a.length := by have := hf.1; simpa using this
  have bj : j ≤ b.length := by have := hf.2.1; simpa using this
  obtain ⟨i, e2, hsi, hia, hjb, hmt, hst⟩ := extend_spec a b a.length s j bs bj (by omega)
  obtain ⟨x, hx⟩ : ∃ x : Nat, (x : Int) = (k + n) / 2 := ⟨((k + n) / 2).toNat, by omega⟩
  have hxl : x < S.f.length := by rw [hI.len]; omega
  have e3 : compute_f a b paths.head? n k S = .ok ⟨if (i : Int) = a.length then k + 1 else S.min_k,
      if (i : Int) + k = b.length then k - 1 else S.max_k, S.f.set x i⟩ := by
    unfold compute_f
    rw [e1]
    simp only [bind_ok]
    rw [← hj, e2]
    simp only [bind_ok]
    rw [if_pos (by rw [← hx]; omega), ← hx]
    have : ((i : Int) % 65536).toNat = i := by omega
    rw [this]
    rfl
  -- cells of the new array
  have cnew : Cell ⟨n, S.f.set x i⟩ k i := by
    refine ⟨?_, h1, by simp only; omega, par⟩
    simp only
    rw [← hx]
    simp [hxl]
  have cold : ∀ k' i', k' < k → (Cell ⟨n, S.f.set x i⟩ k' i' ↔ Cell ⟨n, S.f⟩ k' i') := by
    intro k' i' hk'
    constructor
    · rintro ⟨v1, v2, v3, v4⟩
      simp only at v1 v2 v3 v4
      refine ⟨?_, v2, v3, v4⟩
      rw [List.getElem?_set_ne (by omega)] at v1
      exact v1
    · rintro ⟨v1, v2, v3, v4⟩
      simp only at v1 v2 v3 v4
      refine ⟨?_, v2, v3, v4⟩
      simp only
      rw [List.getElem?_set_ne (by omega)]
      exact v1
  have hcomp : Comp a b paths.head? C' ⟨n, S.f.set x i⟩ k i := by
    refine ⟨cnew, ⟨j + (i - s), by omega, ?_⟩, ⟨s, pk, e1, hsi, ?_, hz, hpr⟩, ?_⟩
    · have := Fwd.snakes hf (i - s) (fun u hu => hmt u (by omega))
      rwa [show s + (i - s) = i by omega] at this
    · intro y hy1 hy2
      refine ⟨j + (y - s), by omega, ?_⟩
      have := hmt (y - s) (by omega)
      rwa [show s + (y - s) = y by omega] at this
    · intro j' hj'
      rwa [show j' = j + (i - s) by omega]
  have hxx : ((k + n) / 2).toNat = x := by omega
  refine ⟨s, i, pk, _, e1, by rw [← hj]; exact e2, e3, by rw [hxx], ⟨by omega, by omega⟩, hsi, hcomp, ?_⟩
  · refine ⟨by simp [hI.len], ?_, ?_, ?_, ?_, ?_, ?_, ?_, ?_⟩
    · rintro k' (hk | rfl)
      · obtain ⟨q1, i', q2⟩ := hI.cells k' hk
        refine ⟨by omega, i', ?_⟩
        exact ⟨(cold k' i' q1).2 q2.cell, q2.fwd, q2.start, q2.stuck⟩
      · exact ⟨by omega, i, hcomp⟩
    · simp only; split <;> omega
    · simp only; split <;> omega
    · intro k' p1 p2 p3 p4 p5
      simp only at p5
      rcases Int.lt_or_le k' k with h' | h'
      · left
        refine hI.all k' p1 p2 h' p4 ?_
        split at p5 <;> omega
      · right; omega
    · simp only
      split
      · rename_i hi1
        right
        have : i = a.length := by omega
        refine ⟨Or.inr (by omega), ?_⟩
        rw [show k + 1 - 1 = k by omega, ← this]; exact cnew
      · rcases hI.amin with q | ⟨q1, q2⟩
        · exact Or.inl q
        · exact Or.inr ⟨Or.inl q1, (cold _ _ (hI.cells _ q1).1).2 q2⟩
    · simp only
      split
      · rename_i hi1
        right
        refine ⟨Or.inr (by omega), i, ?_, by omega⟩
        rw [show k - 1 + 1 = k by omega]; exact cnew
      · rcases hI.bmax with q | ⟨q1, i', q2, q3⟩
        · exact Or.inl q
        · exact Or.inr ⟨Or.inl q1, i', (cold _ _ (hI.cells _ q1).1).2 q2, q3⟩
    · rintro k' (hk | rfl) hcell
      · have q := (hI.cells _ hk).1
        have := hI.hit1 k' hk ((cold _ _ q).1 hcell)
        simp only; split <;> omega
      · have := hcell.unique cnew
        simp only; rw [if_pos (by omega)]; omega
    · rintro k' i' (hk | rfl) hcell hb
      · have q := (hI.cells _ hk).1
        have := hI.hit2 k' i' hk ((cold _ _ q).1 hcell) hb
        simp only; split <;> omega
      · have := hcell.unique cnew
        simp only; rw [if_pos (by omega)]; omega

theorem pathLoop_spec (hm : a.length ≤ 65535) {n : Nat} {lo hi : Int} {paths : List Path} {C' : Int → Prop} (h : Inv a b n lo hi paths C') :
    ∀ (cells : Nat) (k : Int) (S : State) (C : Int → Prop), (k + n) % 2 = 0 → -(n : Int) ≤ k → k + 2 * cells = n + 2 →
      In a b n lo hi paths.head? C' k S C →
      ∃ S' C1, pathLoop a b paths.head? n cells k S = .ok S' ∧ In a b n lo hi paths.head? C' (n + 2) S' C1 := by
  intro cells
  induction cells with
  | zero =>
    intro k S C par h1 h2 hI
    have : k = n + 2 := by omega
    subst this
    exact ⟨S, C, rfl, hI⟩
  | succ cells ih =>
    intro k S C par h1 h2 hI
    rw [pathLoop]
    by_cases hc : k ≥ S.min_k ∧ k ≤ S.max_k
    · rw [if_pos hc]
      obtain ⟨s, i, pk, S', e1, e2, e3, e4, e5, hsi, hcomp, hI'⟩ := compute_spec hm h par h1 (by omega) hI hc
      rw [e3, bind_ok]
      exact ih (k + 2) S' _ (by omega) (by omega) (by omega) hI'
    · rw [if_neg hc]
      simp only [pure_eq, bind_ok]
      refine ih (k + 2) S C (by omega) (by omega) (by omega) ?_
      refine ⟨hI.len, fun k' hk => ⟨by have := (hI.cells k' hk).1; omega, (hI.cells k' hk).2⟩, hI.lo_le, hI.hi_ge, ?_, hI.amin, hI.bmax, hI.hit1, hI.hit2⟩
      intro k' p1 p2 p3 p4 p5
      rcases Int.lt_or_le k' k with h' | h'
      · exact hI.all k' p1 p2 h' p4 p5
      · have : k' = k := by omega
        subst this
        exfalso
        have : k' < S.min_k := by omega
        rcases hI.amin with q | ⟨q1, _⟩
        · omega
        · have := (hI.cells _ q1).1; omega

end Ocr.Wordacc
