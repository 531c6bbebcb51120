import Verif.Model.WordaccCost
import Verif.Proof.WordaccMatch
import Mathlib.Algebra.BigOperators.Intervals
import Mathlib.Algebra.Order.BigOperators.Group.Finset
import Mathlib.Order.Interval.Finset.Defs
import Mathlib.Data.Int.Interval
import Mathlib.Tactic.Ring

/-!
# The work done by wordacc
-/

namespace Ocr.Wordacc
open Res Sync Lcs
variable {a b : List (Nat × List Nat)}

theorem extendW_eq : ∀ (fuel : Nat) (i j : Int) (t : Nat) {i' : Int}, extend a b fuel i j = .ok i' →
    i ≤ i' ∧ extendW a b fuel i j t = .ok (i', t + (i' - i).toNat + 1) := by
  intro fuel
  induction fuel with
  | zero =>
    intro i j t i' h
    rw [extend.eq_def] at h
    rw [extendW.eq_def]
    simp only at h ⊢
    split at h
    · rename_i hc
      obtain ⟨x, hx, h⟩ := bind_eq_ok.1 h
      obtain ⟨y, hy, h⟩ := bind_eq_ok.1 h
      rw [if_pos hc, hx, hy]
      simp only [bind_ok]
      split at h
      · simp at h
      · rename_i hm
        rw [if_neg hm]
        simp only [pure_eq, Res.ok.injEq] at h
        subst h; simp
    · rename_i hc
      rw [if_neg hc]
      simp only [pure_eq, Res.ok.injEq] at h
      subst h; simp
  | succ fuel ih =>
    intro i j t i' h
    rw [extend.eq_def] at h
    rw [extendW.eq_def]
    simp only at h ⊢
    split at h
    · rename_i hc
      obtain ⟨x, hx, h⟩ := bind_eq_ok.1 h
      obtain ⟨y, hy, h⟩ := bind_eq_ok.1 h
      rw [if_pos hc, hx, hy]
      simp only [bind_ok]
      split at h
      · rename_i hm
        rw [if_pos hm]
        obtain ⟨g1, g2⟩ := ih _ _ (t + 1) h
        refine ⟨by omega, ?_⟩
        rw [g2]
        congr 2; omega
      · rename_i hm
        rw [if_neg hm]
        simp only [pure_eq, Res.ok.injEq] at h
        subst h; simp
    · rename_i hc
      rw [if_neg hc]
      simp only [pure_eq, Res.ok.injEq] at h
      subst h; simp

/-- How far diagonal `k` has been searched when row `i` is reached. -/
def far (k i : Int) : Int := min i (i + k) + 1

/-- The first row of diagonal `k`. -/
def low (k : Int) : Int := if 0 ≤ k then 0 else -k

/-- What is known between two paths of how far the diagonals have been searched: `g k` rows of diagonal `k`. -/
structure Reach (a b : List (Nat × List Nat)) (n : Nat) (paths : List Path) (C : Int → Prop) (g : Int → Int) : Prop where
  range : ∀ k, 0 ≤ g k ∧ g k ≤ min (a.length : Int) b.length + 1
  zero : ∀ k, k ≤ -(n : Int) ∨ (n : Int) ≤ k → g k = 0
  last : ∀ P k i, paths.head? = some P → C k → Cell P k i → g k = far k i
  above : ∀ P k i, paths.head? = some P → C k → Cell P k i → low (k - 1) + g (k - 1) ≤ (i : Int) + 1
  below : ∀ P k i, paths.head? = some P → C k → Cell P k i → low (k + 1) + g (k + 1) ≤ (i : Int)

/-- The computation of a cell starts beyond what has been searched of its diagonal. -/
theorem Reach.start {n : Nat} {lo hi : Int} {paths : List Path} {C : Int → Prop} {g : Int → Int} (hr : Reach a b n paths C g)
    (h : Inv a b n lo hi paths C) {k : Int} {s : Nat} {pk : Option Int} (par : (k + n) % 2 = 0) (h1 : -(n : Int) ≤ k) (h2 : k ≤ n)
    (h3 : lo ≤ k) (h4 : k ≤ hi) (e : initial_f k paths.head? = .ok ((s : Int), pk)) : low k + g k ≤ s := by
  obtain ⟨s', j, pk', e', _, _, hz, hp, _⟩ := h.initial par h1 h2 h3 h4
  rw [e] at e'
  have e' := Res.ok.inj e'
  simp only [Prod.mk.injEq] at e'
  cases hh : paths.head? with
  | none =>
    have hl := h.len
    have : paths = [] := by simpa using hh
    subst this
    simp at hl
    subst hl
    obtain ⟨h5, h6⟩ := hz hh
    subst h6
    rw [hr.zero 0 (by omega)]
    simp [low]
  | some P =>
    obtain ⟨k', _, hC, i', hcell, hs⟩ := hp P hh
    rcases hs with ⟨rfl, hs⟩ | ⟨rfl, hs⟩
    · have := hr.below P _ _ hh hC hcell
      rw [show k - 1 + 1 = k by omega] at this
      omega
    · have := hr.above P _ _ hh hC hcell
      rw [show k + 1 - 1 = k by omega] at this
      omega

/-- What is known while path `n` is computed, `g0` being how far the diagonals were searched before; `w0` is the work done before. -/
structure Going (a b : List (Nat × List Nat)) (n : Nat) (lo hi D : Int) (g0 : Int → Int) (w0 : Work) (k : Int) (S : State) (C : Int → Prop)
    (g : Int → Int) (w : Work) : Prop where
  done : ∀ k' i, C k' → Cell ⟨n, S.f⟩ k' i → g k' = far k' i
  todo : ∀ k', ¬ C k' → g k' = g0 k'
  range : ∀ k', 0 ≤ g k' ∧ g k' ≤ min (a.length : Int) b.length + 1
  tests : (w.tests : Int) + ∑ q ∈ Finset.Icc (-D) D, g0 q ≤ w0.tests + ∑ q ∈ Finset.Icc (-D) D, g q
  cells : w.cells = w0.cells
  calls : w.calls + w0.steps ≤ w0.calls + w.steps
  inside : ∀ k', C k' → lo ≤ k' ∧ k' ≤ hi

theorem Comp.bnd {prev : Option Path} {C' : Int → Prop} {P : Path} {k : Int} {i : Nat} (h : Comp a b prev C' P k i) :
    i ≤ a.length ∧ 0 ≤ (i : Int) + k ∧ (i : Int) + k ≤ b.length := by
  obtain ⟨j, hj, hf⟩ := h.fwd
  have h1 := hf.1
  have h2 := hf.2.1
  rw [List.length_map] at h1 h2
  omega

theorem pathLoopW_spec (hm : a.length ≤ 65535) {n : Nat} {lo hi : Int} {paths : List Path} {C' : Int → Prop} (h : Inv a b n lo hi paths C')
    {D : Int} (hD : (n : Int) ≤ D) {g0 : Int → Int} (hr : Reach a b n paths C' g0) {w0 : Work} :
    ∀ (cells : Nat) (k : Int) (S : State) (C : Int → Prop) (g : Int → Int) (w : Work), (k + n) % 2 = 0 → -(n : Int) ≤ k →
      k + 2 * cells = n + 2 → In a b n lo hi paths.head? C' k S C → Going a b n lo hi D g0 w0 k S C g w →
      ∃ S' C1 g' w', pathLoop a b paths.head? n cells k S = .ok S' ∧ pathLoopW a b paths.head? n cells k S w = .ok (S', w') ∧
        In a b n lo hi paths.head? C' (n + 2) S' C1 ∧ Going a b n lo hi D g0 w0 (n + 2) S' C1 g' w' ∧ w'.steps = w.steps + cells := by
  intro cells
  induction cells with
  | zero =>
    intro k S C g w par h1 h2 hI hG
    have : k = n + 2 := by omega
    subst this
    exact ⟨S, C, g, w, rfl, rfl, hI, hG, rfl⟩
  | succ cells ih =>
    intro k S C g w par h1 h2 hI hG
    rw [pathLoop, pathLoopW]
    by_cases hc : k ≥ S.min_k ∧ k ≤ S.max_k
    · rw [if_pos hc, if_pos hc]
      obtain ⟨s, i, pk, S', e1, e2, e3, e4, e5, hsi, hcomp, hI'⟩ := compute_spec hm h par h1 (by omega) hI hc
      have hlo := hI.lo_le
      have hhi := hI.hi_ge
      have hst := hr.start h par h1 (by omega) (by omega) (by omega) e1
      obtain ⟨_, e2'⟩ := extendW_eq _ _ _ w.tests e2
      have hCk : ¬ C k := fun hk => by have := (hI.cells k hk).1; omega
      have e3' : compute_fW a b paths.head? n k S w = .ok (S', ⟨w.cells, w.steps, w.calls + 1, w.tests + ((i : Int) - s).toNat + 1⟩) := by
        unfold compute_fW
        rw [e1]
        simp only [bind_ok]
        rw [e2']
        simp only [bind_ok]
        rw [if_pos e5, e4]
        have hb := hcomp.bnd
        have : ((i : Int) % 65536).toNat = i := by omega
        rw [this]
        rfl
      rw [e3, e3', bind_ok, bind_ok]
      have hb := hcomp.bnd
      obtain ⟨S2, C1, g', w', r1, r2, r3, r4, r5⟩ := ih (k + 2) S' _ (Function.update g k (far k i))
        ⟨w.cells, w.steps + 1, w.calls + 1, w.tests + ((i : Int) - s).toNat + 1⟩ (by omega) (by omega) (by omega) hI' (by
        refine ⟨?_, ?_, ?_, ?_, hG.cells, by have := hG.calls; simp only; omega, by
          rintro k' (hk | rfl)
          · exact hG.inside k' hk
          · exact ⟨by omega, by omega⟩⟩
        · rintro k' i' (hk | rfl) hcell
          · have hlt := (hI.cells k' hk).1
            rw [Function.update_of_ne (by omega)]
            refine hG.done k' i' hk ?_
            obtain ⟨v1, v2, v3, v4⟩ := hcell
            simp only at v1 v2 v3 v4
            refine ⟨?_, v2, v3, v4⟩
            rw [e4] at v1
            simp only at v1
            rw [List.getElem?_set_ne (by omega)] at v1
            exact v1
          · rw [Function.update_self, hcell.unique hcomp.cell]
        · intro k' hk'
          rw [Function.update_of_ne (fun e => hk' (Or.inr e))]
          exact hG.todo k' (fun hk => hk' (Or.inl hk))
        · intro k'
          by_cases hk : k' = k
          · subst hk
            rw [Function.update_self]
            unfold far
            omega
          · rw [Function.update_of_ne hk]; exact hG.range k'
        · have hmem : k ∈ Finset.Icc (-D) D := by rw [Finset.mem_Icc]; omega
          rw [Finset.sum_update_of_mem hmem]
          have hsplit := Finset.add_sum_erase (Finset.Icc (-D) D) g hmem
          have ht := hG.tests
          have hgk := hG.todo k hCk
          rw [Finset.sdiff_singleton_eq_erase]
          simp only
          push_cast
          have : (i : Int) - s + 1 ≤ far k i - g k := by
            rw [hgk]
            unfold far low at *
            split at hst <;> omega
          omega)
      refine ⟨S2, C1, g', w', r1, r2, r3, r4, ?_⟩
      rw [r5]; simp only; omega
    · rw [if_neg hc, if_neg hc]
      simp only [pure_eq, bind_ok]
      obtain ⟨S2, C1, g', w', r1, r2, r3, r4, r5⟩ := ih (k + 2) S C g ⟨w.cells, w.steps + 1, w.calls, w.tests⟩ (by omega) (by omega) (by omega) (by
        refine ⟨hI.len, fun k' hk => ⟨by have := (hI.cells k' hk).1; omega, (hI.cells k' hk).2⟩, hI.lo_le, hI.hi_ge, ?_, hI.amin, hI.bmax, hI.hit1, hI.hit2⟩
        intro k' p1 p2 p3 p4 p5
        rcases Int.lt_or_le k' k with h' | h'
        · exact hI.all k' p1 p2 h' p4 p5
        · have : k' = k := by omega
          subst this
          exfalso
          have : k' < S.min_k := by omega
          rcases hI.amin with q | ⟨q1, _⟩
          · omega
          · have := (hI.cells _ q1).1; omega)
        ⟨hG.done, hG.todo, hG.range, hG.tests, hG.cells, by have := hG.calls; simp only; omega, hG.inside⟩
      refine ⟨S2, C1, g', w', r1, r2, r3, r4, ?_⟩
      rw [r5]; simp only; omega

/-- The diagonals searched after path `n`. -/
theorem Reach.next {n : Nat} {lo hi : Int} {paths : List Path} {C' C : Int → Prop} {S : State} {g0 g : Int → Int} {D k0 : Int} {w0 w : Work}
    (hr : Reach a b n paths C' g0) (h : Inv a b n lo hi paths C') (hI : In a b n lo hi paths.head? C' (n + 2) S C)
    (hG : Going a b n lo hi D g0 w0 k0 S C g w) : Reach a b (n + 1) (⟨n, S.f⟩ :: paths) C g := by
  have hpar : ∀ k, C k → (k + n) % 2 = 0 ∧ -(n : Int) ≤ k ∧ k ≤ n := by
    intro k hk
    obtain ⟨_, i, hc⟩ := hI.cells k hk
    exact ⟨hc.cell.par, hc.cell.lo, hc.cell.hi⟩
  have hprev : ∀ P, paths.head? = some P → P.p = (n : Int) - 1 := by
    intro P hP
    have hlen := h.len
    have hist := h.hist
    cases paths with
    | nil => simp at hP
    | cons P0 Ps =>
      simp only [List.head?_cons, Option.some.injEq] at hP
      subst hP
      simp only [List.length_cons] at hlen
      cases hist with
      | cons _ hp _ => omega
  -- a neighbour of a computed cell
  have key : ∀ k i, C k → Cell ⟨n, S.f⟩ k i → low (k - 1) + g (k - 1) ≤ (i : Int) + 1 ∧ low (k + 1) + g (k + 1) ≤ (i : Int) := by
    intro k i hk hcell
    obtain ⟨q1, q2, q3⟩ := hpar k hk
    obtain ⟨_, i', hc⟩ := hI.cells k hk
    have := hc.cell.unique hcell
    subst this
    have hb := hc.bnd
    obtain ⟨s, pk, e, hsi, _, hz, hp⟩ := hc.start
    have hn1 : ¬ C (k - 1) := fun hk' => by have := (hpar _ hk').1; omega
    have hn2 : ¬ C (k + 1) := fun hk' => by have := (hpar _ hk').1; omega
    rw [hG.todo _ hn1, hG.todo _ hn2]
    have z : ∀ q, (q ≤ -(n : Int) ∨ (n : Int) ≤ q) → g0 q = 0 := hr.zero
    cases hh : paths.head? with
    | none =>
      obtain ⟨rfl, rfl⟩ := hz hh
      have hl := h.len
      have : paths = [] := by simpa using hh
      subst this
      simp at hl
      subst hl
      rw [z _ (by omega), z _ (by omega)]
      simp [low]
    | some P =>
      have hpn := hprev P hh
      have hn0 : 1 ≤ n := by
        have := h.len
        cases paths with
        | nil => simp at hh
        | cons _ _ => simp at this; omega
      obtain ⟨in1, in2⟩ := hG.inside k hk
      obtain ⟨s', _, pk', e', _, _, _, _, hge⟩ := h.initial q1 q2 q3 in1 in2
      rw [e] at e'
      have e' := Res.ok.inj e'
      simp only [Prod.mk.injEq] at e'
      obtain ⟨ge1, ge2⟩ := hge P hh
      obtain ⟨rd1, rd2⟩ := h.reads k q1 q2 q3 in1 in2
      have hcl : ∀ q, C' q → ∃ v, Cell P q v ∧ g0 q = far q v ∧ 0 ≤ (v : Int) + q := by
        intro q hq
        cases hpp : paths with
        | nil => rw [hpp] at hh; simp at hh
        | cons P0 Ps =>
          have hist := h.hist
          rw [hpp] at hist hh
          simp only [List.head?_cons, Option.some.injEq] at hh
          subst hh
          obtain ⟨_, _, v, hv⟩ := hist.comp hq
          exact ⟨v, hv.cell, hr.last P0 q v (by rw [hpp]; rfl) hq hv.cell, hv.bnd.2.1⟩
      constructor
      · by_cases hx : -(n - 1 : Int) < k
        · obtain ⟨v, hv, hgv, hv0⟩ := hcl _ (rd1 hx)
          have := ge1 v hv
          rw [hgv]
          unfold low far
          split <;> omega
        · rw [z _ (by omega)]
          unfold low
          split <;> omega
      · by_cases hx : k < (n - 1 : Int)
        · obtain ⟨v, hv, hgv, hv0⟩ := hcl _ (rd2 hx)
          have := ge2 v hv
          rw [hgv]
          unfold low far
          split <;> omega
        · rw [z _ (by omega)]
          unfold low
          split <;> omega
  refine ⟨hG.range, ?_, ?_, ?_, ?_⟩
  · intro k hk
    push_cast at hk
    rw [hG.todo k (fun hC => by have := hpar k hC; omega)]
    exact hr.zero k (by omega)
  · intro P k i hP hC hcell
    simp only [List.head?_cons, Option.some.injEq] at hP
    subst hP
    exact hG.done k i hC hcell
  · intro P k i hP hC hcell
    simp only [List.head?_cons, Option.some.injEq] at hP
    subst hP
    exact (key k i hC hcell).1
  · intro P k i hP hC hcell
    simp only [List.head?_cons, Option.some.injEq] at hP
    subst hP
    exact (key k i hC hcell).2

/-- The work done for the first `n` paths. -/
structure Tally (n : Nat) (D : Int) (g : Int → Int) (w : Work) : Prop where
  cells : 2 * w.cells = n * (n + 1)
  steps : w.steps = w.cells
  calls : w.calls ≤ w.steps
  tests : (w.tests : Int) ≤ ∑ q ∈ Finset.Icc (-D) D, g q

theorem pathsLoopW_spec {L : Nat} (hm : a.length ≤ 65535) (hL : Longest (A a) (A b) L) :
    ∀ (fuel n r : Nat) (lo hi : Int) (paths : List Path) (C : Int → Prop) (g : Int → Int) (w : Work), Inv a b n lo hi paths C →
      lo ≤ (b.length : Int) - a.length → Target a b n r paths.head? → n + r + 2 * L = a.length + b.length → r < fuel →
      Reach a b n paths C g → Tally n ((a.length + b.length - 2 * L : Nat) : Int) g w →
      ∃ paths' w' g', pathsLoop a b fuel n lo hi paths = .ok paths' ∧ pathsLoopW a b fuel n lo hi paths w = .ok (paths', w') ∧
        paths'.length = a.length + b.length - 2 * L + 1 ∧ Tally paths'.length ((a.length + b.length - 2 * L : Nat) : Int) g' w' ∧
        ∀ k, 0 ≤ g' k ∧ g' k ≤ min (a.length : Int) b.length + 1 := by
  intro fuel
  induction fuel with
  | zero => intro n r lo hi paths C g w _ _ _ _ h; omega
  | succ fuel ih =>
    intro n r lo hi paths C g w hI hlo hT hr hf hR hW
    rw [pathsLoop.eq_def, pathsLoopW.eq_def]
    simp only
    rw [if_pos hlo, if_pos hlo]
    obtain ⟨S, C1, g', w', e, e', hIn, hG, hst⟩ := pathLoopW_spec hm hI (D := ((a.length + b.length - 2 * L : Nat) : Int)) (by omega) hR
      (w0 := ⟨w.cells + (List.replicate (n + 1) 0).length, w.steps, w.calls, w.tests⟩) (n + 1) (-n) _ _ g
      ⟨w.cells + (List.replicate (n + 1) 0).length, w.steps, w.calls, w.tests⟩ (by omega) (by omega) (by push_cast; omega)
      (in_start (a := a) (b := b) (n := n) (lo := lo) (hi := hi) (paths := paths) (C' := C))
      ⟨by simp, fun _ _ => rfl, hR.range, le_refl _, rfl, by simp only; omega, by simp⟩
    rw [e, e', bind_ok, bind_ok]
    have hI' := hIn.next hI
    have hR' := hR.next hI hIn hG
    have hW' : Tally (n + 1) ((a.length + b.length - 2 * L : Nat) : Int) g' w' := by
      have c1 := hG.cells
      have c2 := hG.calls
      have c3 := hG.tests
      have d1 := hW.cells
      have d2 := hW.steps
      have d3 := hW.calls
      have d4 := hW.tests
      simp only [List.length_replicate] at c1 c2 c3 hst
      refine ⟨?_, by omega, by omega, by omega⟩
      rw [c1]
      have : 2 * (w.cells + (n + 1)) = n * (n + 1) + 2 * (n + 1) := by omega
      rw [this]; ring
    by_cases hc : S.min_k ≤ (b.length : Int) - a.length
    · obtain ⟨h1, hT'⟩ := hIn.target hL hr hI hT hc
      exact ih (n + 1) (r - 1) _ _ _ C1 g' w' hI' hc hT' (by omega) (by omega) hR' hW'
    · rw [pathsLoop.eq_def, pathsLoopW.eq_def]
      simp only
      rw [if_neg hc, if_neg hc]
      have hn : n = a.length + b.length - 2 * L := by
        rcases hIn.amin with q | ⟨q1, q2⟩
        · omega
        · obtain ⟨_, i, hcomp⟩ := hIn.cells _ q1
          have := hcomp.cell.unique q2
          subst this
          obtain ⟨j, hj, hfw⟩ := hcomp.fwd
          have bj := hfw.2.1
          rw [List.length_map] at bj
          simp only [Int.toNat_natCast] at hfw
          have hfw' : Fwd (A a) (A b) n (A a).length j := by rw [List.length_map]; exact hfw
          have := hfw'.right hL
          rw [List.length_map, List.length_map] at this
          omega
      refine ⟨_, w', g', rfl, rfl, ?_, ?_, hR'.range⟩
      · rw [List.length_cons, hI.len, ← hn]
      · rw [List.length_cons, hI.len]; exact hW'

theorem compute_pathlistW_spec {L : Nat} (hm : a.length ≤ 65535) (hL : Longest (A a) (A b) L) :
    ∃ paths w g, compute_pathlist a b = .ok paths ∧ compute_pathlistW a b = .ok (paths, w) ∧
      paths.length = a.length + b.length - 2 * L + 1 ∧ Tally paths.length ((a.length + b.length - 2 * L : Nat) : Int) g w ∧
      ∀ k, 0 ≤ g k ∧ g k ≤ min (a.length : Int) b.length + 1 := by
  obtain ⟨c, h1, h2, h3⟩ := hL.ex
  have l1 := h1.length_le
  have l2 := h2.length_le
  rw [List.length_map] at l1 l2
  refine pathsLoopW_spec hm hL _ 0 (a.length + b.length - 2 * L) _ _ [] _ (fun _ => 0) _ inv_start (by omega) ?_ (by omega) (by omega)
    ⟨fun _ => ⟨le_refl _, by omega⟩, fun _ _ => rfl, by simp, by simp, by simp⟩ ⟨by simp, rfl, by simp, by simp⟩
  refine ⟨0, 0, 0, by omega, by omega, by omega, by omega, ⟨by omega, by omega, c, by simpa using h1, by simpa using h2, ?_⟩, ?_⟩
  · simp only [List.length_map]; omega
  · intro s pk e
    have := Res.ok.inj e
    simp only [Prod.mk.injEq] at this
    omega

/-! ## obtain_matches -/

theorem markLoopW_eq {s : Nat} : ∀ (f : Nat) (flags : Nat → Bool) (m : Nat) {flags' : Nat → Bool}, s ≤ f → markLoop a s f flags = .ok flags' →
    markLoopW a s f flags m = .ok (flags', m + (f - s)) := by
  intro f
  induction f with
  | zero =>
    intro flags m flags' hs h
    rw [markLoop] at h
    rw [markLoopW]
    rw [if_neg (by omega)] at h ⊢
    rw [Res.ok.inj h]; simp
  | succ f ih =>
    intro flags m flags' hs h
    rw [markLoop] at h
    rw [markLoopW]
    split at h
    · rename_i hc
      rw [if_pos hc]
      obtain ⟨x, hx, h⟩ := bind_eq_ok.1 h
      rw [hx, bind_ok, ih _ (m + 1) (by omega) h]
      congr 2; omega
    · rename_i hc
      rw [if_neg hc, Res.ok.inj h]
      congr 2; omega

theorem matchLoopW_spec {paths : List Path} {C : Int → Prop} (h : Hist a b paths C) :
    ∀ (P : Path) (Ps : List Path) (k : Int) (i : Nat) (flags : Nat → Bool) (m : Nat), paths = P :: Ps → C k → Cell P k i →
      ∃ (flags' : Nat → Bool) (m' : Nat), matchLoop a (some k) paths flags = .ok flags' ∧
        matchLoopW a (some k) paths flags m = .ok (flags', m') ∧ 2 * (m' : Int) + Ps.length = 2 * m + (i + (i + k)) := by
  induction h with
  | nil => intro P Ps k i flags m e; simp at e
  | @cons P0 Ps0 C C' hist hp hc ih =>
    intro P Ps k i flags m e hk hcell
    obtain ⟨rfl, rfl⟩ := List.cons.inj e
    obtain ⟨i', hcomp⟩ := hc k hk
    have := hcomp.cell.unique hcell
    subst this
    have bi := hcomp.bnd.1
    obtain ⟨s, pk, e1, hsi, hsn, hz, hpr⟩ := hcomp.start
    obtain ⟨flags1, e2, _⟩ := markLoop_spec (a := a) (s := s) i' flags hsi bi
    have e2' := markLoopW_eq i' flags m hsi e2
    rw [matchLoop, matchLoopW, hcell.rd, bind_ok, bind_ok, e1]
    simp only [bind_ok]
    rw [e2, e2']
    simp only [bind_ok]
    cases Ps0 with
    | nil =>
      obtain ⟨rfl, rfl⟩ := hz rfl
      refine ⟨flags1, m + (i' - 0), ?_, ?_, by simp; omega⟩
      · cases pk <;> rfl
      · cases pk <;> rfl
    | cons P' Ps' =>
      obtain ⟨k', rfl, hC', i0, hcell', hs⟩ := hpr P' rfl
      obtain ⟨flags', m', g1, g2, g3⟩ := ih P' Ps' k' i0 flags1 (m + (i' - s)) rfl hC' hcell'
      refine ⟨flags', m', g1, g2, ?_⟩
      simp only [List.length_cons]
      push_cast at g3 ⊢
      rcases hs with ⟨rfl, hs⟩ | ⟨rfl, hs⟩ <;> omega

theorem obtain_matchesW_spec {L : Nat} (hm : a.length ≤ 65535) (hL : Longest (A a) (A b) L) {paths : List Path}
    (hp : compute_pathlist a b = .ok paths) (hlen : paths.length = a.length + b.length - 2 * L + 1) :
    ∃ flags, obtain_matches a b paths = .ok flags ∧ obtain_matchesW a b paths = .ok (flags, L) := by
  obtain ⟨paths', e, P, Ps, C, rfl, hist, hC, hcell, _⟩ := compute_pathlist_spec hm hL
  rw [hp] at e
  obtain rfl := Res.ok.inj e
  obtain ⟨flags, m, g1, g2, g3⟩ := matchLoopW_spec hist P Ps _ _ (fun _ => false) 0 rfl hC hcell
  obtain ⟨c, h1, h2, h3⟩ := hL.ex
  have l1 := h1.length_le
  have l2 := h2.length_le
  rw [List.length_map] at l1 l2
  refine ⟨flags, g1, ?_⟩
  rw [List.length_cons] at hlen
  have : m = L := by push_cast at g3; omega
  subst this
  exact g2

end Ocr.Wordacc
