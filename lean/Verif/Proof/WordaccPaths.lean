import Verif.Proof.Wordacc

/-!
# The paths computed by wordacc end with a shortest one
-/

namespace Ocr.Wordacc
open Res Sync Lcs
variable {a b : List (Nat × List Nat)}

theorem in_start {n : Nat} {lo hi : Int} {paths : List Path} {C' : Int → Prop} :
    In a b n lo hi paths.head? C' (-n) ⟨lo, hi, List.replicate (n + 1) 0⟩ (fun _ => False) where
  len := by simp
  cells := by simp
  lo_le := by simp
  hi_ge := by simp
  all := by intro k' _ h1 h2; omega
  amin := Or.inl rfl
  bmax := Or.inl rfl
  hit1 := by simp
  hit2 := by simp

/-- The state after path `n`. -/
theorem In.next {n : Nat} {lo hi : Int} {paths : List Path} {C' C : Int → Prop} {S : State} (h : Inv a b n lo hi paths C')
    (g : In a b n lo hi paths.head? C' (n + 2) S C) :
    Inv a b (n + 1) S.min_k S.max_k (⟨n, S.f⟩ :: paths) C := by
  have hlo := g.lo_le
  have hhi := g.hi_ge
  have hge := h.lo_ge
  have hle := h.hi_le
  have comp : ∀ k, C k → ∃ i, Comp a b paths.head? C' ⟨n, S.f⟩ k i := fun k hk => (g.cells k hk).2
  have bnd : ∀ {k i}, Comp a b paths.head? C' ⟨n, S.f⟩ k i → i ≤ a.length ∧ 0 ≤ (i : Int) + k ∧ (i : Int) + k ≤ b.length := by
    intro k i hc
    obtain ⟨j, hj, hf⟩ := hc.fwd
    have h1 := hf.1
    have h2 := hf.2.1
    rw [List.length_map] at h1 h2
    omega
  -- a computed cell that starts from an exhausted one
  have hitlo : C' (lo - 1) → ∀ P, paths.head? = some P → Cell P (lo - 1) a.length → lo ≤ S.max_k → lo < S.min_k := by
    intro hC P hP hc hmax
    have hist := h.hist
    have hpn : P.p = (n : Int) - 1 := by
      have hlen := h.len
      cases paths with
      | nil => simp at hP
      | cons P0 Ps =>
        simp only [List.head?_cons, Option.some.injEq] at hP
        subst hP
        simp only [List.length_cons] at hlen
        cases hist with
        | cons _ hp _ => omega
    have q1 := hc.lo
    have q2 := hc.hi
    have q3 := hc.par
    have hk := g.all lo (by omega) (by omega) (by omega) (by omega) hmax
    obtain ⟨i, hi⟩ := comp lo hk
    obtain ⟨s, pk, e, hs, _⟩ := hi.start
    obtain ⟨s', _, pk', e', _, _, _, _, hm⟩ := h.initial (k := lo) (by omega) (by omega) (by omega) (by omega) (by omega)
    have := (hm P hP).1 _ hc
    rw [e] at e'
    have e' := Res.ok.inj e'
    simp only [Prod.mk.injEq] at e'
    have hb := bnd hi
    have : i = a.length := by omega
    exact g.hit1 lo hk (this ▸ hi.cell)
  have hithi : C' (hi + 1) → ∀ P (i0 : Nat), paths.head? = some P → Cell P (hi + 1) i0 → (i0 : Int) + (hi + 1) = b.length → lo ≤ hi →
      S.max_k < hi := by
    intro hC P i0 hP hc he hl
    have hist := h.hist
    have hpn : P.p = (n : Int) - 1 := by
      have hlen := h.len
      cases paths with
      | nil => simp at hP
      | cons P0 Ps =>
        simp only [List.head?_cons, Option.some.injEq] at hP
        subst hP
        simp only [List.length_cons] at hlen
        cases hist with
        | cons _ hp _ => omega
    have q1 := hc.lo
    have q2 := hc.hi
    have q3 := hc.par
    rcases Int.lt_or_le S.max_k hi with h' | h'
    · exact h'
    have hk := g.all hi (by omega) (by omega) (by omega) (by omega) h'
    obtain ⟨i, hi'⟩ := comp hi hk
    obtain ⟨s, pk, e, hs, _⟩ := hi'.start
    obtain ⟨s', _, pk', e', _, _, _, _, hm⟩ := h.initial (k := hi) (by omega) (by omega) (by omega) (by omega) (by omega)
    have := (hm P hP).2 _ hc
    rw [e] at e'
    have e' := Res.ok.inj e'
    simp only [Prod.mk.injEq] at e'
    have hb := bnd hi'
    exact g.hit2 hi i hk hi'.cell (by omega)
  have llo : S.max_k < S.min_k ∨ (S.min_k = -a.length ∧ n + 1 ≤ a.length) ∨
      ∃ P, (⟨n, S.f⟩ :: paths : List Path).head? = some P ∧ C (S.min_k - 1) ∧ Cell P (S.min_k - 1) a.length := by
    rcases g.amin with q | ⟨q1, q2⟩
    · rcases h.llo with r | ⟨r1, r2⟩ | ⟨P, r1, r2, r3⟩
      · left; omega
      · rcases Nat.lt_or_ge n a.length with h' | h'
        · right; left; exact ⟨by omega, h'⟩
        · left
          rcases Int.lt_or_le S.max_k S.min_k with h'' | h''
          · exact h''
          exfalso
          have hk := g.all lo (by omega) (by omega) (by omega) (by omega) (by omega)
          obtain ⟨i, hi⟩ := comp lo hk
          have hb := bnd hi
          have : i = a.length := by omega
          have := g.hit1 lo hk (this ▸ hi.cell)
          omega
      · left
        rcases Int.lt_or_le S.max_k S.min_k with h'' | h''
        · exact h''
        exfalso
        have := hitlo r2 P r1 r3 (by omega)
        omega
    · right; right
      exact ⟨_, rfl, q1, q2⟩
  have lhi : S.max_k < S.min_k ∨ (S.max_k = b.length ∧ n + 1 ≤ b.length) ∨
      ∃ P, (⟨n, S.f⟩ :: paths : List Path).head? = some P ∧ C (S.max_k + 1) ∧ ∃ i : Nat, Cell P (S.max_k + 1) i ∧
        (i : Int) + (S.max_k + 1) = b.length := by
    rcases g.bmax with q | ⟨q1, q2⟩
    · rcases h.lhi with r | ⟨r1, r2⟩ | ⟨P, r1, r2, i0, r3, r4⟩
      · left; omega
      · rcases Nat.lt_or_ge n b.length with h' | h'
        · right; left; exact ⟨by omega, h'⟩
        · left
          rcases Int.lt_or_le S.max_k S.min_k with h'' | h''
          · exact h''
          exfalso
          have hk := g.all hi (by omega) (by omega) (by omega) (by omega) (by omega)
          obtain ⟨i, hi'⟩ := comp hi hk
          have hb := bnd hi'
          have := g.hit2 hi i hk hi'.cell (by omega)
          omega
      · left
        rcases Int.lt_or_le S.max_k S.min_k with h'' | h''
        · exact h''
        exfalso
        have := hithi r2 P i0 r1 r3 r4 (by omega)
        omega
    · right; right
      exact ⟨_, rfl, q1, q2⟩
  refine ⟨.cons h.hist (by simp only [h.len]) comp, by simp [h.len], by omega, by omega, ?_, ?_, ?_, ?_, ?_, llo, lhi⟩
  · rcases g.amin with q | ⟨q1, q2⟩
    · rcases h.wlo with r | ⟨p, hp, r⟩
      · left; omega
      · right; exact ⟨p, by omega, by rw [q]; exact r⟩
    · right
      obtain ⟨i, hi⟩ := comp _ q1
      have := hi.cell.unique q2
      subst this
      obtain ⟨j, hj, hf⟩ := hi.fwd
      exact ⟨n, by omega, j, hj, by simpa using hf⟩
  · rcases g.bmax with q | ⟨q1, i, q2, q3⟩
    · rcases h.whi with r | ⟨p, hp, r⟩
      · left; omega
      · right; exact ⟨p, by omega, by rw [q]; exact r⟩
    · right
      obtain ⟨i', hi'⟩ := comp _ q1
      have := hi'.cell.unique q2
      subst this
      obtain ⟨j, hj, hf⟩ := hi'.fwd
      have : j = b.length := by omega
      subst this
      exact ⟨n, by omega, i', by omega, by simpa using hf⟩
  · intro k par h1 h2 h3 h4
    push_cast at par h1 h2
    constructor
    · intro hk
      push_cast at hk
      rcases llo with r | ⟨r1, r2⟩ | ⟨P, r1, r2, r3⟩
      · omega
      · exact g.all _ (by omega) (by omega) (by omega) (by omega) (by omega)
      · rcases Int.lt_or_le S.min_k k with h' | h'
        · exact g.all _ (by omega) (by omega) (by omega) (by omega) (by omega)
        · have : k = S.min_k := by omega
          subst this
          exact r2
    · intro hk
      push_cast at hk
      rcases lhi with r | ⟨r1, r2⟩ | ⟨P, r1, r2, r3⟩
      · omega
      · exact g.all _ (by omega) (by omega) (by omega) (by omega) (by omega)
      · rcases Int.lt_or_le k S.max_k with h' | h'
        · exact g.all _ (by omega) (by omega) (by omega) (by omega) (by omega)
        · have : k = S.max_k := by omega
          subst this
          exact r2
  · intro P k hP hC hc
    simp only [List.head?_cons, Option.some.injEq] at hP
    subst hP
    exact g.hit1 k hC hc
  · intro P k i hP hC hc hb
    simp only [List.head?_cons, Option.some.injEq] at hP
    subst hP
    exact g.hit2 k i hC hc hb

/-- A cell of path `n` through which an optimal solution goes: at least `i` is reached when it is computed, and then at
most `r` words need not be matched. -/
def Target (a b : List (Nat × List Nat)) (n r : Nat) (prev : Option Path) : Prop :=
  ∃ (k : Int) (i j : Nat), (k + n) % 2 = 0 ∧ -(n : Int) ≤ k ∧ k ≤ n ∧ (j : Int) = i + k ∧ Rest (A a) (A b) r i j ∧
    ∀ s pk, initial_f k prev = .ok (s, pk) → (i : Int) ≤ s

theorem In.target {n r L : Nat} {lo hi : Int} {paths : List Path} {C' C : Int → Prop} {S : State} (hL : Longest (A a) (A b) L)
    (hr : n + r + 2 * L = a.length + b.length) (h : Inv a b n lo hi paths C')
    (g : In a b n lo hi paths.head? C' (n + 2) S C) (ht : Target a b n r paths.head?) (hc : S.min_k ≤ (b.length : Int) - a.length) :
    1 ≤ r ∧ Target a b (n + 1) (r - 1) (some ⟨n, S.f⟩) := by
  obtain ⟨k, i, j, par, h1, h2, hj, hrest, hs⟩ := ht
  have hd := hrest.diag
  rw [List.length_map, List.length_map] at hd
  have hlo := g.lo_le
  have hhi := g.hi_ge
  have b1 := hrest.1
  have b2 := hrest.2.1
  rw [List.length_map] at b1 b2
  -- the cell has been computed
  have hC : C k := by
    have hk1 : lo ≤ k := by
      rcases h.wlo with q | ⟨p, hp, j', hj', hf⟩
      · omega
      · have bj := hf.2.1
        have hf' : Fwd (A a) (A b) p (A a).length j' := by rw [List.length_map]; exact hf
        have := hf'.right hL
        rw [List.length_map] at bj
        rw [List.length_map, List.length_map] at this
        omega
    rcases Int.lt_or_le S.max_k k with h' | h'
    · rcases g.bmax with q | ⟨q1, i', q2, q3⟩
      · exfalso
        rcases h.whi with q' | ⟨p, hp, i', hi', hf⟩
        · omega
        · have hf' : Fwd (A a) (A b) p i' (A b).length := by rw [List.length_map]; exact hf
          have := hf'.bottom hL
          have bj := hf.1
          rw [List.length_map] at bj
          rw [List.length_map, List.length_map] at this
          omega
      · obtain ⟨_, i2, hcomp⟩ := g.cells _ q1
        have := hcomp.cell.unique q2
        subst this
        obtain ⟨j2, hj2, hf⟩ := hcomp.fwd
        have : j2 = b.length := by omega
        subst this
        simp only [Int.toNat_natCast] at hf
        have hf' : Fwd (A a) (A b) n i2 (A b).length := by rw [List.length_map]; exact hf
        have := hf'.bottom hL
        have bj := hf.1
        rw [List.length_map] at bj
        rw [List.length_map, List.length_map] at this
        have : k = S.max_k + 1 := by omega
        rw [this]; exact q1
    · exact g.all k par h1 (by omega) hk1 h'
  obtain ⟨_, i', hcomp⟩ := g.cells k hC
  obtain ⟨s, pk, e, hsi, _⟩ := hcomp.start
  have his := hs _ _ e
  obtain ⟨j', hj', hf⟩ := hcomp.fwd
  have bi := hf.1
  have bj := hf.2.1
  have hrest' : Rest (A a) (A b) r i' j' := by
    have := hrest.mono_add (i' - i) (by omega) (by omega)
    rwa [show i + (i' - i) = i' by omega, show j + (i' - i) = j' by omega] at this
  rw [List.length_map] at bi bj
  have hne : ¬ (i' = (A a).length ∧ j' = (A b).length) := by
    rintro ⟨q1, q2⟩
    rw [List.length_map] at q1 q2
    subst q1
    have := g.hit1 k hC hcomp.cell
    omega
  obtain ⟨hr1, hstep⟩ := hrest'.step (hcomp.stuck j' hj') hne
  refine ⟨hr1, ?_⟩
  have lo := hcomp.cell.lo
  have hi := hcomp.cell.hi
  have pp := hcomp.cell.par
  simp only at lo hi pp
  rcases hstep with ⟨_, hR⟩ | ⟨_, hR⟩
  · refine ⟨k - 1, i' + 1, j', by push_cast; omega, by push_cast; omega, by push_cast; omega, by push_cast; omega, hR, ?_⟩
    intro s' pk' e'
    unfold initial_f at e'
    simp only at e'
    have rd1 := hcomp.cell.rd
    simp only at rd1
    obtain ⟨⟨x, y⟩, _, e'⟩ := bind_eq_ok.1 e'
    simp only at e'
    rw [if_pos (by omega), show k - 1 + 1 + (n : Int) = k + n by omega, rd1, bind_ok] at e'
    split at e'
    · have := Res.ok.inj e'; simp only [Prod.mk.injEq] at this; omega
    · have := Res.ok.inj e'; simp only [Prod.mk.injEq] at this; omega
  · refine ⟨k + 1, i', j' + 1, by push_cast; omega, by push_cast; omega, by push_cast; omega, by push_cast; omega, hR, ?_⟩
    intro s' pk' e'
    unfold initial_f at e'
    simp only at e'
    have rd1 := hcomp.cell.rd
    simp only at rd1
    rw [if_pos (by omega), show k + 1 - 1 + (n : Int) = k + n by omega, rd1, bind_ok] at e'
    simp only [pure_eq, bind_ok] at e'
    split at e'
    · obtain ⟨x, _, e'⟩ := bind_eq_ok.1 e'
      split at e'
      · have := Res.ok.inj e'; simp only [Prod.mk.injEq] at this; omega
      · have := Res.ok.inj e'; simp only [Prod.mk.injEq] at this; omega
    · have := Res.ok.inj e'; simp only [Prod.mk.injEq] at this; omega

/-- The last path has reached the end of both texts and leaves no more words unmatched than necessary. -/
def Final (a b : List (Nat × List Nat)) (L : Nat) (paths : List Path) : Prop :=
  ∃ (P : Path) (Ps : List Path) (C : Int → Prop), paths = P :: Ps ∧ Hist a b paths C ∧ C ((b.length : Int) - a.length) ∧
    Cell P ((b.length : Int) - a.length) a.length ∧ Ps.length + 2 * L ≤ a.length + b.length

theorem pathsLoop_spec {L : Nat} (hm : a.length ≤ 65535) (hL : Longest (A a) (A b) L) :
    ∀ (fuel n r : Nat) (lo hi : Int) (paths : List Path) (C : Int → Prop), Inv a b n lo hi paths C →
      lo ≤ (b.length : Int) - a.length → Target a b n r paths.head? → n + r + 2 * L = a.length + b.length → r < fuel →
      ∃ paths', pathsLoop a b fuel n lo hi paths = .ok paths' ∧ Final a b L paths' := by
  intro fuel
  induction fuel with
  | zero => intro n r lo hi paths C _ _ _ _ h; omega
  | succ fuel ih =>
    intro n r lo hi paths C hI hlo hT hr hf
    rw [pathsLoop.eq_def]
    simp only
    rw [if_pos hlo]
    obtain ⟨S, C1, e, g⟩ := pathLoop_spec hm hI (n + 1) (-n) _ _ (by omega) (by omega) (by push_cast; omega)
      (in_start (a := a) (b := b) (n := n) (lo := lo) (hi := hi) (paths := paths) (C' := C))
    rw [e, bind_ok]
    have hI' := g.next hI
    by_cases hc : S.min_k ≤ (b.length : Int) - a.length
    · obtain ⟨h1, hT'⟩ := g.target hL hr hI hT hc
      exact ih (n + 1) (r - 1) _ _ _ C1 hI' hc hT' (by omega) (by omega)
    · rw [pathsLoop.eq_def]
      simp only
      rw [if_neg hc]
      refine ⟨_, rfl, ⟨n, S.f⟩, paths, C1, rfl, hI'.hist, ?_⟩
      rcases g.amin with q | ⟨q1, q2⟩
      · omega
      · obtain ⟨_, i, hcomp⟩ := g.cells _ q1
        have := hcomp.cell.unique q2
        subst this
        obtain ⟨j, hj, hfw⟩ := hcomp.fwd
        have bj := hfw.2.1
        rw [List.length_map] at bj
        have e : S.min_k - 1 = (b.length : Int) - a.length := by omega
        rw [e] at q1 q2
        refine ⟨q1, q2, ?_⟩
        rw [hI.len]; omega

theorem inv_start : Inv a b 0 (-a.length) b.length [] (fun _ => False) where
  hist := .nil
  len := rfl
  lo_ge := by omega
  hi_le := by omega
  wlo := Or.inl rfl
  whi := Or.inl rfl
  reads := by intro k; omega
  hit1 := by simp
  hit2 := by simp
  llo := Or.inr (Or.inl ⟨rfl, by omega⟩)
  lhi := Or.inr (Or.inl ⟨rfl, by omega⟩)

theorem compute_pathlist_spec {L : Nat} (hm : a.length ≤ 65535) (hL : Longest (A a) (A b) L) :
    ∃ paths, compute_pathlist a b = .ok paths ∧ Final a b L paths := by
  obtain ⟨c, h1, h2, h3⟩ := hL.ex
  have l1 := h1.length_le
  have l2 := h2.length_le
  rw [List.length_map] at l1 l2
  refine pathsLoop_spec hm hL _ 0 (a.length + b.length - 2 * L) _ _ [] _ inv_start (by omega) ?_ (by omega) (by omega)
  refine ⟨0, 0, 0, by omega, by omega, by omega, by omega, ⟨by omega, by omega, c, by simpa using h1, by simpa using h2, ?_⟩, ?_⟩
  · simp only [List.length_map]; omega
  · intro s pk e
    have := Res.ok.inj e
    simp only [Prod.mk.injEq] at this
    omega

end Ocr.Wordacc
