import Verif.Spec.Transposed
import Verif.Proof.Transpose
import Verif.Proof.GreedySplit

/-!
# transpose_sync matches the first longest common strings
-/

namespace Ocr.Sync
open Text Res

variable {a b : List Nat} {l1 l2 : List Sync}

/-- The best match found so far is the first one of its length. -/
structure FirstOK (a b : List Nat) (l1 l2 : List Sync) (best : TBest) : Prop where
  ge : 0 ≤ best.length
  found : best.length = 0 ∨ ∃ s1 s2 p1 p2 x y, best.starts = some (s1, s2) ∧ best.items = some (p1, p2) ∧
    l1[p1]? = some x ∧ l2[p2]? = some y ∧ x.mtch = none ∧ y.mtch = none ∧
    (x.sub 0).start ≤ s1 ∧ s1 + best.length - 1 ≤ (x.sub 0).stop ∧ (y.sub 0).start ≤ s2 ∧ s2 + best.length - 1 ≤ (y.sub 0).stop ∧
    Run a b s1 s2 best.length ∧
    NoneBefore a b (x.sub 0).start (x.sub 0).stop (y.sub 0).start (y.sub 0).stop s1 s2 (best.length - 1) ∧
    ∀ p' q' x' y', l1[p']? = some x' → l2[q']? = some y' → x'.mtch = none → y'.mtch = none → (p' < p1 ∨ p' = p1 ∧ q' < p2) →
      NL a b (x'.sub 0) (y'.sub 0) (best.length - 1)

theorem transInner_first (h1 : IsAlignment [a] l1) (h2 : IsAlignment [b] l2)
    {x : Sync} {p1 : Nat} (hx : l1[p1]? = some x) (hxm : x.mtch = none) : ∀ (rest done : List Sync) (best : TBest),
    l2 = done ++ rest → FirstOK a b l1 l2 best → (∀ y ∈ done, y.mtch = none → NL a b (x.sub 0) (y.sub 0) best.length) →
    (∀ p' < p1, ∀ x', l1[p']? = some x' → x'.mtch = none → ∀ y ∈ l2, y.mtch = none → NL a b (x'.sub 0) (y.sub 0) best.length) →
    ∃ best', transInner a b (x.sub 0) p1 rest done.length best = .ok best' ∧ FirstOK a b l1 l2 best' ∧ best.length ≤ best'.length ∧
      ∀ y ∈ l2, y.mtch = none → NL a b (x.sub 0) (y.sub 0) best'.length := by
  intro rest
  induction rest with
  | nil =>
    intro done best hl hb hd _
    refine ⟨best, rfl, hb, le_refl _, ?_⟩
    rw [hl, List.append_nil]; exact hd
  | cons y rest ih =>
    intro done best hl hb hd hr
    have hy : y ∈ l2 := by rw [hl]; simp
    have hxl : x ∈ l1 := List.mem_of_getElem? hx
    have bx := mem_bounds h1 hxl
    have by_ := mem_bounds h2 hy
    unfold transInner
    rw [only_eq h2 hy]
    simp only [bind_ok]
    have cont : ∀ best' : TBest, best.length ≤ best'.length → FirstOK a b l1 l2 best' →
        (y.mtch = none → NL a b (x.sub 0) (y.sub 0) best'.length) →
        ∃ best'', transInner a b (x.sub 0) p1 rest (done.length + 1) best' = .ok best'' ∧ FirstOK a b l1 l2 best'' ∧
          best.length ≤ best''.length ∧ ∀ y ∈ l2, y.mtch = none → NL a b (x.sub 0) (y.sub 0) best''.length := by
      intro best' hle hb' hny
      obtain ⟨b2, e, o, m, n⟩ := ih (done ++ [y]) best' (by simp [hl]) hb' (by
        intro z hz hzm
        simp only [List.mem_append, List.mem_singleton] at hz
        rcases hz with hz | rfl
        · exact (hd z hz hzm).mono hle
        · exact hny hzm) (fun p' hp' x' hx' hxm' z hz hzm => (hr p' hp' x' hx' hxm' z hz hzm).mono hle)
      exact ⟨b2, by simpa using e, o, by omega, n⟩
    have hge := hb.ge
    by_cases hc : y.mtch = none ∧ (y.sub 0).length > best.length
    · rw [if_pos hc]
      obtain ⟨len, m, e, hle, hf, hno⟩ := longest_first (maxlen0 := best.length) (c1 := a) (c2 := b) (start1 := (x.sub 0).start)
        (stop1 := (x.sub 0).stop) (start2 := (y.sub 0).start) (stop2 := (y.sub 0).stop) (m0 := best.starts) hb.ge bx.2.2.2 by_.2.2.2 bx.1 by_.1
      rw [e]
      simp only [bind_ok]
      rcases hf with ⟨q1, q2⟩ | ⟨q1, s1, s2, q2, q3, q4, q5, q6, q7, q8⟩
      · rw [if_neg (by omega), q2]
        exact cont _ (le_refl _) hb (fun _ => q1 ▸ hno)
      · rw [if_pos (by omega)]
        refine cont _ (by simp only; omega) ⟨by simp only; omega, Or.inr ⟨s1, s2, p1, done.length, x, y, q2, rfl, hx, ?_, hxm, hc.1, q3, q4, q5, q6, q7, q8, ?_⟩⟩
          (fun _ => hno)
        · rw [hl]; simp
        · intro p' q' x' y' g1 g2 g3 g4 g5
          have hy' : y' ∈ l2 := List.mem_of_getElem? g2
          rcases g5 with g5 | ⟨rfl, g5⟩
          · exact (hr p' g5 x' g1 g3 y' hy' g4).mono (by simp only; omega)
          · rw [hx] at g1
            cases g1
            rw [hl, List.getElem?_append_left g5] at g2
            exact (hd y' (List.mem_of_getElem? g2) g4).mono (by simp only; omega)
    · rw [if_neg hc]
      refine cont best (le_refl _) hb (fun hym => ?_)
      exact NL.short' by_.2.1 (by
        by_contra hh; exact hc ⟨hym, by omega⟩)

theorem transOuter_first (h1 : IsAlignment [a] l1) (h2 : IsAlignment [b] l2) :
    ∀ (rest done : List Sync) (best : TBest), l1 = done ++ rest → FirstOK a b l1 l2 best →
    (∀ x ∈ done, x.mtch = none → ∀ y ∈ l2, y.mtch = none → NL a b (x.sub 0) (y.sub 0) best.length) →
    ∃ best', transOuter a b l2 rest done.length best = .ok best' ∧ FirstOK a b l1 l2 best' ∧
      ∀ x ∈ l1, x.mtch = none → ∀ y ∈ l2, y.mtch = none → NL a b (x.sub 0) (y.sub 0) best'.length := by
  intro rest
  induction rest with
  | nil =>
    intro done best hl hb hd
    refine ⟨best, rfl, hb, ?_⟩
    intro x hx
    rw [hl, List.append_nil] at hx
    exact hd x hx
  | cons x rest ih =>
    intro done best hl hb hd
    have hx : x ∈ l1 := by rw [hl]; simp
    have hxg : l1[done.length]? = some x := by rw [hl]; simp
    have bx := mem_bounds h1 hx
    unfold transOuter
    rw [only_eq h1 hx]
    simp only [bind_ok]
    have cont : ∀ best' : TBest, best.length ≤ best'.length → FirstOK a b l1 l2 best' →
        (x.mtch = none → ∀ y ∈ l2, y.mtch = none → NL a b (x.sub 0) (y.sub 0) best'.length) →
        ∃ best'', transOuter a b l2 rest (done.length + 1) best' = .ok best'' ∧ FirstOK a b l1 l2 best'' ∧
          ∀ x ∈ l1, x.mtch = none → ∀ y ∈ l2, y.mtch = none → NL a b (x.sub 0) (y.sub 0) best''.length := by
      intro best' hle hb' hnx
      obtain ⟨b2, e, o, n⟩ := ih (done ++ [x]) best' (by simp [hl]) hb' (by
        intro z hz hzm y hy hym
        simp only [List.mem_append, List.mem_singleton] at hz
        rcases hz with hz | rfl
        · exact (hd z hz hzm y hy hym).mono hle
        · exact hnx hzm y hy hym)
      exact ⟨b2, by simpa using e, o, n⟩
    by_cases hc : x.mtch = none ∧ (x.sub 0).length > best.length
    · rw [if_pos hc]
      obtain ⟨b1, e, o, m, n⟩ := transInner_first h1 h2 hxg hc.1 l2 [] best rfl hb (by simp) (by
        intro p' hp' x' hx' hxm' y hy hym
        rw [hl, List.getElem?_append_left hp'] at hx'
        exact hd x' (List.mem_of_getElem? hx') hxm' y hy hym)
      simp only [List.length_nil] at e
      rw [e]
      simp only [bind_ok]
      exact cont b1 m o (fun _ => n)
    · rw [if_neg hc]
      refine cont best (le_refl _) hb (fun hxm y hy hym => ?_)
      exact NL.short bx.2.1 (by by_contra hh; exact hc ⟨hxm, by omega⟩)

/-! ## In terms of strings -/

/-- A string common to two pieces is a run. -/
theorem occurs_run (h1 : IsAlignment [a] l1) (h2 : IsAlignment [b] l2) {x y : Sync} (hx : x ∈ l1) (hy : y ∈ l2) {i j : Nat} {w : List Nat}
    (ho : Occurs (piece a (x.sub 0)) (piece b (y.sub 0)) i j w) (hw : w ≠ []) :
    (x.sub 0).start + i + w.length - 1 ≤ (x.sub 0).stop ∧ (y.sub 0).start + j + w.length - 1 ≤ (y.sub 0).stop ∧
      Run a b ((x.sub 0).start + i) ((y.sub 0).start + j) w.length := by
  obtain ⟨x1, x2, x3, x4⟩ := mem_bounds h1 hx
  obtain ⟨y1, y2, y3, y4⟩ := mem_bounds h2 hy
  obtain ⟨p, hp⟩ : ∃ p : Nat, (x.sub 0).start = p := ⟨_, (Int.toNat_of_nonneg x1).symm⟩
  obtain ⟨n, hn⟩ : ∃ n : Nat, (x.sub 0).length = n := ⟨_, (Int.toNat_of_nonneg x3).symm⟩
  obtain ⟨q, hq⟩ : ∃ q : Nat, (y.sub 0).start = q := ⟨_, (Int.toNat_of_nonneg y1).symm⟩
  obtain ⟨m, hm⟩ : ∃ m : Nat, (y.sub 0).length = m := ⟨_, (Int.toNat_of_nonneg y3).symm⟩
  have eu : piece a (x.sub 0) = (a.drop p).take n := by unfold piece; rw [hp, hn]; rfl
  have ev : piece b (y.sub 0) = (b.drop q).take m := by unfold piece; rw [hq, hm]; rfl
  rw [eu, ev] at ho
  obtain ⟨b1, b2, b3⟩ := ho.bounds hw
  have lu : ((a.drop p).take n).length = n := by simp; omega
  have lv : ((b.drop q).take m).length = m := by simp; omega
  have hr := (run_iff (c1 := a) (c2 := b) (a := p) (b := q) (n := n) (m := m) (by omega) (by omega) (i := i) (j := j) (t := w.length)
    (by omega) (by omega)).2 (by rw [← b3]; exact ho)
  refine ⟨by omega, by omega, ?_⟩
  rw [hp, hq]
  exact_mod_cast hr

/-- A run within two items is a string common to the pieces. -/
theorem run_occurs (h1 : IsAlignment [a] l1) (h2 : IsAlignment [b] l2) {x y : Sync} (hx : x ∈ l1) (hy : y ∈ l2) {s1 s2 : Int} {len : Nat}
    (f1 : (x.sub 0).start ≤ s1) (f2 : s1 + len - 1 ≤ (x.sub 0).stop) (f3 : (y.sub 0).start ≤ s2) (f4 : s2 + len - 1 ≤ (y.sub 0).stop)
    (hr : Run a b s1 s2 len) : ∃ i j w, s1 = (x.sub 0).start + (i : Nat) ∧ s2 = (y.sub 0).start + (j : Nat) ∧ w.length = len ∧
      Occurs (piece a (x.sub 0)) (piece b (y.sub 0)) i j w ∧ i + len ≤ (x.sub 0).length ∧ j + len ≤ (y.sub 0).length := by
  obtain ⟨x1, x2, x3, x4⟩ := mem_bounds h1 hx
  obtain ⟨y1, y2, y3, y4⟩ := mem_bounds h2 hy
  obtain ⟨p, hp⟩ : ∃ p : Nat, (x.sub 0).start = p := ⟨_, (Int.toNat_of_nonneg x1).symm⟩
  obtain ⟨n, hn⟩ : ∃ n : Nat, (x.sub 0).length = n := ⟨_, (Int.toNat_of_nonneg x3).symm⟩
  obtain ⟨q, hq⟩ : ∃ q : Nat, (y.sub 0).start = q := ⟨_, (Int.toNat_of_nonneg y1).symm⟩
  obtain ⟨m, hm⟩ : ∃ m : Nat, (y.sub 0).length = m := ⟨_, (Int.toNat_of_nonneg y3).symm⟩
  have eu : piece a (x.sub 0) = (a.drop p).take n := by unfold piece; rw [hp, hn]; rfl
  have ev : piece b (y.sub 0) = (b.drop q).take m := by unfold piece; rw [hq, hm]; rfl
  obtain ⟨i, hi⟩ : ∃ i : Nat, s1 = (p + i : Nat) := ⟨(s1 - p).toNat, by omega⟩
  obtain ⟨j, hj⟩ : ∃ j : Nat, s2 = (q + j : Nat) := ⟨(s2 - q).toNat, by omega⟩
  rw [hi, hj] at hr
  have ho := (run_iff (c1 := a) (c2 := b) (a := p) (b := q) (n := n) (m := m) (by omega) (by omega) (i := i) (j := j) (t := len)
    (by omega) (by omega)).1 hr
  refine ⟨i, j, _, by omega, by omega, ?_, by rw [eu, ev]; exact ho, by omega, by omega⟩
  simp; omega

theorem pieces_get {text : List Nat} {l : List Sync} {p : Nat} {m : Option Nat} {u : List Nat} (h : (pieces text l)[p]? = some (m, u)) :
    ∃ x, l[p]? = some x ∧ x.mtch = m ∧ piece text (x.sub 0) = u := by
  unfold pieces at h
  rw [List.getElem?_map, Option.map_eq_some_iff] at h
  obtain ⟨x, hx, e⟩ := h
  cases e
  exact ⟨x, hx, rfl, rfl⟩

theorem pieces_mem {text : List Nat} {l : List Sync} {m : Option Nat} {u : List Nat} (h : (m, u) ∈ pieces text l) :
    ∃ x ∈ l, x.mtch = m ∧ piece text (x.sub 0) = u := by
  unfold pieces at h
  obtain ⟨x, hx, e⟩ := List.mem_map.1 h
  cases e
  exact ⟨x, hx, rfl, rfl⟩

theorem nl_occurs (h1 : IsAlignment [a] l1) (h2 : IsAlignment [b] l2) {x y : Sync} (hx : x ∈ l1) (hy : y ∈ l2) {n : Int} (hn : 0 ≤ n)
    (h : NL a b (x.sub 0) (y.sub 0) n) {i j : Nat} {w : List Nat} (ho : Occurs (piece a (x.sub 0)) (piece b (y.sub 0)) i j w) :
    (w.length : Int) ≤ n := by
  by_cases hw : w = []
  · simpa [hw] using hn
  · obtain ⟨r1, r2, r3⟩ := occurs_run h1 h2 hx hy ho hw
    exact h _ _ (by omega) (by omega) _ r1 r2 r3

theorem nl_apart (h1 : IsAlignment [a] l1) (h2 : IsAlignment [b] l2) {x y : Sync} (hx : x ∈ l1) (hy : y ∈ l2)
    (h : NL a b (x.sub 0) (y.sub 0) 0) : Apart (piece a (x.sub 0)) (piece b (y.sub 0)) := by
  intro c hc1 hc2
  by_contra hne
  obtain ⟨i, hi⟩ := List.mem_iff_getElem?.1 hc1
  obtain ⟨j, hj⟩ := List.mem_iff_getElem?.1 hc2
  have li := (List.getElem?_eq_some_iff.1 hi).1
  have lj := (List.getElem?_eq_some_iff.1 hj).1
  have := nl_occurs h1 h2 hx hy (le_refl _) h (i := i) (j := j) (w := [c])
    ⟨by rw [List.drop_eq_getElem_cons li, (List.getElem?_eq_some_iff.1 hi).2]; simp,
      by rw [List.drop_eq_getElem_cons lj, (List.getElem?_eq_some_iff.1 hj).2]; simp, by simpa using fun h => hne h.symm⟩
  simp at this

/-- The best match, in terms of strings. -/
theorem best_of (h1 : IsAlignment [a] l1) (h2 : IsAlignment [b] l2) {best : TBest} (o : FirstOK a b l1 l2 best) (hz : best.length ≠ 0)
    (n : ∀ x ∈ l1, x.mtch = none → ∀ y ∈ l2, y.mtch = none → NL a b (x.sub 0) (y.sub 0) best.length) :
    ∃ p q x y i j w, best.items = some (p, q) ∧ l1[p]? = some x ∧ l2[q]? = some y ∧ x.mtch = none ∧ y.mtch = none ∧
      best.starts = some ((x.sub 0).start + (i : Nat), (y.sub 0).start + (j : Nat)) ∧ best.length = (w.length : Int) ∧
      (i : Int) + w.length ≤ (x.sub 0).length ∧ (j : Int) + w.length ≤ (y.sub 0).length ∧
      Best (pieces a l1) (pieces b l2) p q (piece a (x.sub 0)) (piece b (y.sub 0)) i j w := by
  have hge := o.ge
  obtain ⟨len, hlen⟩ : ∃ k : Nat, best.length = k := ⟨best.length.toNat, by omega⟩
  rcases o.found with hz' | ⟨s1, s2, p, q, x, y, f1, f2, f3, f4, f5, f6, f7, f8, f9, f10, f11, f12, f13⟩
  · exact absurd hz' hz
  rw [hlen] at f8 f10 f11 f12 f13 n
  have hx := List.mem_of_getElem? f3
  have hy := List.mem_of_getElem? f4
  obtain ⟨i, j, w, e1, e2, hw, ho, b1, b2⟩ := run_occurs h1 h2 hx hy f7 f8 f9 f10 f11
  refine ⟨p, q, x, y, i, j, w, f2, f3, f4, f5, f6, by rw [f1, e1, e2], by rw [hlen, hw], by omega, by omega,
    by rw [pieces, List.getElem?_map, f3]; simp [f5], by rw [pieces, List.getElem?_map, f4]; simp [f6],
    by rintro rfl; simp at hw; omega, ho, ?_, ?_⟩
  · intro u' v' i' j' w' hu hv ho'
    obtain ⟨x', hx', hxm, rfl⟩ := pieces_mem hu
    obtain ⟨y', hy', hym, rfl⟩ := pieces_mem hv
    have := nl_occurs h1 h2 hx' hy' (by omega) (n x' hx' hxm y' hy' hym) ho'
    omega
  · intro p' q' u' v' i' j' w' hu hv ho' hl
    obtain ⟨x', hx', hxm, rfl⟩ := pieces_get hu
    obtain ⟨y', hy', hym, rfl⟩ := pieces_get hv
    by_contra hc
    by_cases hb : p' < p ∨ p' = p ∧ q' < q
    · have := nl_occurs h1 h2 (List.mem_of_getElem? hx') (List.mem_of_getElem? hy') (by omega) (f13 p' q' x' y' hx' hy' hxm hym hb) ho'
      omega
    · have hp : p' = p := by omega
      have hq : q' = q := by omega
      subst hp hq
      rw [f3] at hx'
      rw [f4] at hy'
      cases hx'
      cases hy'
      obtain ⟨r1, r2, r3⟩ := occurs_run h1 h2 hx hy ho' (by rintro rfl; simp at hl; omega)
      have := f12 ((x.sub 0).start + i') ((y.sub 0).start + j') (by omega) (by omega) (by omega) _ r1 r2 r3
      omega

theorem pieces_append (text : List Nat) (l l' : List Sync) : pieces text (l ++ l') = pieces text l ++ pieces text l' := by simp [pieces]

theorem pieces_opt {text : List Nat} {s : Sync} (hw : s.substr.length = 1) (hm : s.mtch = none) (h0 : 0 ≤ (s.sub 0).length)
    (hl : (piece text (s.sub 0)).length = (s.sub 0).length) : pieces text (opt s) = leftover (piece text (s.sub 0)) := by
  unfold opt leftover
  by_cases hv : valid_sync s = true
  · obtain ⟨t, ht, h⟩ := (valid_iff s).1 hv
    have : t = 0 := by omega
    subst this
    rw [if_pos hv, if_neg (by intro e; rw [e] at hl; simp at hl; omega)]
    simp [pieces, hm]
  · have : ¬ 0 < (s.sub 0).length := fun h => hv ((valid_iff s).2 ⟨0, by omega, h⟩)
    rw [if_neg hv, if_pos (by rw [← List.length_eq_zero_iff]; omega)]
    rfl

/-- Saving a match cuts the piece. -/
theorem save_cut {l : List Sync} (h : IsAlignment [a] l) {p : Nat} {x : Sync} (hx : l[p]? = some x) {i n k : Nat}
    (hb : (i : Int) + n ≤ (x.sub 0).length) {l' : List Sync} (e : save_match l p [(x.sub 0).start + i] n k = .ok l') :
    pieces a l' = cut (pieces a l) p (piece a (x.sub 0)) i n k := by
  have hxl := List.mem_of_getElem? hx
  have hw := h.width x hxl
  simp only [List.length_cons, List.length_nil] at hw
  obtain ⟨x1, x2, x3, x4⟩ := mem_bounds h hxl
  rw [save_match_eq hx (by simp; omega)] at e
  cases e
  have hls : ([(x.sub 0).start + (i : Int)] : List Int).length = x.substr.length := by simp; omega
  have sl := sub_left hls (t := 0) (by simp)
  have sr := sub_right hls (t := 0) (by simp) n
  simp only [List.getElem_cons_zero] at sl sr
  have pl : piece a ((leftOf x [(x.sub 0).start + (i : Int)]).sub 0) = (piece a (x.sub 0)).take i := by
    rw [sl]; exact piece_left _ _ _ (by omega)
  have pr : piece a ((rightOf x [(x.sub 0).start + (i : Int)] n).sub 0) = (piece a (x.sub 0)).drop (i + n) := by
    rw [sr]; exact piece_right _ _ _ _ x1 x2 (by omega)
  have lx : (piece a (x.sub 0)).length = (x.sub 0).length := by
    unfold piece; simp; omega
  have pm : piece a ((midOf [(x.sub 0).start + (i : Int)] n k).sub 0) = ((piece a (x.sub 0)).drop i).take n := by
    rw [sub_mid (by simp)]
    simp only [piece, List.getElem_cons_zero]
    rw [List.drop_take, List.drop_drop, List.take_take]
    congr 1
    · omega
    · congr 1; omega
  unfold cut
  simp only [pieces_append]
  rw [pieces_opt (by simp [leftOf, hw]) rfl (by rw [sl]; simp only; omega) (by rw [pl, sl]; simp; omega),
    pieces_opt (by simp [rightOf, hw]) rfl (by rw [sr]; simp only; omega) (by rw [pr, sr]; simp; omega), pl, pr]
  simp only [pieces, List.map_take, List.map_drop, List.map_cons, List.map_nil]
  rw [show (midOf [(x.sub 0).start + (i : Int)] n k).mtch = some k from rfl, pm]

theorem tinv_step {next : Nat} (h : TInv a b l1 l2 next) {p q : Nat} {x y : Sync} (hx : l1[p]? = some x) (hy : l2[q]? = some y)
    (hxm : x.mtch = none) (hym : y.mtch = none) {s1 s2 : Int} {len : Nat} (hpos : 0 < len) (f7 : (x.sub 0).start ≤ s1)
    (f8 : s1 + len - 1 ≤ (x.sub 0).stop) (f9 : (y.sub 0).start ≤ s2) (f10 : s2 + len - 1 ≤ (y.sub 0).stop) (hr : Run a b s1 s2 len)
    {m1 m2 : List Sync} (e1 : save_match l1 p [s1] len next = .ok m1) (e2 : save_match l2 q [s2] len next = .ok m2) :
    TInv a b m1 m2 (next + 1) := by
  have bx := mem_bounds h.al1 (List.mem_of_getElem? hx)
  have by_ := mem_bounds h.al2 (List.mem_of_getElem? hy)
  obtain ⟨w1, w2, w3⟩ := run_eq (a := a) (b := b) len s1.toNat s2.toNat (by
    intro t ht
    obtain ⟨c, q1, q2, q3, q4, q5⟩ := hr t (by omega) (by omega)
    rw [show (s1 + (t : Int)).toNat = s1.toNat + t by omega] at q3
    rw [show (s2 + (t : Int)).toNat = s2.toNat + t by omega] at q4
    exact ⟨c, q3, q4, q5⟩)
  obtain ⟨l1', e1', al1, nd1, lt1, pm1, ns1, _⟩ := save_one (len := len) h.al1 h.nd h.lt hx hxm hpos f7 f8 w2 w3
  have hlt2 : ∀ z ∈ l2.filterMap (·.mtch), z < next := fun z hz => h.lt z (h.perm.mem_iff.1 hz)
  obtain ⟨l2', e2', al2, nd2, lt2, pm2, ns2, _⟩ := save_one (len := len) h.al2 (h.perm.nodup_iff.2 h.nd) hlt2 hy hym hpos f9 f10
    (w1 ▸ w2) (w1 ▸ w3)
  rw [e1] at e1'
  rw [e2] at e2'
  cases e1'
  cases e2'
  refine ⟨al1, al2, nd1, lt1, pm2.trans ((h.perm.cons next).trans pm1.symm), ?_⟩
  intro u hu v hv hum huv
  have hvm : v.mtch ≠ none := huv ▸ hum
  rcases ns1 u hu hum with hu1 | ⟨hu1, hu2⟩
  · rcases ns2 v hv hvm with hv1 | ⟨hv1, hv2⟩
    · exact h.same u hu1 v hv1 hum huv
    · have := h.lt next (List.mem_filterMap.2 ⟨u, hu1, huv.trans hv1⟩)
      omega
  · rcases ns2 v hv hvm with hv1 | ⟨hv1, hv2⟩
    · have := hlt2 next (List.mem_filterMap.2 ⟨v, hv1, huv.symm.trans hu1⟩)
      omega
    · rw [hu2, hv2, w1]

theorem transLoop_transposed : ∀ (fuel : Nat) (l1 l2 : List Sync) (next : Nat) (l1' l2' : List Sync), TInv a b l1 l2 next →
    transLoop a b fuel l1 l2 next = .ok (l1', l2') →
    Transposed next (pieces a l1) (pieces b l2) (pieces a l1') (pieces b l2') := by
  intro fuel
  induction fuel with
  | zero =>
    intro l1 l2 next l1' l2' h e
    obtain ⟨best, eb, o, n⟩ := transOuter_first h.al1 h.al2 l1 [] ⟨0, none, none⟩ rfl ⟨le_refl _, Or.inl rfl⟩ (by simp)
    simp only [List.length_nil] at eb
    unfold transLoop at e
    rw [eb] at e
    simp only [bind_ok] at e
    by_cases hz : best.length = 0
    · rw [if_pos hz] at e
      cases e
      rw [hz] at n
      refine .done ?_
      intro u v hu hv
      obtain ⟨x, hx, hxm, rfl⟩ := pieces_mem hu
      obtain ⟨y, hy, hym, rfl⟩ := pieces_mem hv
      exact nl_apart h.al1 h.al2 hx hy (n x hx hxm y hy hym)
    · exfalso
      obtain ⟨p, q, x, y, i, j, w, g1, g2, g3, g4, g5, g6, g7, g8, g9, g10⟩ := best_of h.al1 h.al2 o hz n
      rw [if_neg hz, g1, g6] at e
      simp only at e
      obtain ⟨l1'', e1, e⟩ := bind_eq_ok.1 e
      obtain ⟨l2'', e2, e⟩ := bind_eq_ok.1 e
      cases e
  | succ fuel ih =>
    intro l1 l2 next l1' l2' h e
    obtain ⟨best, eb, o, n⟩ := transOuter_first h.al1 h.al2 l1 [] ⟨0, none, none⟩ rfl ⟨le_refl _, Or.inl rfl⟩ (by simp)
    simp only [List.length_nil] at eb
    unfold transLoop at e
    rw [eb] at e
    simp only [bind_ok] at e
    by_cases hz : best.length = 0
    · rw [if_pos hz] at e
      cases e
      rw [hz] at n
      refine .done ?_
      intro u v hu hv
      obtain ⟨x, hx, hxm, rfl⟩ := pieces_mem hu
      obtain ⟨y, hy, hym, rfl⟩ := pieces_mem hv
      exact nl_apart h.al1 h.al2 hx hy (n x hx hxm y hy hym)
    · obtain ⟨p, q, x, y, i, j, w, g1, g2, g3, g4, g5, g6, g7, g8, g9, g10⟩ := best_of h.al1 h.al2 o hz n
      rw [if_neg hz, g1, g6] at e
      simp only [g7] at e
      obtain ⟨m1, e1, e⟩ := bind_eq_ok.1 e
      obtain ⟨m2, e2, e⟩ := bind_eq_ok.1 e
      have c1 := save_cut h.al1 g2 g8 e1
      have c2 := save_cut h.al2 g3 g9 e2
      refine .step g10 ?_
      rw [← c1, ← c2]
      obtain ⟨r1, r2, r3⟩ := occurs_run h.al1 h.al2 (List.mem_of_getElem? g2) (List.mem_of_getElem? g3) g10.occurs g10.nonempty
      exact ih m1 m2 (next + 1) l1' l2' (tinv_step h g2 g3 g4 g5 (List.length_pos_iff.2 g10.nonempty) (by omega) r1 (by omega) r2 r3 e1 e2) e

theorem pieces_initial (t : List Nat) : pieces t (initialize_synclist [t.length]) = leftover t := by
  unfold initialize_synclist leftover
  simp only [List.map_cons, List.map_nil]
  by_cases ht : t = []
  · subst ht; rfl
  · have : 0 < t.length := List.length_pos_iff.2 ht
    rw [if_pos (by simp [valid_sync]; omega), if_neg ht]
    simp [pieces, Sync.sub, piece]

/-- What `transpose_sync` returns, in terms of strings. -/
theorem transpose_transposed {r : Synclist2} (e : transpose_sync a b = .ok r) :
    Transposed 0 (leftover a) (leftover b) (pieces a r.items1) (pieces b r.items2) := by
  unfold transpose_sync at e
  simp only at e
  obtain ⟨⟨m1, m2⟩, e1, e⟩ := bind_eq_ok.1 e
  cases e
  have i1 := initial_alignment [a]
  have i2 := initial_alignment [b]
  simp only [List.map_cons, List.map_nil] at i1 i2
  have hnone : ∀ n : Nat, (initialize_synclist [n]).filterMap (·.mtch) = [] := by
    intro n; unfold initialize_synclist; simp only; split <;> simp
  have := transLoop_transposed (a := a) (b := b) a.length _ _ 0 m1 m2
    ⟨i1, i2, by simp [hnone], by simp [hnone], by simp [hnone], by
      intro x hx _ _ hm
      exfalso
      have : (initialize_synclist [a.length]).filterMap (·.mtch) = [] := hnone _
      rw [List.filterMap_eq_nil_iff] at this
      exact hm (this x hx)⟩ e1
  rwa [pieces_initial, pieces_initial] at this

/-! ## There is only one outcome -/

theorem Best.unique {P Q : List Piece} {p q u v i j w p' q' u' v' i' j' w'} (h : Best P Q p q u v i j w)
    (h' : Best P Q p' q' u' v' i' j' w') : p = p' ∧ q = q' ∧ u = u' ∧ v = v' ∧ i = i' ∧ j = j' ∧ w = w' := by
  have l1 := h.longest u' v' i' j' w' (List.mem_of_getElem? h'.first) (List.mem_of_getElem? h'.second) h'.occurs
  have l2 := h'.longest u v i j w (List.mem_of_getElem? h.first) (List.mem_of_getElem? h.second) h.occurs
  have f1 := h.earliest p' q' u' v' i' j' w' h'.first h'.second h'.occurs (by omega)
  have f2 := h'.earliest p q u v i j w h.first h.second h.occurs (by omega)
  have e1 : p = p' := by omega
  have e2 : q = q' := by omega
  have e3 : i = i' := by omega
  have e4 : j = j' := by omega
  subst e1 e2 e3 e4
  have x1 := h.first.symm.trans h'.first
  have x2 := h.second.symm.trans h'.second
  simp only [Option.some.injEq, Prod.mk.injEq, true_and] at x1 x2
  subst x1 x2
  refine ⟨rfl, rfl, rfl, rfl, rfl, rfl, ?_⟩
  have y1 := List.prefix_iff_eq_take.1 h.occurs.1
  have y2 := List.prefix_iff_eq_take.1 h'.occurs.1
  rw [y1, y2, show w.length = w'.length by omega]

theorem Best.not_apart {P Q : List Piece} {p q u v i j w} (h : Best P Q p q u v i j w) : ¬ Apart u v := by
  intro ha
  obtain ⟨c, r, rfl⟩ := List.exists_cons_of_ne_nil h.nonempty
  obtain ⟨o1, o2, o3⟩ := h.occurs
  have m1 : c ∈ u := List.mem_of_mem_drop (o1.subset (by simp))
  have m2 : c ∈ v := List.mem_of_mem_drop (o2.subset (by simp))
  exact o3 (by rw [ha c m1 m2]; simp)

theorem Transposed.unique {k : Nat} {P Q P1 Q1 : List Piece} (h : Transposed k P Q P1 Q1) : ∀ {P2 Q2 : List Piece},
    Transposed k P Q P2 Q2 → P1 = P2 ∧ Q1 = Q2 := by
  induction h with
  | done ha =>
    intro P2 Q2 h'
    cases h' with
    | done _ => exact ⟨rfl, rfl⟩
    | step hb _ => exact absurd (ha _ _ (List.mem_of_getElem? hb.first) (List.mem_of_getElem? hb.second)) hb.not_apart
  | step hb _ ih =>
    intro P2 Q2 h'
    cases h' with
    | done ha => exact absurd (ha _ _ (List.mem_of_getElem? hb.first) (List.mem_of_getElem? hb.second)) hb.not_apart
    | step hb' h' =>
      obtain ⟨rfl, rfl, rfl, rfl, rfl, rfl, rfl⟩ := hb.unique hb'
      exact ih h'

end Ocr.Sync
