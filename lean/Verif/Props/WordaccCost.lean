import Verif.Proof.WordaccCost
import Mathlib.Data.List.Sublists

/-!
# C91: the work done and the memory used by wordacc
-/

namespace Ocr.Wordacc
open Res Sync Lcs

theorem longest_of_lcs {u v c : List (List Nat)} (hc : IsLCS c u v) :
    Longest (u.filter (fun w => decide (w ∈ v))) (v.filter (fun w => decide (w ∈ u))) c.length := by
  obtain ⟨d1, d2⟩ := lcs_filter hc.left hc.right
  exact ⟨⟨c, d1, d2, rfl⟩, fun c' h1 h2 => hc.max c' (h1.trans List.filter_sublist) (h2.trans List.filter_sublist)⟩

/-- C91.  Let `m` and `n` be the numbers of words of the two texts that occur in the other one, `L` the length of a longest common
subsequence, and `D = m + n - 2 L`.  If `m` is at most 65535, `D + 1` paths with `(D + 1) (D + 2) / 2` elements are allocated, which is
also the number of iterations of the inner loop; `compute_f` is called at most once in each, the condition of its loop is evaluated at
most `(2 D + 1) (min m n + 1)` times, and exactly `L` words are marked.  The flags are those computed without the counters. -/
theorem c91_work (u v c : List (List Nat)) (hc : IsLCS c u v) (m n D : Nat) (hm : m = (u.filter (fun w => decide (w ∈ v))).length)
    (hn : n = (v.filter (fun w => decide (w ∈ u))).length) (hD : D + 2 * c.length = m + n) (hmax : m ≤ 65535) :
    ∃ flags w, recognize u v = .ok flags ∧ recognizeW u v = .ok (flags, D + 1, w, c.length) ∧ 2 * w.cells = (D + 1) * (D + 2) ∧
      w.steps = w.cells ∧ w.calls ≤ w.steps ∧ w.tests ≤ (2 * D + 1) * (min m n + 1) := by
  obtain ⟨a, b, ea, eb, es⟩ := setup_eq u v
  have ha : A a = u.filter (fun x => decide (x ∈ v)) := by rw [ea]; exact zip_snd u (fun x => decide (x ∈ v))
  have hb : A b = v.filter (fun x => decide (x ∈ u)) := by rw [eb]; exact zip_snd v (fun x => decide (x ∈ u))
  have hla : a.length = m := by rw [hm, ← ha, List.length_map]
  have hlb : b.length = n := by rw [hn, ← hb, List.length_map]
  have hL : Longest (A a) (A b) c.length := by rw [ha, hb]; exact longest_of_lcs hc
  rw [if_neg (by unfold MAX_F; omega)] at es
  obtain ⟨paths, w, g, e1, e2, hlen, ht, hg⟩ := compute_pathlistW_spec (by omega) hL
  obtain ⟨flags, e3, e4⟩ := obtain_matchesW_spec (by omega) hL e1 hlen
  have hDe : a.length + b.length - 2 * c.length = D := by omega
  rw [hDe] at hlen ht
  refine ⟨(List.range u.length).map flags, w, ?_, ?_, ?_, ht.steps, ht.calls, ?_⟩
  · unfold recognize; rw [es, bind_ok]; simp only; rw [e1, bind_ok, e3, bind_ok]; rfl
  · unfold recognizeW; rw [es, bind_ok]; simp only; rw [e2, bind_ok]; simp only; rw [e4, bind_ok]; simp only [hlen]; rfl
  · have := ht.cells; rw [hlen] at this; exact this
  · have h1 := ht.tests
    have h2 : ∑ k ∈ Finset.Icc (-(D : Int)) (D : Int), g k ≤
        (Finset.Icc (-(D : Int)) (D : Int)).card • (min (a.length : Int) b.length + 1) :=
      Finset.sum_le_card_nsmul _ _ _ (fun k _ => (hg k).2)
    rw [Int.card_Icc, show ((D : Int) + 1 - -(D : Int)).toNat = 2 * D + 1 by omega, nsmul_eq_mul, hla, hlb] at h2
    have h4 : ((2 * D + 1 : Nat) : Int) * (min (m : Int) n + 1) = (((2 * D + 1) * (min m n + 1) : Nat) : Int) := by
      rw [show (min (m : Int) n) = ((min m n : Nat) : Int) by omega]; push_cast; rfl
    rw [h4] at h2
    exact_mod_cast le_trans h1 h2

/-- C91 (equal texts).  For two equal texts of at most 65535 words there is one path with one element, and at most as many comparisons
as there are words. -/
theorem c91_equal (u : List (List Nat)) (hu : u.length ≤ 65535) :
    ∃ flags w, recognizeW u u = .ok (flags, 1, w, u.length) ∧ w.cells = 1 ∧ w.calls ≤ 1 ∧ w.tests ≤ u.length + 1 := by
  have hf : u.filter (fun w => decide (w ∈ u)) = u := List.filter_eq_self.2 (by simp)
  obtain ⟨flags, w, _, e, h1, h2, h3, h4⟩ := c91_work u u u ⟨List.Sublist.refl _, List.Sublist.refl _, fun c h _ => h.length_le⟩
    u.length u.length 0 (by rw [hf]) (by rw [hf]) (by omega) hu
  exact ⟨flags, w, e, by omega, by omega, by simpa using h4⟩

theorem sublist_two {x y : List Nat} : ∀ {u : List (List Nat)}, u.Nodup → [x, y].Sublist u → [y, x].Sublist u → False
  | [], _, h, _ => by simp at h
  | z :: u, hn, h1, h2 => by
    rw [List.nodup_cons] at hn
    rcases List.sublist_cons_iff.1 h1 with g1 | ⟨r, e1, g1⟩
    · rcases List.sublist_cons_iff.1 h2 with g2 | ⟨r', e2, g2⟩
      · exact sublist_two hn.2 g1 g2
      · simp only [List.cons.injEq] at e2
        obtain ⟨rfl, _⟩ := e2
        exact hn.1 (g1.subset (by simp))
    · simp only [List.cons.injEq] at e1
      obtain ⟨rfl, rfl⟩ := e1
      rcases List.sublist_cons_iff.1 h2 with g2 | ⟨r', e2, g2⟩
      · exact hn.1 (g2.subset (by simp))
      · simp only [List.cons.injEq] at e2
        obtain ⟨rfl, _⟩ := e2
        exact hn.1 (g1.subset (by simp))

/-- C91 (worst case).  If the second text consists of the same words, all different, in reverse order, the arrays have
`m (2 m - 1)` elements in total. -/
theorem c91_reverse (u : List (List Nat)) (hn : u.Nodup) (h1 : 1 ≤ u.length) (h2 : u.length ≤ 65535) :
    ∃ flags w, recognizeW u u.reverse = .ok (flags, 2 * u.length - 1, w, 1) ∧ w.cells = u.length * (2 * u.length - 1) := by
  have hf : u.filter (fun w => decide (w ∈ u.reverse)) = u := List.filter_eq_self.2 (by simp)
  have hg : u.reverse.filter (fun w => decide (w ∈ u)) = u.reverse := List.filter_eq_self.2 (by simp)
  obtain ⟨x, r, rfl⟩ : ∃ x r, u = x :: r := by cases u with | nil => simp at h1 | cons x r => exact ⟨x, r, rfl⟩
  have hc : IsLCS [x] (x :: r) (x :: r).reverse := by
    refine ⟨by simp, by simp, ?_⟩
    intro c c1 c2
    match c, c1, c2 with
    | [], _, _ => simp
    | [_], _, _ => simp
    | y :: z :: t, c1, c2 =>
      exfalso
      have s : [y, z].Sublist (y :: z :: t) := by simp
      refine sublist_two hn (s.trans c1) ?_
      have := (s.trans c2).reverse
      simpa using this
  obtain ⟨flags, w, _, e, g1, _⟩ := c91_work (x :: r) (x :: r).reverse [x] hc (r.length + 1) (r.length + 1) (2 * r.length)
    (by rw [hf]; simp) (by rw [hg]; simp) (by simp only [List.length_cons, List.length_nil]; omega) (by simpa using h2)
  refine ⟨flags, w, ?_, ?_⟩
  · rw [e]; simp only [List.length_cons, List.length_nil]; congr 3
  · simp only [List.length_cons]
    have : 2 * ((r.length + 1) * (2 * (r.length + 1) - 1)) = (2 * r.length + 1) * (2 * r.length + 2) := by
      rw [show 2 * (r.length + 1) - 1 = 2 * r.length + 1 by omega]; ring
    omega

/-! ## Non-vacuity -/

/-- Some texts with their figures: paths, work and words marked. -/
example : (match recognizeW (["a", "b", "c", "a", "x", "b"].map ascii) (["b", "a", "c", "b", "y", "a"].map ascii) with
    | .ok (_, p, w, k) => some (p, w, k) | _ => none) = some (5, ⟨15, 15, 10, 17⟩, 3) := by decide +kernel

example : IsLCS (["a", "c", "b"].map ascii) (["a", "b", "c", "a", "x", "b"].map ascii) (["b", "a", "c", "b", "y", "a"].map ascii) := by
  refine ⟨by decide +kernel, by decide +kernel, fun c h1 h2 => ?_⟩
  have h : ∀ c ∈ (["a", "b", "c", "a", "x", "b"].map ascii).sublists, c.Sublist (["b", "a", "c", "b", "y", "a"].map ascii) → c.length ≤ 3 := by
    decide +kernel
  exact h c (List.mem_sublists.2 h1) h2

/-- 65535 different words in reverse order: more than 17 thousand million bytes for the arrays of 16-bit numbers. -/
example : 2 * (65535 * (2 * 65535 - 1)) = 17179213830 := by norm_num

example : ∃ flags w, recognizeW ((List.range 65535).map (fun i => [i / 10000 + 1, i / 100 % 100 + 1, i % 100 + 1])) ((List.range 65535).map (fun i => [i / 10000 + 1, i / 100 % 100 + 1, i % 100 + 1])).reverse =
    .ok (flags, 131069, w, 1) ∧ 2 * w.cells = 17179213830 := by
  obtain ⟨flags, w, e, h⟩ := c91_reverse ((List.range 65535).map (fun i => [i / 10000 + 1, i / 100 % 100 + 1, i % 100 + 1]))
    (List.Nodup.map (fun i j h => by simp at h; omega) List.nodup_range) (by simp) (by simp)
  refine ⟨flags, w, ?_, ?_⟩
  · rw [e]; simp
  · rw [h]; simp

end Ocr.Wordacc
