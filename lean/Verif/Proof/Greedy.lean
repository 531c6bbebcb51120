import Verif.Spec.Greedy
import Verif.Proof.Longest

/-!
# Splitting at longest common strings
-/

namespace Ocr.Sync
open Text Res

/-! ## The outcome is determined -/

theorem FirstLongest.unique {u v : List Nat} {i j i' j' : Nat} {w w' : List Nat} (h : FirstLongest u v i j w)
    (h' : FirstLongest u v i' j' w') : i = i' ∧ j = j' ∧ w = w' := by
  have h1 := h.longest _ _ _ h'.occurs
  have h2 := h'.longest _ _ _ h.occurs
  have h3 := h.first _ _ _ h'.occurs (by omega)
  have h4 := h'.first _ _ _ h.occurs (by omega)
  have hi : i = i' := by omega
  have hj : j = j' := by omega
  subst hi
  refine ⟨rfl, hj, ?_⟩
  have e1 := List.prefix_iff_eq_take.1 h.occurs.1
  have e2 := List.prefix_iff_eq_take.1 h'.occurs.1
  rw [e1, e2, show w.length = w'.length by omega]

theorem FirstLongest.not_apart {u v : List Nat} {i j : Nat} {w : List Nat} (h : FirstLongest u v i j w) : ¬ Apart u v := by
  intro ha
  obtain ⟨o1, o2, o3⟩ := h.occurs
  cases w with
  | nil => exact h.nonempty rfl
  | cons c w =>
    have c1 : c ∈ u := List.mem_of_mem_drop (o1.subset (by simp))
    have c2 : c ∈ v := List.mem_of_mem_drop (o2.subset (by simp))
    apply o3
    rw [← ha c c1 c2]
    simp

theorem Narrows.unique {w st more st1 w1} (h : Narrows w st more st1 w1) : ∀ {st2 w2}, Narrows w st more st2 w2 →
    st1 = st2 ∧ w1 = w2 := by
  induction h with
  | done => intro st2 w2 h2; cases h2; exact ⟨rfl, rfl⟩
  | next hf _ ih =>
    intro st2 w2 h2
    cases h2 with
    | next hf' h2 =>
      obtain ⟨rfl, rfl, rfl⟩ := hf.unique hf'
      exact ih h2

theorem Narrows.not_fails {w st more st1 w1} (h : Narrows w st more st1 w1) : ¬ Fails w more := by
  induction h with
  | done => intro h; cases h
  | next hf _ ih =>
    intro h2
    cases h2 with
    | here ha => exact hf.not_apart ha
    | later hf' h2 =>
      obtain ⟨rfl, rfl, rfl⟩ := hf.unique hf'
      exact ih h2

theorem Greedy.unique {ps L} (h : Greedy ps L) : ∀ {L'}, Greedy ps L' → L = L' := by
  induction h with
  | nothing h0 =>
    intro L' h'
    cases h' with
    | nothing => rfl
    | gap g1 g2 => obtain ⟨p, hp, hn⟩ := g2; exact absurd (h0 p hp) hn
    | fails g1 g2 => exact absurd (by rw [h0 _ (List.mem_cons_self ..)]; simp) g1
    | split g1 => exact absurd (by rw [h0 _ (List.mem_cons_self ..)]; simp) g1
  | gap g1 g2 =>
    intro L' h'
    cases h' with
    | nothing h0 => obtain ⟨p, hp, hn⟩ := g2; exact absurd (h0 p hp) hn
    | gap => rfl
    | fails f1 => exact absurd g1 f1
    | split f1 => exact absurd g1 f1
  | fails g1 g2 =>
    intro L' h'
    cases h' with
    | nothing h0 => exact absurd (by rw [h0 _ (List.mem_cons_self ..)]; simp) g1
    | gap f1 => exact absurd f1 g1
    | fails => rfl
    | split _ f2 => exact absurd g2 f2.not_fails
  | split g1 g2 _ _ ih1 ih2 =>
    intro L' h'
    cases h' with
    | nothing h0 => exact absurd (by rw [h0 _ (List.mem_cons_self ..)]; simp) g1
    | gap f1 => exact absurd f1 g1
    | fails _ f2 => exact absurd f2 g2.not_fails
    | split _ f2 f3 f4 =>
      obtain ⟨rfl, rfl⟩ := g2.unique f2
      rw [ih1 f3, ih2 f4]

/-- With two texts, the strings of an unmatched group have nothing in common. -/
theorem Greedy.two {ps L} (h : Greedy ps L) : ∀ (_ : ps.length = 2) {u v}, (false, [u, v]) ∈ L → Apart u v := by
  induction h with
  | nothing => intro _ u v hm; simp at hm
  | gap g1 g2 =>
    intro _ u v hm
    simp only [List.mem_singleton, Prod.mk.injEq, true_and] at hm
    subst hm
    simp only [List.mem_cons, List.not_mem_nil, or_false] at g1
    rcases g1 with rfl | rfl
    · intro c hc; simp at hc
    · intro c _ hc; simp at hc
  | fails g1 g2 =>
    intro _ u v hm
    simp only [List.mem_singleton, Prod.mk.injEq, true_and, List.cons.injEq] at hm
    obtain ⟨rfl, rfl⟩ := hm
    cases g2 with
    | here h => exact h
    | later _ h => cases h
  | @split p more st w L R g1 g2 _ _ ih1 ih2 =>
    intro hl u v hm
    have hst : st.length = 2 := by
      cases g2 with
      | done => simp at hl
      | next _ h =>
        cases h with
        | done => simp
        | next => simp at hl
    simp only [List.mem_append, List.mem_cons, Prod.mk.injEq, Bool.false_eq_true, false_and, false_or] at hm
    rcases hm with hm | hm
    · exact ih1 (by simp [hst] at hl ⊢; omega) hm
    · exact ih2 (by simp [hst] at hl ⊢; omega) hm

/-- With two texts, the longest matched string is as long as any common string. -/
theorem Greedy.longest {a b L} (h : Greedy [a, b] L) {i j : Nat} {w : List Nat} (ho : Occurs a b i j w) (hw : w ≠ []) :
    ∃ v, (true, [v, v]) ∈ L ∧ w.length ≤ v.length := by
  have hcommon : ∃ c, c ∈ a ∧ c ∈ b ∧ c ≠ 126 := by
    obtain ⟨o1, o2, o3⟩ := ho
    cases w with
    | nil => exact absurd rfl hw
    | cons c w =>
      exact ⟨c, List.mem_of_mem_drop (o1.subset (by simp)), List.mem_of_mem_drop (o2.subset (by simp)), by
        rintro rfl; simp at o3⟩
  obtain ⟨c, c1, c2, c3⟩ := hcommon
  cases h with
  | nothing h0 => rw [h0 a (by simp)] at c1; simp at c1
  | gap g1 =>
    simp only [List.mem_cons, List.not_mem_nil, or_false] at g1
    rcases g1 with rfl | rfl
    · simp at c1
    · simp at c2
  | fails _ g2 =>
    cases g2 with
    | here h => exact absurd (h c c1 c2) c3
    | later _ h => cases h
  | split _ g2 =>
    cases g2 with
    | next hf h =>
      cases h with
      | done => exact ⟨_, List.mem_append_right _ (by simp), hf.longest _ _ _ ho⟩

/-! ## longest_match in terms of strings -/

theorem slice_get (c : List Nat) (a n k : Nat) : ((c.drop a).take n)[k]? = if k < n then c[a + k]? else none := by
  rw [List.getElem?_take]
  split
  · rw [List.getElem?_drop]
  · rfl

theorem run_iff {c1 c2 : List Nat} {a b n m i j t : Nat} (ha : a + n ≤ c1.length) (hb : b + m ≤ c2.length) (hi : i + t ≤ n)
    (hj : j + t ≤ m) : Run c1 c2 (a + i : Nat) (b + j : Nat) t ↔
      Occurs ((c1.drop a).take n) ((c2.drop b).take m) i j ((((c1.drop a).take n).drop i).take t) := by
  have hu : ∀ x, x < t → ((((c1.drop a).take n).drop i).take t)[x]? = c1[a + i + x]? := by
    intro x hx
    rw [slice_get, if_pos hx, slice_get, if_pos (by omega), Nat.add_assoc]
  have hv : ∀ x, x < t → ((((c2.drop b).take m).drop j).take t)[x]? = c2[b + j + x]? := by
    intro x hx
    rw [slice_get, if_pos hx, slice_get, if_pos (by omega), Nat.add_assoc]
  have lu : ((((c1.drop a).take n).drop i).take t).length = t := by simp; omega
  have lv : ((((c2.drop b).take m).drop j).take t).length = t := by simp; omega
  constructor
  · intro h
    have key : ∀ x, x < t → ∃ c, c1[a + i + x]? = some c ∧ c2[b + j + x]? = some c ∧ c ≠ 126 := by
      intro x hx
      obtain ⟨c, _, _, h1, h2, h3⟩ := h x (by omega) (by omega)
      refine ⟨c, ?_, ?_, h3⟩
      · rw [← h1]; congr 1
      · rw [← h2]; congr 1
    have heq : (((c1.drop a).take n).drop i).take t = (((c2.drop b).take m).drop j).take t := by
      apply List.ext_getElem?
      intro x
      by_cases hx : x < t
      · obtain ⟨c, h1, h2, _⟩ := key x hx
        rw [hu x hx, hv x hx, h1, h2]
      · rw [List.getElem?_eq_none (by omega), List.getElem?_eq_none (by omega)]
    refine ⟨List.take_prefix _ _, ?_, ?_⟩
    · rw [heq]; exact List.take_prefix _ _
    · intro hc
      obtain ⟨x, hx⟩ := List.mem_iff_getElem?.1 hc
      have hlt := (List.getElem?_eq_some_iff.1 hx).1
      rw [lu] at hlt
      obtain ⟨c, h1, _, h3⟩ := key x hlt
      rw [hu x hlt, h1] at hx
      exact h3 (by simpa using hx)
  · rintro ⟨_, o2, o3⟩ x x1 x2
    obtain ⟨k, rfl⟩ : ∃ k : Nat, x = k := ⟨x.toNat, by omega⟩
    have hk : k < t := by omega
    have e2 := List.prefix_iff_eq_take.1 o2
    rw [lu] at e2
    have h1 := hu k hk
    have h2 := hv k hk
    rw [← e2] at h2
    have hget := List.getElem?_eq_getElem (l := (((c1.drop a).take n).drop i).take t) (i := k) (by omega)
    refine ⟨((((c1.drop a).take n).drop i).take t)[k]'(by omega), by omega, by omega, ?_, ?_, ?_⟩
    · rw [← hget, h1]; congr 1
    · rw [← hget, h2]; congr 1
    · intro he; apply o3; rw [← he]; exact List.getElem_mem _

theorem Occurs.bounds {u v : List Nat} {i j : Nat} {w : List Nat} (h : Occurs u v i j w) (hw : w ≠ []) :
    i + w.length ≤ u.length ∧ j + w.length ≤ v.length ∧ w = (u.drop i).take w.length := by
  have l1 := h.1.length_le
  have l2 := h.2.1.length_le
  have : 0 < w.length := List.length_pos_iff.2 hw
  simp only [List.length_drop] at l1 l2
  exact ⟨by omega, by omega, List.prefix_iff_eq_take.1 h.1⟩

/-- `longest_match` within two ranges, in terms of the strings there. -/
theorem longest_strings {c1 c2 : List Nat} {a b n m : Nat} (ha : a + n ≤ c1.length) (hb : b + m ≤ c2.length) {u v : List Nat}
    (hu : u = (c1.drop a).take n) (hv : v = (c2.drop b).take m) :
    (longest_match 0 c1 a (a + n - 1) c2 b (b + m - 1) none = .ok (0, none) ∧ Apart u v) ∨
    ∃ (i j : Nat) (w : List Nat), longest_match 0 c1 a (a + n - 1) c2 b (b + m - 1) none = .ok ((w.length : Int), some ((a : Int) + i, (b : Int) + j)) ∧
      FirstLongest u v i j w := by
  have lu : u.length = n := by rw [hu]; simp; omega
  have lv : v.length = m := by rw [hv]; simp; omega
  obtain ⟨len, r, e, hge, hfound, hmax⟩ := longest_first (c1 := c1) (c2 := c2) (maxlen0 := 0) (start1 := a) (stop1 := a + n - 1)
    (start2 := b) (stop2 := b + m - 1) (m0 := none) (le_refl _) (by omega) (by omega) (by omega) (by omega)
  rcases hfound with ⟨rfl, rfl⟩ | ⟨hgt, s1, s2, rfl, f1, f2, f3, f4, f5, f6⟩
  · left
    refine ⟨e, ?_⟩
    intro c hc1 hc2
    by_contra hne
    obtain ⟨i, hi⟩ := List.mem_iff_getElem?.1 hc1
    obtain ⟨j, hj⟩ := List.mem_iff_getElem?.1 hc2
    have li := (List.getElem?_eq_some_iff.1 hi).1
    have lj := (List.getElem?_eq_some_iff.1 hj).1
    rw [hu, slice_get, if_pos (by omega)] at hi
    rw [hv, slice_get, if_pos (by omega)] at hj
    have := hmax (a + i : Nat) (b + j : Nat) (by omega) (by omega) 1 (by omega) (by omega) (by
      intro x x1 x2
      have hx : x = 0 := by omega
      subst hx
      refine ⟨c, by omega, by omega, ?_, ?_, hne⟩
      · rw [← hi]; congr 1
      · rw [← hj]; congr 1)
    omega
  · right
    obtain ⟨i, hi⟩ : ∃ i : Nat, s1 = (a + i : Nat) := ⟨(s1 - a).toNat, by omega⟩
    obtain ⟨j, hj⟩ : ∃ j : Nat, s2 = (b + j : Nat) := ⟨(s2 - b).toNat, by omega⟩
    obtain ⟨t, ht⟩ : ∃ t : Nat, len = t := ⟨len.toNat, by omega⟩
    subst hi hj ht
    have hocc := (run_iff ha hb (i := i) (j := j) (t := t) (by omega) (by omega)).1 f5
    rw [← hu, ← hv] at hocc
    have hl : ((u.drop i).take t).length = t := by simp; omega
    refine ⟨i, j, (u.drop i).take t, ?_, ?_, hocc, ?_, ?_⟩
    · rw [e, hl]; simp
    · intro h0; rw [h0] at hl; simp at hl; omega
    · intro i' j' w' ho
      rw [hl]
      by_cases hw : w' = []
      · simp [hw]
      · obtain ⟨b1, b2, b3⟩ := ho.bounds hw
        have hr := (run_iff ha hb (i := i') (j := j') (t := w'.length) (by omega) (by omega)).2 (by
          rw [← hu, ← hv, ← b3]; exact ho)
        have := hmax (a + i' : Nat) (b + j' : Nat) (by omega) (by omega) w'.length (by omega) (by omega) hr
        omega
    · intro i' j' w' ho hlen
      rw [hl] at hlen
      have hw : w' ≠ [] := by intro h0; rw [h0] at hlen; simp at hlen; omega
      obtain ⟨b1, b2, b3⟩ := ho.bounds hw
      have hr := (run_iff ha hb (i := i') (j := j') (t := w'.length) (by omega) (by omega)).2 (by
        rw [← hu, ← hv, ← b3]; exact ho)
      by_contra hc
      have := f6 (a + i' : Nat) (b + j' : Nat) (by omega) (by omega) (by omega) w'.length (by omega) (by omega) hr
      omega

/-- The loop over the texts, in terms of strings. -/
theorem matchTexts_greedy {c0 : List Nat} : ∀ (more : List (List Nat × Substr)) (base : List Int) (offs : List Nat) (w : List Nat)
    (s0 : Nat), (∀ x ∈ more, 0 ≤ x.2.start ∧ x.2.stop = x.2.start + x.2.length - 1 ∧ 0 ≤ x.2.length ∧ x.2.stop < x.1.length) →
    base.length = offs.length → (List.zipWith (fun (b : Int) (o : Nat) => b + o) base offs).head? = some (s0 : Int) →
    w = (c0.drop s0).take w.length → s0 + w.length ≤ c0.length →
    (matchTexts c0 more (List.zipWith (fun (b : Int) (o : Nat) => b + o) base offs) w.length = .ok none ∧
      Fails w (more.map (fun x => piece x.1 x.2))) ∨
    ∃ offs' w', matchTexts c0 more (List.zipWith (fun (b : Int) (o : Nat) => b + o) base offs) w.length =
        .ok (some (List.zipWith (fun (b : Int) (o : Nat) => b + o) (base ++ more.map (·.2.start)) offs', (w'.length : Int))) ∧
      offs'.length = base.length + more.length ∧ Narrows w offs (more.map (fun x => piece x.1 x.2)) offs' w' := by
  intro more
  induction more with
  | nil =>
    intro base offs w s0 _ hl _ _ _
    right
    exact ⟨offs, w, by simp [matchTexts], by simp [hl], .done⟩
  | cons x more ih =>
    intro base offs w s0 hx hl h0 hw hs
    obtain ⟨c, sub⟩ := x
    obtain ⟨x1, x2, x3, x4⟩ := hx (c, sub) (by simp)
    simp only at x1 x2 x3 x4
    obtain ⟨start, hstart⟩ : ∃ start, start = List.zipWith (fun (b : Int) (o : Nat) => b + o) base offs := ⟨_, rfl⟩
    rw [← hstart] at h0 ⊢
    obtain ⟨tl, htl⟩ : ∃ tl, start = (s0 : Int) :: tl := by
      cases start with
      | nil => simp at h0
      | cons y tl => simp at h0; exact ⟨tl, by rw [h0]⟩
    have e0 : rdI start 0 = .ok (s0 : Int) := by
      rw [htl]; simp [rdI, rd]
    simp only [matchTexts, e0, bind_ok, List.map_cons]
    obtain ⟨b, hb⟩ : ∃ b : Nat, sub.start = b := ⟨sub.start.toNat, by omega⟩
    obtain ⟨m, hm⟩ : ∃ m : Nat, sub.length = m := ⟨sub.length.toNat, by omega⟩
    have hp : piece c sub = (c.drop b).take m := by unfold piece; rw [hb, hm]; simp
    rw [x2, hb, hm]
    rcases longest_strings (c1 := c0) (c2 := c) (a := s0) (b := b) (n := w.length) (m := m) hs (by omega) hw hp with
      ⟨e, ha⟩ | ⟨i, j, w1, e, hf⟩
    · left
      rw [e]
      exact ⟨by simp, .here ha⟩
    · rw [e]
      have hw1 : 0 < w1.length := List.length_pos_iff.2 hf.nonempty
      simp only [bind_ok]
      rw [if_neg (by omega)]
      have hmap : (if (s0 : Int) + i - s0 > 0 then start.map (· + ((s0 : Int) + i - s0)) else start) = start.map (· + (i : Int)) := by
        rw [show (s0 : Int) + i - s0 = i by omega]
        split
        · rfl
        · have : (i : Int) = 0 := by omega
          simp [this]
      rw [hmap]
      have hz : start.map (· + (i : Int)) ++ [(b : Int) + j] =
          List.zipWith (fun (b : Int) (o : Nat) => b + o) (base ++ [(b : Int)]) (offs.map (· + i) ++ [j]) := by
        rw [List.zipWith_append (by simpa using hl), hstart, List.map_zipWith, List.zipWith_map_right]
        simp [Int.add_assoc]
      rw [hz]
      obtain ⟨q1, q2, q3⟩ := hf.occurs.bounds hf.nonempty
      have := ih (base ++ [(b : Int)]) (offs.map (· + i) ++ [j]) w1 (s0 + i) (by intro y hy; exact hx y (by simp [hy])) (by simp [hl])
        (by rw [← hz, htl]; simp) (by
          rw [hw, List.drop_take, List.take_take, List.drop_drop] at q3
          rw [show min w1.length (w.length - i) = w1.length by omega] at q3
          exact q3) (by omega)
      rcases this with ⟨e1, h1⟩ | ⟨offs', w', e1, h1, h2⟩
      · exact Or.inl ⟨e1, .later hf h1⟩
      · right
        refine ⟨offs', w', ?_, by simp at h1 ⊢; omega, .next hf h2⟩
        rw [e1]
        simp

end Ocr.Sync
