import Verif.Proof.WordaccPaths
import Verif.Proof.Store

/-!
# The words flagged by wordacc
-/

namespace Ocr.Wordacc
open Res Sync Lcs
variable {a b : List (Nat × List Nat)}

theorem markLoop_spec {s : Nat} : ∀ (f : Nat) (flags : Nat → Bool), s ≤ f → f ≤ a.length → ∃ flags', markLoop a s f flags = .ok flags' ∧
    ∀ x, flags' x = true ↔ flags x = true ∨ ∃ t w, s ≤ t ∧ t < f ∧ a[t]? = some (x, w) := by
  intro f
  induction f with
  | zero =>
    intro flags h1 h2
    refine ⟨flags, by rw [markLoop, if_neg (by omega)], fun x => ⟨Or.inl, ?_⟩⟩
    rintro (h | ⟨t, w, h3, h4, _⟩)
    · exact h
    · omega
  | succ f ih =>
    intro flags h1 h2
    rw [markLoop]
    by_cases hc : ((f + 1 : Nat) : Int) > s
    · rw [if_pos hc]
      have e : rd a f = .ok a[f] := by unfold rd; rw [List.getElem?_eq_getElem (by omega)]
      rw [e, bind_ok]
      obtain ⟨flags', e', h⟩ := ih (fun i => if i = a[f].1 then true else flags i) (by omega) (by omega)
      refine ⟨flags', e', fun x => ?_⟩
      rw [h x]
      constructor
      · rintro (q | ⟨t, w, q1, q2, q3⟩)
        · split at q
          · rename_i hx
            right
            exact ⟨f, a[f].2, by omega, by omega, by rw [hx, List.getElem?_eq_getElem (by omega)]⟩
          · exact Or.inl q
        · exact Or.inr ⟨t, w, q1, by omega, q3⟩
      · rintro (q | ⟨t, w, q1, q2, q3⟩)
        · left; split
          · rfl
          · exact q
        · rcases Nat.lt_or_ge t f with h' | h'
          · exact Or.inr ⟨t, w, q1, h', q3⟩
          · have : t = f := by omega
            subst this
            left
            rw [List.getElem?_eq_getElem (by omega)] at q3
            rw [if_pos (by rw [Option.some.inj q3])]
    · rw [if_neg hc]
      refine ⟨flags, rfl, fun x => ⟨Or.inl, ?_⟩⟩
      rintro (h | ⟨t, w, h3, h4, _⟩)
      · exact h
      · omega

/-- The positions `T` of `a` (below `i`) carry words occurring in this order among the first `j` of `b`. -/
structure Sel (a b : List (Nat × List Nat)) (T : List Nat) (i j : Nat) : Prop where
  inc : T.Pairwise (· < ·)
  lt  : ∀ t ∈ T, t < i
  sub : (T.map (fun t => (A a).getD t [])).Sublist ((A b).take j)

theorem Sel.mono {T : List Nat} {i j i' j' : Nat} (h : Sel a b T i j) (hi : i ≤ i') (hj : j ≤ j') : Sel a b T i' j' :=
  ⟨h.inc, fun t ht => by have := h.lt t ht; omega, h.sub.trans (List.take_sublist_take_left hj)⟩

theorem Sel.step {T : List Nat} {i j : Nat} (h : Sel a b T i j) {x : List Nat} (hx : (A a)[i]? = some x) (hy : (A b)[j]? = some x) :
    Sel a b (T ++ [i]) (i + 1) (j + 1) := by
  obtain ⟨hj, ey⟩ := List.getElem?_eq_some_iff.1 hy
  refine ⟨?_, ?_, ?_⟩
  · rw [List.pairwise_append]
    exact ⟨h.inc, by simp, by intro t ht u hu; simp at hu; subst hu; exact h.lt t ht⟩
  · intro t ht
    rcases List.mem_append.1 ht with q | q
    · have := h.lt t q; omega
    · simp at q; omega
  · rw [List.map_append, List.take_succ_eq_append_getElem hj, ey]
    refine h.sub.append ?_
    simp only [List.map_cons, List.map_nil]
    rw [List.getD_eq_getElem?_getD, hx]
    exact List.Sublist.refl _

theorem Sel.steps {T : List Nat} {i j : Nat} (h : Sel a b T i j) : ∀ t : Nat,
    (∀ u, u < t → ∃ x, (A a)[i + u]? = some x ∧ (A b)[j + u]? = some x) → Sel a b (T ++ List.range' i t) (i + t) (j + t)
  | 0, _ => by simpa using h
  | t + 1, hm => by
    obtain ⟨x, h1, h2⟩ := hm t (by omega)
    have := (Sel.steps h t (fun u hu => hm u (by omega))).step h1 h2
    rwa [List.append_assoc, show List.range' i t ++ [i + t] = List.range' i (t + 1) by rw [List.range'_concat]; simp] at this

theorem matchLoop_spec {paths : List Path} {C : Int → Prop} (h : Hist a b paths C) :
    ∀ (P : Path) (Ps : List Path) (k : Int) (i : Nat) (flags : Nat → Bool), paths = P :: Ps → C k → Cell P k i →
      ∃ (flags' : Nat → Bool) (T : List Nat) (j : Nat), matchLoop a (some k) paths flags = .ok flags' ∧ (j : Int) = i + k ∧
        (∀ x, flags' x = true ↔ flags x = true ∨ ∃ t ∈ T, ∃ w, a[t]? = some (x, w)) ∧ Sel a b T i j ∧
        2 * T.length + Ps.length = i + j := by
  induction h with
  | nil => intro P Ps k i flags e; simp at e
  | @cons P0 Ps0 C C' hist hp hc ih =>
    intro P Ps k i flags e hk hcell
    obtain ⟨rfl, rfl⟩ := List.cons.inj e
    obtain ⟨i', hcomp⟩ := hc k hk
    have := hcomp.cell.unique hcell
    subst this
    obtain ⟨j, hj, hf⟩ := hcomp.fwd
    have bi := hf.1
    rw [List.length_map] at bi
    obtain ⟨s, pk, e1, hsi, hsn, hz, hpr⟩ := hcomp.start
    obtain ⟨flags1, e2, h2⟩ := markLoop_spec (a := a) (s := s) i' flags hsi bi
    rw [matchLoop, hcell.rd, bind_ok, e1]
    simp only [bind_ok]
    rw [e2, bind_ok]
    have bs : s ≤ a.length := by omega
    -- what is left for the earlier paths
    have key : ∃ (flags' : Nat → Bool) (T : List Nat) (j0 : Nat), matchLoop a pk Ps0 flags1 = .ok flags' ∧ (j0 : Int) = s + k ∧
        (∀ x, flags' x = true ↔ flags1 x = true ∨ ∃ t ∈ T, ∃ w, a[t]? = some (x, w)) ∧ Sel a b T s j0 ∧
        2 * T.length + Ps0.length = s + j0 := by
      cases Ps0 with
      | nil =>
        obtain ⟨rfl, rfl⟩ := hz rfl
        refine ⟨flags1, [], 0, ?_, by omega, by simp, ⟨by simp, by simp, by simp⟩, by simp⟩
        cases pk <;> rfl
      | cons P' Ps' =>
        obtain ⟨k', rfl, hC', i0, hcell', hs⟩ := hpr P' rfl
        obtain ⟨flags', T, j0, g1, g2, g3, g4, g5⟩ := ih P' Ps' k' i0 flags1 rfl hC' hcell'
        rcases hs with ⟨rfl, hs⟩ | ⟨rfl, hs⟩
        · exact ⟨flags', T, j0 + 1, g1, by omega, g3, g4.mono (by omega) (by omega), by simp only [List.length_cons]; omega⟩
        · exact ⟨flags', T, j0, g1, by omega, g3, g4.mono (by omega) (by omega), by simp only [List.length_cons]; omega⟩
    obtain ⟨flags', T, j0, g1, g2, g3, g4, g5⟩ := key
    refine ⟨flags', T ++ List.range' s (i' - s), j, g1, hj, ?_, ?_, ?_⟩
    · intro x
      rw [g3 x, h2 x, or_assoc]
      refine or_congr_right ⟨?_, ?_⟩
      · rintro (⟨t, w, q1, q2, q3⟩ | ⟨t, q1, w, q2⟩)
        · exact ⟨t, List.mem_append_right _ (List.mem_range'_1.2 (by omega)), w, q3⟩
        · exact ⟨t, List.mem_append_left _ q1, w, q2⟩
      · rintro ⟨t, q1, w, q2⟩
        rcases List.mem_append.1 q1 with q | q
        · exact Or.inr ⟨t, q, w, q2⟩
        · have := List.mem_range'_1.1 q
          exact Or.inl ⟨t, w, by omega, by omega, q2⟩
    · have := g4.steps (i' - s) (fun u hu => by
        obtain ⟨y, q1, w, q2, q3⟩ := hsn (s + u) (by omega) (by omega)
        exact ⟨w, q2, by rwa [show j0 + u = y by omega]⟩)
      rwa [show s + (i' - s) = i' by omega, show j0 + (i' - s) = j by omega] at this
    · rw [List.length_append, List.length_range']; omega

/-- The flagged words are a longest common subsequence of `a` and `b`. -/
theorem matches_spec (hm : a.length ≤ 65535) : ∃ (paths : List Path) (flags : Nat → Bool) (T : List Nat),
    compute_pathlist a b = .ok paths ∧ obtain_matches a b paths = .ok flags ∧ (∀ x, flags x = true ↔ ∃ t ∈ T, ∃ w, a[t]? = some (x, w)) ∧
    T.Pairwise (· < ·) ∧ (∀ t ∈ T, t < a.length) ∧ (T.map (fun t => (A a).getD t [])).Sublist (A b) ∧
    ∀ c : List (List Nat), c.Sublist (A a) → c.Sublist (A b) → c.length ≤ T.length := by
  obtain ⟨L, hL⟩ := exists_longest (A a) (A b)
  obtain ⟨paths, e, P, Ps, C, rfl, hist, hC, hcell, hlen⟩ := compute_pathlist_spec hm hL
  obtain ⟨flags, T, j, g1, g2, g3, g4, g5⟩ := matchLoop_spec hist P Ps _ _ (fun _ => false) rfl hC hcell
  refine ⟨_, flags, T, e, g1, ?_, g4.inc, g4.lt, g4.sub.trans (List.take_sublist _ _), ?_⟩
  · intro x; rw [g3 x]; simp
  · intro c h1 h2
    have := hL.max c h1 h2
    omega

/-! ## From the arrays to the texts -/

theorem found_mark (i index : Nat) (hi : i ≠ index) (t : List Id) (w k : List Nat) (h2 : i < 2 ∧ index < 2) :
    found_other (mark_found i t w) index k = (decide (w = k) || found_other t index k) := by
  unfold found_other mark_found
  rw [Store.lookup_add]
  · by_cases hk : k = w
    · subst hk
      rw [if_pos rfl]
      simp only [decide_true, Bool.true_or]
      cases Store.lookup Id.key k t with
      | none => simp only [Option.elim_none]; split <;> simp <;> omega
      | some d => simp only [Option.elim_some]; split <;> split <;> first | rfl | omega
    · rw [if_neg hk, decide_eq_false (fun e => hk e.symm), Bool.false_or]
  · intro e; split <;> rfl
  · rfl

theorem found_mark_same (i : Nat) (t : List Id) (w k : List Nat) : found_other (mark_found i t w) i k = found_other t i k := by
  unfold found_other mark_found
  rw [Store.lookup_add]
  · by_cases hk : k = w
    · subst hk
      rw [if_pos rfl]
      cases Store.lookup Id.key k t with
      | none => simp
      | some d => simp only [Option.elim_some]; split <;> rfl
    · rw [if_neg hk]
  · intro e; split <;> rfl
  · rfl

theorem found_fold (i index : Nat) (hi : i ≠ index) (h2 : i < 2 ∧ index < 2) (k : List Nat) : ∀ (ws : List (List Nat)) (t : List Id),
    found_other (ws.foldl (mark_found i) t) index k = (decide (k ∈ ws) || found_other t index k)
  | [], t => by simp
  | w :: ws, t => by
    rw [List.foldl_cons, found_fold i index hi h2 k ws, found_mark i index hi t w k h2]
    by_cases h : k = w
    · subst h; simp
    · have h' : ¬ w = k := fun e => h e.symm
      simp [h, h']

theorem found_fold_same (i : Nat) (k : List Nat) : ∀ (ws : List (List Nat)) (t : List Id),
    found_other (ws.foldl (mark_found i) t) i k = found_other t i k
  | [], t => rfl
  | w :: ws, t => by rw [List.foldl_cons, found_fold_same i k ws, found_mark_same]

/-- Which words are kept. -/
theorem setup_eq (u v : List (List Nat)) : ∃ a b, a = ((List.range u.length).zip u).filter (fun x => decide (x.2 ∈ v)) ∧
    b = ((List.range v.length).zip v).filter (fun x => decide (x.2 ∈ u)) ∧
    setup u v = if a.length > MAX_F then .err "text stream is too long" else .ok (a, b) := by
  refine ⟨_, _, rfl, rfl, ?_⟩
  have e0 : ∀ k, found_other (v.foldl (mark_found 1) (u.foldl (mark_found 0) [])) 0 k = decide (k ∈ v) := by
    intro k
    rw [found_fold 1 0 (by omega) (by omega), found_fold_same]
    simp [found_other, Store.lookup]
  have e1 : ∀ k, found_other (v.foldl (mark_found 1) (u.foldl (mark_found 0) [])) 1 k = decide (k ∈ u) := by
    intro k
    rw [found_fold_same, found_fold 0 1 (by omega) (by omega)]
    simp [found_other, Store.lookup]
  unfold setup setup_array
  simp only [e0, e1]
  rfl

theorem zip_snd (u : List (List Nat)) (p : List Nat → Bool) :
    (((List.range u.length).zip u).filter (fun x => p x.2)).map Prod.snd = u.filter p := by
  have : ((List.range u.length).zip u).map Prod.snd = u := by rw [List.map_snd_zip]; simp
  conv => rhs; rw [← this]
  rw [List.filter_map]; rfl

theorem lcs_filter {u v c : List (List Nat)} (h1 : c.Sublist u) (h2 : c.Sublist v) :
    c.Sublist (u.filter (fun x => decide (x ∈ v))) ∧ c.Sublist (v.filter (fun x => decide (x ∈ u))) := by
  have e1 : c.filter (fun x => decide (x ∈ v)) = c := List.filter_eq_self.2 fun x hx => by simpa using h2.subset hx
  have e2 : c.filter (fun x => decide (x ∈ u)) = c := List.filter_eq_self.2 fun x hx => by simpa using h1.subset hx
  exact ⟨by have := h1.filter (fun x => decide (x ∈ v)); rwa [e1] at this, by have := h2.filter (fun x => decide (x ∈ u)); rwa [e2] at this⟩

theorem zip_getElem {u : List (List Nat)} {x : Nat} {w : List Nat} (h : (x, w) ∈ (List.range u.length).zip u) : u[x]? = some w := by
  obtain ⟨i, hi, e⟩ := List.mem_iff_getElem.1 h
  rw [List.getElem_zip] at e
  simp only [List.getElem_range, Prod.mk.injEq] at e
  obtain ⟨rfl, rfl⟩ := e
  simp only [List.length_zip, List.length_range, Nat.min_self] at hi
  exact List.getElem?_eq_getElem hi

theorem pairwise_lt_range_zip (u : List (List Nat)) : ((List.range u.length).zip u).Pairwise (fun x y => x.1 < y.1) := by
  have h1 : (((List.range u.length).zip u).map Prod.fst).Pairwise (· < ·) := by
    rw [List.map_fst_zip (by simp)]; exact List.pairwise_lt_range
  exact List.pairwise_map.1 h1

/-- Two increasing lists with the same members are equal. -/
theorem increasing_ext : ∀ {l l' : List Nat}, l.Pairwise (· < ·) → l'.Pairwise (· < ·) → (∀ x, x ∈ l ↔ x ∈ l') → l = l' := by
  intro l l' h h' hm
  have p : l.Perm l' := (List.perm_ext_iff_of_nodup (h.imp (fun h => Nat.ne_of_lt h)) (h'.imp (fun h => Nat.ne_of_lt h))).2 hm
  refine List.Perm.eq_of_pairwise ?_ h h' p
  intro a b _ _ h1 h2
  omega

theorem recognize_spec (u v : List (List Nat)) (hm : (u.filter (fun x => decide (x ∈ v))).length ≤ 65535) :
    ∃ flags, recognize u v = .ok flags ∧ flags.length = u.length ∧ IsLCS (flagged u flags) u v := by
  obtain ⟨a, b, ea, eb, es⟩ := setup_eq u v
  have ha : A a = u.filter (fun x => decide (x ∈ v)) := by rw [ea]; exact zip_snd u (fun x => decide (x ∈ v))
  have hb : A b = v.filter (fun x => decide (x ∈ u)) := by rw [eb]; exact zip_snd v (fun x => decide (x ∈ u))
  have hla : a.length ≤ 65535 := by rw [← ha, List.length_map] at hm; exact hm
  rw [if_neg (by unfold MAX_F; omega)] at es
  obtain ⟨paths, fl, T, h1, h2, h3, h4, h5, h6, h7⟩ := matches_spec (a := a) (b := b) hla
  have ha1 : a.Pairwise (fun x y => x.1 < y.1) := by rw [ea]; exact (pairwise_lt_range_zip u).filter _
  have hau : ∀ (t x : Nat) (w : List Nat), a[t]? = some (x, w) → u[x]? = some w := by
    intro t x w h
    have := List.mem_of_getElem? h
    rw [ea] at this
    exact zip_getElem (List.mem_filter.1 this).1
  refine ⟨(List.range u.length).map fl, ?_, by simp, ?_⟩
  · unfold recognize; rw [es, bind_ok]; simp only; rw [h1, bind_ok, h2, bind_ok]; rfl
  -- the flagged words
  have hfl : flagged u ((List.range u.length).map fl) = ((List.range u.length).filter fl).map (fun x => u.getD x []) := by
    unfold flagged
    have hz : u.zip ((List.range u.length).map fl) = (List.range u.length).map (fun x => (u.getD x [], fl x)) := by
      apply List.ext_getElem
      · simp
      · intro n q1 q2
        simp only [List.length_map, List.length_range] at q2
        simp [q2]
    rw [hz, List.filter_map, List.map_map]
    rfl
  have hT : (List.range u.length).filter fl = T.map (fun t => (a.getD t (0, [])).1) := by
    apply increasing_ext
    · exact List.pairwise_lt_range.filter _
    · rw [List.pairwise_map]
      refine h4.imp_of_mem ?_
      intro t t' ht ht' hlt
      have l1 := h5 t ht
      have l2 := h5 t' ht'
      have := List.pairwise_iff_getElem.1 ha1 t t' l1 l2 hlt
      simpa [l1, l2] using this
    · intro x
      rw [List.mem_filter, h3 x, List.mem_map]
      constructor
      · rintro ⟨_, t, ht, w, e⟩
        exact ⟨t, ht, by simp [e]⟩
      · rintro ⟨t, ht, e⟩
        have l1 := h5 t ht
        have e' : a[t]? = some (x, a[t].2) := by
          rw [List.getElem?_eq_getElem l1, ← e]; simp [l1]
        refine ⟨?_, t, ht, _, e'⟩
        have := hau t x _ e'
        rw [List.mem_range]
        exact (List.getElem?_eq_some_iff.1 this).1
  have hW : flagged u ((List.range u.length).map fl) = T.map (fun t => (A a).getD t []) := by
    rw [hfl, hT, List.map_map]
    apply List.map_congr_left
    intro t ht
    have l1 := h5 t ht
    have := hau t a[t].1 a[t].2 (List.getElem?_eq_getElem l1)
    simp [l1, this]
  constructor
  · rw [hfl]
    have : (List.range u.length).map (fun x => u.getD x []) = u := by
      apply List.ext_getElem
      · simp
      · intro n q1 q2
        simp [q2]
    conv => rhs; rw [← this]
    exact List.filter_sublist.map _
  · rw [hW]
    refine h6.trans ?_
    rw [hb]; exact List.filter_sublist
  · intro c c1 c2
    obtain ⟨d1, d2⟩ := lcs_filter c1 c2
    rw [hW, List.length_map]
    exact h7 c (by rw [ha]; exact d1) (by rw [hb]; exact d2)

end Ocr.Wordacc
