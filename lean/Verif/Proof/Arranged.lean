import Verif.Proof.Transposed
import Verif.Props.EditopTrace

/-!
# The order of the matches of `transpose_sync`, and the moves of `editop`
-/

namespace Ocr.Sync

theorem mem_leftover {x : Piece} {u : List Nat} (h : x ∈ leftover u) : x = (none, u) ∧ u ≠ [] := by
  unfold leftover at h
  split at h
  · simp at h
  · rename_i hu
    exact ⟨by simpa using h, hu⟩

theorem mem_cut {P : List Piece} {p : Nat} {u : List Nat} {i n k : Nat} {x : Piece} (h : x ∈ cut P p u i n k) :
    x ∈ P ∨ x = (none, u.take i) ∨ x = (some k, (u.drop i).take n) ∨ x = (none, u.drop (i + n)) := by
  unfold cut at h
  simp only [List.mem_append, List.mem_singleton] at h
  rcases h with (((h | h) | h) | h) | h
  · exact .inl (List.mem_of_mem_take h)
  · exact .inr (.inl (mem_leftover h).1)
  · exact .inr (.inr (.inl h))
  · exact .inr (.inr (.inr (mem_leftover h).1))
  · exact .inl (List.mem_of_mem_drop h)

theorem new_cut {P : List Piece} {p : Nat} {u : List Nat} {i n k : Nat} : (some k, (u.drop i).take n) ∈ cut P p u i n k := by
  simp [cut]

theorem old_cut {P : List Piece} {p : Nat} {u v : List Nat} {i n k : Nat} (h : P[p]? = some (none, v)) {x : Piece} (hx : x ∈ P)
    (hm : x.1 ≠ none) : x ∈ cut P p u i n k := by
  obtain ⟨hlt, hp⟩ := List.getElem?_eq_some_iff.1 h
  rw [← List.take_append_drop p P, List.drop_eq_getElem_cons hlt] at hx
  simp only [List.mem_append, List.mem_cons] at hx
  unfold cut
  simp only [List.mem_append]
  rcases hx with hx | hx | hx
  · exact .inl (.inl (.inl (.inl hx)))
  · rw [hx, hp] at hm; exact absurd rfl hm
  · exact .inr hx

/-- Matched pieces are never changed. -/
theorem Transposed.kept {k : Nat} {P Q P' Q' : List Piece} (h : Transposed k P Q P' Q') :
    (∀ x ∈ P, x.1 ≠ none → x ∈ P') ∧ (∀ x ∈ Q, x.1 ≠ none → x ∈ Q') := by
  induction h with
  | done => exact ⟨fun _ h _ => h, fun _ h _ => h⟩
  | step hb _ ih => exact ⟨fun x hx hm => ih.1 x (old_cut hb.first hx hm) hm, fun x hx hm => ih.2 x (old_cut hb.second hx hm) hm⟩

/-- Pieces with a number less than `k` were there before. -/
theorem Transposed.old {k : Nat} {P Q P' Q' : List Piece} (h : Transposed k P Q P' Q') :
    ∀ m w, m < k → ((some m, w) ∈ P' → (some m, w) ∈ P) ∧ ((some m, w) ∈ Q' → (some m, w) ∈ Q) := by
  induction h with
  | done => exact fun _ _ _ => ⟨id, id⟩
  | step hb _ ih =>
    intro m w hm
    have := ih m w (by omega)
    constructor
    · intro h
      rcases mem_cut (this.1 h) with h | h | h | h
      · exact h
      · simp at h
      · simp only [Prod.mk.injEq, Option.some.injEq] at h; omega
      · simp at h
    · intro h
      rcases mem_cut (this.2 h) with h | h | h | h
      · exact h
      · simp at h
      · simp only [Prod.mk.injEq, Option.some.injEq] at h; omega
      · simp at h

/-- No string common to unmatched pieces is longer than `n`. -/
def Within (P Q : List Piece) (n : Nat) : Prop :=
  ∀ u v i j w, (none, u) ∈ P → (none, v) ∈ Q → Occurs u v i j w → w.length ≤ n

theorem part_cut {P : List Piece} {p : Nat} {u v : List Nat} {i n k : Nat} (hp : P[p]? = some (none, u)) (h : (none, v) ∈ cut P p u i n k) :
    ∃ u', (none, u') ∈ P ∧ ∀ j, ∃ j', v.drop j <+: u'.drop j' := by
  rcases mem_cut h with h | h | h | h
  · exact ⟨v, h, fun j => ⟨j, List.prefix_refl _⟩⟩
  · cases h
    refine ⟨u, List.mem_of_getElem? hp, fun j => ⟨j, ?_⟩⟩
    rw [List.drop_take]
    exact List.take_prefix _ _
  · simp at h
  · cases h
    exact ⟨u, List.mem_of_getElem? hp, fun j => ⟨i + n + j, by rw [List.drop_drop]⟩⟩

theorem within_cut {P Q : List Piece} {p q : Nat} {u v : List Nat} {i j n k k' m m' : Nat} (h : Within P Q n) (hp : P[p]? = some (none, u))
    (hq : Q[q]? = some (none, v)) : Within (cut P p u i m k) (cut Q q v j m' k') n := by
  intro u1 v1 i1 j1 w hu hv ho
  obtain ⟨u2, hu2, f⟩ := part_cut hp hu
  obtain ⟨v2, hv2, g⟩ := part_cut hq hv
  obtain ⟨i2, hi2⟩ := f i1
  obtain ⟨j2, hj2⟩ := g j1
  exact h u2 v2 i2 j2 w hu2 hv2 ⟨ho.1.trans hi2, ho.2.1.trans hj2, ho.2.2⟩

theorem take_match {u w : List Nat} {i : Nat} (h : w <+: u.drop i) : (u.drop i).take w.length = w :=
  (List.prefix_iff_eq_take.1 h).symm

/-- New matches are not longer than what was common before. -/
theorem Transposed.within {k : Nat} {P Q P' Q' : List Piece} (h : Transposed k P Q P' Q') : ∀ n, Within P Q n →
    ∀ m w, k ≤ m → ((some m, w) ∈ P' → (some m, w) ∈ P ∨ w.length ≤ n) ∧ ((some m, w) ∈ Q' → (some m, w) ∈ Q ∨ w.length ≤ n) := by
  induction h with
  | done => exact fun _ _ _ _ _ => ⟨.inl, .inl⟩
  | @step k P Q P' Q' p q u v i j w0 hb ht ih =>
    intro n hn m w hm
    have hw0 : w0.length ≤ n := hn u v i j w0 (List.mem_of_getElem? hb.first) (List.mem_of_getElem? hb.second) hb.occurs
    have hnew : ∀ {R : List Piece} {r : Nat} {t : List Nat} {l : Nat}, w0 <+: t.drop l →
        (some m, w) ∈ cut R r t l w0.length k → (some m, w) ∈ R ∨ w.length ≤ n := by
      intro R r t l hp h
      rcases mem_cut h with h | h | h | h
      · exact .inl h
      · simp at h
      · rw [take_match hp] at h
        cases h; exact .inr hw0
      · simp at h
    by_cases hk : m = k
    · have := ht.old m w (by omega)
      exact ⟨fun h => hnew hb.occurs.1 (this.1 h), fun h => hnew hb.occurs.2.1 (this.2 h)⟩
    · have := ih n (within_cut hn hb.first hb.second) m w (by omega)
      exact ⟨fun h => (this.1 h).elim (hnew hb.occurs.1) .inr, fun h => (this.2 h).elim (hnew hb.occurs.2.1) .inr⟩

/-- The matches are found in the order of their lengths. -/
theorem Transposed.decreasing {k : Nat} {P Q P' Q' : List Piece} (h : Transposed k P Q P' Q') :
    (∀ m w, (some m, w) ∈ P → m < k) → ∀ m m' w w', k ≤ m → m ≤ m' → (some m, w) ∈ P' → (some m', w') ∈ P' → w'.length ≤ w.length := by
  induction h with
  | done => intro hk m _ w _ h1 _ h _; have := hk m w h; omega
  | @step k P Q P' Q' p q u v i j w0 hb ht ih =>
    intro hk m m' w w' h1 h2 hw hw'
    have hk' : ∀ m w, (some m, w) ∈ cut P p u i w0.length k → m < k + 1 := by
      intro m w h
      rcases mem_cut h with h | h | h | h
      · have := hk m w h; omega
      · simp at h
      · simp only [Prod.mk.injEq, Option.some.injEq] at h; omega
      · simp at h
    have hone : ∀ w, (some k, w) ∈ P' → w = w0 := by
      intro w h
      rcases mem_cut ((ht.old k w (by omega)).1 h) with h | h | h | h
      · have := hk k w h; omega
      · simp at h
      · rw [take_match hb.occurs.1] at h; cases h; rfl
      · simp at h
    by_cases hm : m = k
    · subst hm
      rw [hone w hw]
      by_cases hm' : m' = m
      · subst hm'; rw [hone w' hw']
      · have hwi : Within P Q w0.length := hb.longest
        rcases (ht.within _ (within_cut hwi hb.first hb.second) m' w' (by omega)).1 hw' with h | h
        · have := hk' m' w' h; omega
        · exact h
    · exact ih hk' m m' w w' (by omega) h2 hw hw'

/-- The first match is a longest common string of the two texts. -/
theorem Transposed.first {a b : List Nat} {P Q : List Piece} (h : Transposed 0 (leftover a) (leftover b) P Q) {w : List Nat} (hw : w ≠ [])
    (ha : w <:+: a) (hb : w <:+: b) (hr : 126 ∉ w) : ∃ w0, (some 0, w0) ∈ P ∧ (some 0, w0) ∈ Q ∧ w.length ≤ w0.length := by
  obtain ⟨s, t, rfl⟩ := ha
  obtain ⟨s', t', rfl⟩ := hb
  have n1 : s ++ w ++ t ≠ [] := by simp [hw]
  have n2 : s' ++ w ++ t' ≠ [] := by simp [hw]
  have l1 : leftover (s ++ w ++ t) = [(none, s ++ w ++ t)] := if_neg n1
  have l2 : leftover (s' ++ w ++ t') = [(none, s' ++ w ++ t')] := if_neg n2
  have ho : Occurs (s ++ w ++ t) (s' ++ w ++ t') s.length s'.length w := by
    refine ⟨?_, ?_, hr⟩
    · rw [List.append_assoc, List.drop_left]; exact List.prefix_append _ _
    · rw [List.append_assoc, List.drop_left]; exact List.prefix_append _ _
  rw [l1, l2] at h
  cases h with
  | done ha =>
    exfalso
    obtain ⟨c, r, rfl⟩ := List.exists_cons_of_ne_nil hw
    have hc : c = 126 := ha _ _ (List.mem_singleton_self _) (List.mem_singleton_self _) c (by simp) (by simp)
    exact hr (by simp [hc])
  | @step _ _ _ _ _ p q u v i j w0 hb ht =>
    have k := ht.kept
    refine ⟨w0, ?_, ?_, hb.longest _ _ _ _ w (by simp) (by simp) ho⟩
    · have := k.1 _ new_cut (by simp)
      rwa [take_match hb.occurs.1] at this
    · have := k.2 _ new_cut (by simp)
      rwa [take_match hb.occurs.2.1] at this

/-- Two equal texts without reject characters are one match. -/
theorem transposed_same {a : List Nat} (ha : a ≠ []) (hr : 126 ∉ a) : Transposed 0 (leftover a) (leftover a) [(some 0, a)] [(some 0, a)] := by
  have l1 : leftover a = [(none, a)] := if_neg ha
  have hb : Best [(none, a)] [(none, a)] 0 0 a a 0 0 a := by
    refine ⟨rfl, rfl, ha, ⟨by simp, by simp, hr⟩, ?_, ?_⟩
    · intro u' v' i' j' w' hu _ ho
      have hu : u' = a := by simpa using hu
      subst hu
      have := ho.1.length_le
      rw [List.length_drop] at this
      omega
    · intro p' q' u' v' i' j' w' hu hv ho hl
      omega
  have hc : cut [(none, a)] 0 a 0 a.length 0 = [(some 0, a)] := by simp [cut, leftover]
  rw [l1]
  refine .step hb ?_
  rw [hc]
  exact .done (by simp)

end Ocr.Sync

namespace Ocr.Edo

theorem joinStep_fst (x : Nat × Int) (g : List (Nat × Int)) : List.Sublist ((joinStep x g).map Prod.fst) (x.1 :: g.map Prod.fst) := by
  unfold joinStep
  split
  · simp
  · split
    · simp
    · simp

theorem groups_fst (l : List (Nat × Int)) : List.Sublist ((groups l).map Prod.fst) (l.map Prod.fst) := by
  induction l with
  | nil => simp [groups]
  | cons x l ih =>
    rw [groups_cons]
    exact (joinStep_fst x _).trans (ih.cons_cons _)

theorem countP_lt {l : List Nat} {a b : Nat} (hb : b ∈ l) (h : a < b) : l.countP (fun c => c ≤ a) < l.countP (fun c => c ≤ b) := by
  induction l with
  | nil => simp at hb
  | cons c l ih =>
    have hle : l.countP (fun c => c ≤ a) ≤ l.countP (fun c => c ≤ b) :=
      List.countP_mono_left (fun x _ hx => by simp only [decide_eq_true_eq] at *; omega)
    simp only [List.countP_cons, decide_eq_true_eq]
    by_cases hc : c = b
    · subst hc
      rw [if_neg (by omega), if_pos (by omega)]; omega
    · have := ih (by simpa [Ne.symm hc] using hb)
      split <;> split <;> omega

/-- After joining, the numbers are those from 1 on. -/
theorem joined_perm {l : List (Nat × Int)} (h : (l.map Prod.fst).Nodup) :
    ((joined l).map Prod.fst).Perm (List.range' 1 (joined l).length) := by
  have hg : ((groups l).map Prod.fst).Nodup := (groups_fst l).nodup h
  have e : (joined l).map Prod.fst = ((groups l).map Prod.fst).map (fun b => ((groups l).map Prod.fst).countP (fun c => c ≤ b)) := by
    unfold joined
    simp only [List.map_map, List.countP_map]
    rfl
  have hl : (joined l).length = ((groups l).map Prod.fst).length := by simp [joined]
  rw [e, hl]
  generalize (groups l).map Prod.fst = g at hg
  have hn : (g.map (fun b => g.countP (fun c => c ≤ b))).Nodup := by
    refine (List.nodup_map_iff_inj_on hg).2 ?_
    intro x hx y hy he
    rcases Nat.lt_trichotomy x y with h | h | h
    · have := countP_lt hy h; omega
    · exact h
    · have := countP_lt hx h; omega
  have hs : g.map (fun b => g.countP (fun c => c ≤ b)) ⊆ List.range' 1 g.length := by
    intro x hx
    obtain ⟨y, hy, rfl⟩ := List.mem_map.1 hx
    rw [List.mem_range'_1]
    have := List.countP_le_length (p := fun c => decide (c ≤ y)) (l := g)
    have : 0 < g.countP (fun c => decide (c ≤ y)) := List.countP_pos_iff.2 ⟨y, hy, by simp⟩
    omega
  exact (List.subperm_of_subset hn hs).perm_of_length_le (by simp)

theorem Moved.perm {L M : List (Nat × Int)} {b : Nat × Int} (h : Moved L b M) : M.Perm L := by
  obtain ⟨p, q, u, v, e1, e2, e3⟩ := h
  rw [e1, e3]
  refine List.perm_middle.trans (.trans ?_ List.perm_middle.symm)
  rw [e2]

theorem split_fst : ∀ {p q u v : List (Nat × Int)} {b c : Nat × Int}, ((p ++ b :: q).map Prod.fst).Nodup → p ++ b :: q = u ++ c :: v →
    b.1 = c.1 → p = u ∧ b = c ∧ q = v := by
  intro p
  induction p with
  | nil =>
    intro q u v b c hn e hc
    cases u with
    | nil => simpa using e
    | cons x u =>
      simp only [List.nil_append, List.cons_append, List.cons.injEq] at e
      obtain ⟨rfl, rfl⟩ := e
      simp only [List.nil_append, List.map_cons, List.nodup_cons, List.map_append, List.mem_append, List.mem_cons] at hn
      exact absurd (.inr (.inl hc)) hn.1
  | cons y p ih =>
    intro q u v b c hn e hc
    cases u with
    | nil =>
      simp only [List.nil_append, List.cons_append, List.cons.injEq] at e
      obtain ⟨rfl, rfl⟩ := e
      simp only [List.cons_append, List.map_cons, List.nodup_cons, List.map_append, List.mem_append, List.mem_cons] at hn
      exact absurd (.inr (.inl hc.symm)) hn.1
    | cons x u =>
      simp only [List.cons_append, List.cons.injEq] at e
      obtain ⟨rfl, e⟩ := e
      obtain ⟨rfl, h2, h3⟩ := ih (by simpa using (List.nodup_cons.1 (by simpa using hn : (y.1 :: (p ++ b :: q).map Prod.fst).Nodup)).2) e hc
      exact ⟨rfl, h2, h3⟩

/-- There is at most one best move. -/
theorem Best.unique {L M N : List (Nat × Int)} {b c : Nat × Int} (hp : (L.map Prod.fst).Perm (List.range' 1 L.length)) (h : Best L b M)
    (h' : Best L c N) : b = c ∧ M = N := by
  have hn : (L.map Prod.fst).Nodup := hp.symm.nodup (List.nodup_range' ..)
  have hlen : (joined N).length = (joined M).length := Nat.le_antisymm (h'.fewest _ _ h.moved) (h.fewest _ _ h'.moved)
  have f1 := h.first _ _ h'.moved hlen
  have f2 := h'.first _ _ h.moved hlen.symm
  have hbc : b.1 = c.1 := by omega
  have nM : (M.map Prod.fst).Nodup := (h.moved.perm.map _).symm.nodup hn
  have nN : (N.map Prod.fst).Nodup := (h'.moved.perm.map _).symm.nodup hn
  have one : ∀ x ∈ L, 1 ≤ x.1 := by
    intro x hx
    have := hp.mem_iff.1 (List.mem_map_of_mem hx)
    rw [List.mem_range'_1] at this
    omega
  have oneM : ∀ x ∈ M, 1 ≤ x.1 := fun x hx => one x (h.moved.perm.mem_iff.1 hx)
  have oneN : ∀ x ∈ N, 1 ≤ x.1 := fun x hx => one x (h'.moved.perm.mem_iff.1 hx)
  obtain ⟨p, q, u, v, e1, e2, e3⟩ := h.moved
  obtain ⟨p', q', u', v', e1', e2', e3'⟩ := h'.moved
  obtain ⟨rfl, rfl, rfl⟩ := split_fst (e1 ▸ hn) (e1.symm.trans e1') hbc
  refine ⟨rfl, ?_⟩
  have npq : ((p ++ q).map Prod.fst).Nodup := by
    refine List.Sublist.nodup ?_ hn
    rw [e1]
    exact ((List.Sublist.refl p).append (List.sublist_cons_self _ _)).map _
  obtain ⟨s, t, x, hx⟩ := h.place
  obtain ⟨s', t', x', hx'⟩ := h'.place
  rcases hx with ⟨b1, x1, em⟩ | ⟨x1, em⟩ <;> rcases hx' with ⟨b1', x1', em'⟩ | ⟨x1', em'⟩
  · obtain ⟨rfl, _, rfl⟩ := split_fst (e3 ▸ nM) (e3.symm.trans em) rfl
    obtain ⟨rfl, _, rfl⟩ := split_fst (e3' ▸ nN) (e3'.symm.trans em') rfl
    obtain ⟨rfl, rfl, rfl⟩ := split_fst (e2 ▸ npq) (e2.symm.trans e2') (by omega)
    rw [e3, e3']
  · have := oneN x' (by rw [em']; simp)
    omega
  · have := oneM x (by rw [em]; simp)
    omega
  · have em2 : M = (s ++ [x]) ++ b :: t := by rw [em]; simp
    have em2' : N = (s' ++ [x']) ++ b :: t' := by rw [em']; simp
    obtain ⟨rfl, _, rfl⟩ := split_fst (e3 ▸ nM) (e3.symm.trans em2) rfl
    obtain ⟨rfl, _, rfl⟩ := split_fst (e3' ▸ nN) (e3'.symm.trans em2') rfl
    have e4 : s ++ x :: v = s' ++ x' :: v' := by simpa using e2.symm.trans e2'
    have n4 : ((s ++ x :: v).map Prod.fst).Nodup := by
      have : s ++ x :: v = p ++ q := by rw [e2]; simp
      rw [this]; exact npq
    obtain ⟨rfl, rfl, rfl⟩ := split_fst n4 e4 (by omega)
    rw [e3, e3']

/-- The moves are determined by the arrangement. -/
theorem Trace.unique {L : List (Nat × Int)} {ls tr} (h : Trace L ls tr) : (L.map Prod.fst).Perm (List.range' 1 L.length) →
    ∀ {ls' tr'}, Trace L ls' tr' → ls = ls' ∧ tr = tr' := by
  induction h with
  | done L hl =>
    intro _ ls' tr' h'
    cases h' with
    | done => exact ⟨rfl, rfl⟩
    | move _ _ _ _ hl' => omega
  | move L b M ls tr hl hb ht ih =>
    intro hp ls' tr' h'
    cases h' with
    | done _ hl' => omega
    | move _ b' M' ls' tr' hl' hb' ht' =>
      obtain ⟨rfl, rfl⟩ := hb.unique hp hb'
      have hn : (L.map Prod.fst).Nodup := hp.symm.nodup (List.nodup_range' ..)
      obtain ⟨rfl, rfl⟩ := ih (joined_perm ((hb.moved.perm.map _).symm.nodup hn)) ht'
      exact ⟨rfl, rfl⟩

end Ocr.Edo
