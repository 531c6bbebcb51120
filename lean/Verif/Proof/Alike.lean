import Verif.Proof.GreedySplit

/-!
# Equal texts are split alike
-/

namespace Ocr.Sync
open Text

/-- The elements of `l` whose index is in `S` are equal. -/
def Alike {α : Type} (S : Nat → Prop) (l : List α) : Prop :=
  ∀ i k x y, S i → S k → l[i]? = some x → l[k]? = some y → x = y

/-- The elements whose index is in `S` have no reject characters. -/
def Plain (S : Nat → Prop) (l : List (List Nat)) : Prop := ∀ i q, S i → l[i]? = some q → 126 ∉ q

/-- Texts with an index in `S`, if equal, are matched at equal places. -/
def Stable (S : Nat → Prop) : Prop :=
  ∀ p more st w, Alike S (p :: more) → Plain S (p :: more) → [] ∉ p :: more → Narrows p [0] more st w → Alike S st

theorem zip_alike {S : Nat → Prop} {ps : List (List Nat)} {st : List Nat} {f : List Nat → Nat → List Nat} (h : Alike S ps) (hs : Alike S st) :
    Alike S (List.zipWith f ps st) := by
  intro i k x y hi hk hx hy
  rw [List.getElem?_zipWith] at hx hy
  split at hx
  · rename_i a b ea eb
    split at hy
    · rename_i c d ec ed
      cases hx
      cases hy
      rw [h i k a c hi hk ea ec, hs i k b d hi hk eb ed]
    · simp at hy
  · simp at hx

theorem zip_plain {S : Nat → Prop} {ps : List (List Nat)} {st : List Nat} {f : List Nat → Nat → List Nat} (h : Plain S ps)
    (hf : ∀ q s, f q s ⊆ q) : Plain S (List.zipWith f ps st) := by
  intro i q hi hq
  rw [List.getElem?_zipWith] at hq
  split at hq
  · rename_i a b ea eb
    cases hq
    exact fun hm => h i a hi ea (hf a b hm)
  · simp at hq

/-- Equal texts are split into equal strings. -/
theorem Greedy.alike {S : Nat → Prop} (hS : Stable S) {ps L} (h : Greedy ps L) : Alike S ps → Plain S ps → ∀ g ∈ L, Alike S g.2 := by
  induction h with
  | nothing => intro _ _ g hg; simp at hg
  | gap => intro h1 _ g hg; simp at hg; rw [hg]; exact h1
  | fails => intro h1 _ g hg; simp at hg; rw [hg]; exact h1
  | @split p more st w L R h0 hn _ _ ih1 ih2 =>
    intro h1 h2 g hg
    have hs := hS p more st w h1 h2 h0 hn
    rcases List.mem_append.1 hg with hg | hg
    · exact ih1 (zip_alike h1 hs) (zip_plain h2 (fun _ _ => List.take_subset _ _)) g hg
    · rcases List.mem_cons.1 hg with hg | hg
      · rw [hg]
        intro i k x y _ _ hx hy
        simp only [List.getElem?_map, Option.map_eq_some_iff] at hx hy
        obtain ⟨_, _, rfl⟩ := hx
        obtain ⟨_, _, rfl⟩ := hy
        rfl
      · exact ih2 (zip_alike h1 hs) (zip_plain h2 (fun _ _ => List.drop_subset _ _)) g hg

theorem Narrows.shape {w st more st' w'} (h : Narrows w st more st' w') : ∃ o js, st' = st.map (· + o) ++ js ∧ js.length = more.length := by
  induction h with
  | done => exact ⟨0, [], by simp, rfl⟩
  | @next w st p more i j w1 st' w' _ _ ih =>
    obtain ⟨o, js, e, hl⟩ := ih
    exact ⟨i + o, (j + o) :: js, by rw [e]; simp [Nat.add_assoc, Function.comp_def], by simp [hl]⟩

/-- The same text again: nothing changes. -/
theorem FirstLongest.again {u q : List Nat} {i j i' j' : Nat} {w w' : List Nat} (h : FirstLongest u q i j w)
    (h' : FirstLongest w q i' j' w') : i' = 0 ∧ j' = j ∧ w' = w := by
  have l1 := h'.longest 0 j w ⟨by simp, h.occurs.2.1, h.occurs.2.2⟩
  have l2 := h'.occurs.1.length_le
  rw [List.length_drop] at l2
  have hw := List.length_pos_iff.2 h.nonempty
  have hi : i' = 0 := by omega
  subst hi
  have hww : w' = w := by
    have := h'.occurs.1
    rw [List.drop_zero] at this
    exact this.eq_of_length (by omega)
  subst hww
  refine ⟨rfl, ?_, rfl⟩
  have f1 := h'.first 0 j w' ⟨by simp, h.occurs.2.1, h.occurs.2.2⟩ rfl
  have f2 := h.first i j' w' ⟨h.occurs.1, h'.occurs.2.1, h.occurs.2.2⟩ rfl
  omega

/-- Equal neighbours are matched at the same place. -/
theorem Narrows.neighbours : ∀ (i : Nat) {w st more st' w'} {q : List Nat}, Narrows w st more st' w' → more[i]? = some q → more[i + 1]? = some q →
    st'[st.length + i]? = st'[st.length + i + 1]? := by
  intro i
  induction i with
  | zero =>
    intro w st more st' w' q h h0 h1
    cases h with
    | done => simp at h0
    | @next _ _ p more i j w1 _ _ hf h =>
      cases h with
      | done => simp at h1
      | @next _ _ p' more i' j' w2 _ _ hf' h =>
        have e0 : p = q := by simpa using h0
        have e1 : p' = q := by simpa using h1
        subst e0
        subst e1
        obtain ⟨rfl, rfl, rfl⟩ := hf.again hf'
        obtain ⟨o, js, e, _⟩ := h.shape
        rw [e]
        simp
  | succ i ih =>
    intro w st more st' w' q h h0 h1
    cases h with
    | done => simp at h0
    | @next _ _ p more k j w1 _ _ hf h =>
      have := ih h (by simpa using h0) (by simpa using h1)
      simp only [List.length_append, List.length_map, List.length_singleton] at this
      rw [show st.length + (i + 1) = st.length + 1 + i by omega]
      exact this

theorem FirstLongest.self {p : List Nat} {i j : Nat} {w : List Nat} (h : FirstLongest p p i j w) : i = j := by
  have f1 := h.first i i w ⟨h.occurs.1, h.occurs.1, h.occurs.2.2⟩ rfl
  have f2 := h.first j j w ⟨h.occurs.2.1, h.occurs.2.1, h.occurs.2.2⟩ rfl
  omega

theorem narrows_adjacent {p : List Nat} {more : List (List Nat)} {st : List Nat} {w : List Nat} (h : Narrows p [0] more st w) (i : Nat)
    {q : List Nat} (h0 : (p :: more)[i]? = some q) (h1 : (p :: more)[i + 1]? = some q) : st[i]? = st[i + 1]? := by
  cases i with
  | zero =>
    cases h with
    | done => simp at h1
    | @next _ _ p' more i j w1 _ _ hf h =>
      have e0 : p = q := by simpa using h0
      have e1 : p' = q := by simpa using h1
      subst e0
      subst e1
      have := hf.self
      subst this
      obtain ⟨o, js, e, _⟩ := h.shape
      rw [e]
      simp
  | succ i =>
    have := h.neighbours i (q := q) (by simpa using h0) (by simpa using h1)
    simpa [Nat.add_comm] using this

theorem narrows_length {p : List Nat} {more : List (List Nat)} {st : List Nat} {w : List Nat} (h : Narrows p [0] more st w) :
    st.length = more.length + 1 := by
  obtain ⟨o, js, e, hl⟩ := h.shape
  rw [e]
  simp [hl]

/-- A run of indices: equal texts next to each other. -/
theorem stable_run (a m : Nat) : Stable (fun i => a ≤ i ∧ i < a + m) := by
  intro p more st w ha _ _ h
  have hl := narrows_length h
  have key : ∀ d i, a ≤ i → i + d < a + m → i + d < st.length → st[i + d]? = st[i]? := by
    intro d
    induction d with
    | zero => intros; rfl
    | succ d ih =>
      intro i h1 h2 h3
      rw [← ih i h1 (by omega) (by omega)]
      have g0 := List.getElem?_eq_getElem (l := p :: more) (i := i + d) (by simp; omega)
      have g1 := List.getElem?_eq_getElem (l := p :: more) (i := i + d + 1) (by simp; omega)
      have := ha (i + d) (i + d + 1) _ _ ⟨by omega, by omega⟩ ⟨by omega, by omega⟩ g0 g1
      rw [← this] at g1
      exact (narrows_adjacent h (i + d) g0 g1).symm
  intro i k x y hi hk hx hy
  have lx := (List.getElem?_eq_some_iff.1 hx).1
  have ly := (List.getElem?_eq_some_iff.1 hy).1
  rcases Nat.le_total i k with hik | hik
  · obtain ⟨d, rfl⟩ := Nat.exists_eq_add_of_le hik
    rw [key d i hi.1 hk.2 ly, hx] at hy
    exact Option.some.inj hy
  · obtain ⟨d, rfl⟩ := Nat.exists_eq_add_of_le hik
    rw [key d k hk.1 hi.2 lx, hy] at hx
    exact (Option.some.inj hx).symm

/-- One other text between equal ones does not matter if the equal ones come first. -/
theorem narrows_bridge {p x : List Nat} (hp : 126 ∉ p) : ∀ (m : Nat) {st : List Nat} {rest : List (List Nat)} {st' w'},
    p ≠ [] → (∀ s ∈ st, s = 0) → st ≠ [] → Narrows p st (List.replicate m p ++ x :: p :: rest) st' w' →
    st'[st.length + m - 1]? = st'[st.length + m + 1]? := by
  intro m
  induction m with
  | zero =>
    intro st rest st' w' hne hst hs h
    obtain ⟨s0, hs0⟩ := List.getLast?_isSome.2 hs |> Option.isSome_iff_exists.1
    cases h with
    | @next _ _ _ _ i j w1 _ _ hf h =>
      cases h with
      | @next _ _ _ _ i' j' w2 _ _ hf' h =>
        have l1 := hf'.longest 0 i w1 ⟨by simp, hf.occurs.1, hf.occurs.2.2⟩
        have l2 := hf'.occurs.1.length_le
        rw [List.length_drop] at l2
        have hw := List.length_pos_iff.2 hf.nonempty
        have hi : i' = 0 := by omega
        subst hi
        have hww : w2 = w1 := by
          have := hf'.occurs.1
          rw [List.drop_zero] at this
          exact this.eq_of_length (by omega)
        subst hww
        have f1 := hf'.first 0 i w2 ⟨by simp, hf.occurs.1, hf.occurs.2.2⟩ rfl
        have f2 := hf.first j' j w2 ⟨hf'.occurs.2.1, hf.occurs.2.1, hf.occurs.2.2⟩ rfl
        have hj : j' = i := by omega
        subst hj
        obtain ⟨o, js, e, _⟩ := h.shape
        have hpos := List.length_pos_iff.2 hs
        rw [e]
        have h0 : st[st.length - 1]? = some 0 := by
          rw [List.getElem?_eq_getElem (by omega)]
          exact congrArg some (hst _ (List.getElem_mem _))
        simp only [List.map_append, List.map_map, List.append_assoc, List.map_cons, List.map_nil, Nat.add_zero]
        rw [List.getElem?_append_left (by simp; omega), List.getElem?_append_right (by simp), List.getElem?_map, h0]
        simp [Nat.add_sub_cancel_left]
  | succ m ih =>
    intro st rest st' w' hne hst hs h
    rw [List.replicate_succ, List.cons_append] at h
    cases h with
    | @next _ _ _ _ i j w1 _ _ hf h =>
      have l1 := hf.longest 0 0 p ⟨by simp, by simp, hp⟩
      have l2 := hf.occurs.1.length_le
      rw [List.length_drop] at l2
      have hw := List.length_pos_iff.2 hf.nonempty
      have hi : i = 0 := by omega
      subst hi
      have hww : w1 = p := by
        have := hf.occurs.1
        rw [List.drop_zero] at this
        exact this.eq_of_length (by omega)
      subst hww
      have hj := hf.self
      subst hj
      have := ih hne (st := st.map (· + 0) ++ [0])
        (by intro s hm; simp at hm; exact hm.elim (hst s) id) (by simp) h
      simp only [List.length_append, List.length_map, List.length_singleton] at this
      rw [show st.length + (m + 1) - 1 = st.length + 1 + m - 1 by omega, show st.length + (m + 1) + 1 = st.length + 1 + m + 1 by omega]
      exact this

/-- All indices but one. -/
theorem stable_but_one (a : Nat) : Stable (fun i => i ≠ a) := by
  intro p more st w ha hp hne h
  have hl := narrows_length h
  have low := stable_run 0 a p more st w (fun i k x y hi hk => ha i k x y (by omega) (by omega))
    (fun i q hi => hp i q (by omega)) hne h
  have high := stable_run (a + 1) st.length p more st w (fun i k x y hi hk => ha i k x y (by omega) (by omega))
    (fun i q hi => hp i q (by omega)) hne h
  have bridge : 0 < a → a + 1 < st.length → st[a - 1]? = st[a + 1]? := by
    intro h0 h1
    have hp0 : 126 ∉ p := hp 0 p (by omega) rfl
    have hform : more = List.replicate (a - 1) p ++ more.getD (a - 1) [] :: p :: more.drop (a + 1) := by
      apply List.ext_getElem?
      intro i
      rw [List.getElem?_append]
      by_cases c1 : i < a - 1
      · rw [if_pos (by simpa using c1), List.getElem?_replicate, if_pos c1]
        have g := List.getElem?_eq_getElem (l := more) (i := i) (by omega)
        rw [g]
        exact congrArg some (ha (i + 1) 0 _ _ (by omega) (by omega) (by simp [g]) rfl)
      · rw [if_neg (by simpa using c1), List.length_replicate]
        by_cases c2 : i = a - 1
        · subst c2
          simp only [Nat.sub_self, List.getElem?_cons_zero]
          rw [List.getD_eq_getElem?_getD, List.getElem?_eq_getElem (by omega)]
          rfl
        · by_cases c3 : i = a
          · subst c3
            rw [show i - (i - 1) = 1 by omega]
            have g := List.getElem?_eq_getElem (l := more) (i := i) (by omega)
            rw [g]
            simp only [List.getElem?_cons_succ, List.getElem?_cons_zero]
            exact congrArg some (ha (i + 1) 0 _ _ (by omega) (by omega) (by simp [g]) rfl)
          · rw [show i - (a - 1) = (i - (a + 1)) + 2 by omega]
            simp only [List.getElem?_cons_succ, List.getElem?_drop]
            congr 1
            omega
    rw [hform] at h
    have := narrows_bridge hp0 (a - 1) (by intro e; apply hne; simp [e]) (by simp) (by simp) h
    simp only [List.length_singleton] at this
    rw [show a - 1 = 1 + (a - 1) - 1 by omega, show a + 1 = 1 + (a - 1) + 1 by omega]
    exact this
  have cross : ∀ i k x y, i < a → a < k → st[i]? = some x → st[k]? = some y → x = y := by
    intro i k x y hi hk hx hy
    have lk := (List.getElem?_eq_some_iff.1 hy).1
    have b := bridge (by omega) (by omega)
    have g := List.getElem?_eq_getElem (l := st) (i := a - 1) (by omega)
    have e1 := low i (a - 1) x _ (by omega) (by omega) hx g
    rw [b] at g
    have e2 := high (a + 1) k _ y (by omega) (by omega) g hy
    rw [e1, e2]
  intro i k x y hi hk hx hy
  have lx := (List.getElem?_eq_some_iff.1 hx).1
  have ly := (List.getElem?_eq_some_iff.1 hy).1
  rcases Nat.lt_or_gt_of_ne hi with hi' | hi' <;> rcases Nat.lt_or_gt_of_ne hk with hk' | hk'
  · exact low i k x y (by omega) (by omega) hx hy
  · exact cross i k x y hi' hk' hx hy
  · exact (cross k i y x hk' hi' hy hx).symm
  · exact high i k x y (by omega) (by omega) hx hy

end Ocr.Sync
