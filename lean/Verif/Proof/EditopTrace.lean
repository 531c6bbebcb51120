import Verif.Spec.EditopTrace
import Verif.Model.EditopDebug
import Verif.Proof.Editop
import Verif.Proof.Report

namespace Ocr.Edo
open Text Res

/-! ## Groups of blocks with consecutive numbers -/

theorem groups_cons (x : Nat × Int) (l : List (Nat × Int)) : groups (x :: l) = joinStep x (groups l) := rfl

theorem groups_head (x : Nat × Int) (l : List (Nat × Int)) : ∃ y r, groups (x :: l) = y :: r ∧ y.1 = x.1 := by
  rw [groups_cons]
  unfold joinStep
  split
  · exact ⟨_, _, rfl, rfl⟩
  · split
    · exact ⟨_, _, rfl, rfl⟩
    · exact ⟨_, _, rfl, rfl⟩

theorem joinStep_mem {x : Nat × Int} {g : List (Nat × Int)} {n : Nat} (h : n ∈ (joinStep x g).map Prod.fst) :
    n = x.1 ∨ n ∈ g.map Prod.fst := by
  unfold joinStep at h
  split at h
  · simpa using h
  · split at h
    · simp only [List.map_cons, List.mem_cons] at h ⊢
      rcases h with h | h
      · exact .inl h
      · exact .inr (.inr h)
    · simpa using h

theorem groups_mem {l : List (Nat × Int)} {n : Nat} (h : n ∈ (groups l).map Prod.fst) : n ∈ l.map Prod.fst := by
  induction l with
  | nil => simp [groups] at h
  | cons x l ih =>
    rw [groups_cons] at h
    rcases joinStep_mem h with rfl | h
    · simp
    · simpa using Or.inr (by simpa using ih h)

/-- The effect of `decrement_match` on a pair. -/
def decP (m : Nat) (b : Nat × Int) : Nat × Int := (dec m b.1, b.2)

theorem joinStep_dec {m : Nat} {x : Nat × Int} {g : List (Nat × Int)} (hx : x.1 ≠ m) (hx' : x.1 ≠ m + 1)
    (hg : ∀ y ∈ g.head?, y.1 ≠ m + 1) : joinStep (decP m x) (g.map (decP m)) = (joinStep x g).map (decP m) := by
  cases g with
  | nil => rfl
  | cons y r =>
    have hy := hg y rfl
    simp only [List.map_cons, joinStep]
    have hiff : (decP m y).1 = (decP m x).1 + 1 ↔ y.1 = x.1 + 1 := by
      unfold decP dec
      simp only
      split <;> split <;> omega
    by_cases h : y.1 = x.1 + 1
    · rw [if_pos h, if_pos (hiff.2 h)]; rfl
    · rw [if_neg h, if_neg (fun h' => h (hiff.1 h'))]; rfl

theorem groups_dec {m : Nat} : ∀ {l : List (Nat × Int)}, (∀ b ∈ l, b.1 ≠ m ∧ b.1 ≠ m + 1) →
    groups (l.map (decP m)) = (groups l).map (decP m) := by
  intro l
  induction l with
  | nil => intro _; rfl
  | cons x l ih =>
    intro h
    have hx := h x (by simp)
    rw [List.map_cons, groups_cons, groups_cons, ih (fun b hb => h b (by simp [hb]))]
    refine joinStep_dec hx.1 hx.2 ?_
    intro y hy
    cases l with
    | nil => simp [groups] at hy
    | cons z l =>
      obtain ⟨y', r, e, hy'⟩ := groups_head z l
      rw [e] at hy
      cases hy
      rw [hy']
      exact (h z (by simp)).2

/-- Joining two neighbours and renumbering. -/
theorem groups_merge {pre rest : List (Nat × Int)} {m : Nat} {a b : Int} (hpre : ∀ x ∈ pre, x.1 ≠ m ∧ x.1 ≠ m + 1)
    (hrest : ∀ x ∈ rest, x.1 ≠ m ∧ x.1 ≠ m + 1) :
    groups (pre.map (decP m) ++ (m, a + b) :: rest.map (decP m)) = (groups (pre ++ (m, a) :: (m + 1, b) :: rest)).map (decP m) ∧
      m + 1 ∉ (groups (pre ++ (m, a) :: (m + 1, b) :: rest)).map Prod.fst := by
  have hdm : dec m m = m := by unfold dec; split <;> omega
  induction pre with
  | nil =>
    simp only [List.map_nil, List.nil_append]
    rw [groups_cons, groups_cons, groups_cons, groups_dec hrest]
    cases hg : groups rest with
    | nil => simp [joinStep, decP, hdm]
    | cons y r =>
      have hmem : ∀ n ∈ (y :: r).map Prod.fst, n ≠ m ∧ n ≠ m + 1 := by
        intro n hn
        have := groups_mem (l := rest) (by rw [hg]; exact hn)
        obtain ⟨x, hx, rfl⟩ := List.mem_map.1 this
        exact hrest x hx
      have hy := hmem y.1 (by simp)
      have hr : m + 1 ∉ r.map Prod.fst := fun h => (hmem _ (by simpa using Or.inr (by simpa using h))).2 rfl
      have hiff : (decP m y).1 = m + 1 ↔ y.1 = m + 1 + 1 := by
        unfold decP dec
        simp only
        split <;> omega
      simp only [List.map_cons, joinStep]
      by_cases h : y.1 = m + 1 + 1
      · rw [if_pos (hiff.2 h), if_pos h]
        simp only [if_true]
        refine ⟨by simp [decP, hdm]; omega, ?_⟩
        simp only [List.map_cons, List.mem_cons, not_or]
        exact ⟨by omega, hr⟩
      · rw [if_neg (fun h' => h (hiff.1 h')), if_neg h]
        simp only [if_true]
        refine ⟨by simp [decP, hdm], ?_⟩
        simp only [List.map_cons, List.mem_cons, not_or]
        exact ⟨by omega, by omega, hr⟩
  | cons x pre ih =>
    have hx := hpre x (by simp)
    obtain ⟨i1, i2⟩ := ih (fun y hy => hpre y (by simp [hy]))
    simp only [List.map_cons, List.cons_append]
    rw [groups_cons, groups_cons, i1]
    refine ⟨joinStep_dec hx.1 hx.2 ?_, ?_⟩
    · intro y hy he
      apply i2
      cases hg : groups (pre ++ (m, a) :: (m + 1, b) :: rest) with
      | nil => rw [hg] at hy; simp at hy
      | cons y' r =>
        rw [hg] at hy
        cases hy
        simp [he]
    · intro h
      rcases joinStep_mem h with h | h
      · exact hx.2 h.symm
      · exact i2 h

theorem joined_merge {pre rest : List (Nat × Int)} {m : Nat} {a b : Int} (hpre : ∀ x ∈ pre, x.1 ≠ m ∧ x.1 ≠ m + 1)
    (hrest : ∀ x ∈ rest, x.1 ≠ m ∧ x.1 ≠ m + 1) :
    joined (pre.map (decP m) ++ (m, a + b) :: rest.map (decP m)) = joined (pre ++ (m, a) :: (m + 1, b) :: rest) := by
  obtain ⟨h1, h2⟩ := groups_merge (a := a) (b := b) hpre hrest
  unfold joined
  rw [h1, List.map_map]
  apply List.map_congr_left
  intro x hx
  have hx1 : x.1 ≠ m + 1 := fun h => h2 (by rw [← h]; exact List.mem_map.2 ⟨x, by rw [h]; exact hx, rfl⟩)
  simp only [Function.comp, List.countP_map]
  refine Prod.ext ?_ rfl
  simp only
  apply List.countP_congr
  intro y hy
  have hy1 : y.1 ≠ m + 1 := fun h => h2 (by rw [← h]; exact List.mem_map.2 ⟨y, by rw [h]; exact hy, rfl⟩)
  simp only [Function.comp, decide_eq_true_eq]
  unfold decP dec
  simp only
  split <;> split <;> omega

/-! ## Neighbours with consecutive numbers -/

/-- The number of neighbours with consecutive numbers. -/
def adj : List Nat → Nat
  | [] => 0
  | [_] => 0
  | a :: b :: l => (if b = a + 1 then 1 else 0) + adj (b :: l)

/-- Whether the last of `u` and the first of `v` are consecutive. -/
def joint (u v : List Nat) : Nat :=
  match u.getLast?, v.head? with
  | some a, some b => if b = a + 1 then 1 else 0
  | _, _ => 0

theorem adj_cons (a : Nat) (l : List Nat) : adj (a :: l) = joint [a] l + adj l := by
  cases l with
  | nil => rfl
  | cons b l => rfl

theorem adj_append (u v : List Nat) : adj (u ++ v) = adj u + joint u v + adj v := by
  induction u with
  | nil => simp [joint, adj]
  | cons a u ih =>
    rw [List.cons_append, adj_cons, ih, adj_cons a u]
    cases u with
    | nil => simp [joint, adj]
    | cons b u =>
      have : joint (a :: b :: u) v = joint (b :: u) v := by
        unfold joint; rw [List.getLast?_cons_cons]
      rw [this]
      simp only [joint, List.getLast?_singleton, List.cons_append, List.head?_cons]
      omega

theorem groups_length (l : List (Nat × Int)) : (groups l).length + adj (l.map Prod.fst) = l.length := by
  induction l with
  | nil => rfl
  | cons x l ih =>
    cases l with
    | nil => rfl
    | cons z l =>
      obtain ⟨y, r, e, hy⟩ := groups_head z l
      rw [groups_cons, e]
      rw [e] at ih
      simp only [joinStep, List.map_cons, adj, List.length_cons] at ih ⊢
      by_cases h : z.1 = x.1 + 1
      · rw [if_pos (by omega), if_pos h]
        simp only [List.length_cons]
        omega
      · rw [if_neg (by omega), if_neg h]
        simp only [List.length_cons]
        omega

theorem joined_length (l : List (Nat × Int)) : (joined l).length + adj (l.map Prod.fst) = l.length := by
  rw [← groups_length l]; simp [joined]

theorem groups_self {l : List (Nat × Int)} (h : adj (l.map Prod.fst) = 0) : groups l = l := by
  induction l with
  | nil => rfl
  | cons x l ih =>
    rw [List.map_cons, adj_cons] at h
    rw [groups_cons, ih (by omega)]
    cases l with
    | nil => rfl
    | cons y l =>
      have h' : joint [x.1] (List.map Prod.fst (y :: l)) = 0 := by omega
      simp only [joint, List.getLast?_singleton, List.map_cons, List.head?_cons] at h'
      unfold joinStep
      simp only
      rw [if_neg]
      intro he
      rw [if_pos he] at h'
      omega

theorem countP_range (n b : Nat) (hb : b ≤ n) : (List.range' 1 n).countP (fun c => c ≤ b) = b := by
  obtain ⟨k, rfl⟩ := Nat.exists_eq_add_of_le hb
  rw [← List.range'_append_1, List.countP_append]
  have h1 : (List.range' 1 b).countP (fun c => c ≤ b) = (List.range' 1 b).length := by
    rw [List.countP_eq_length]
    intro a ha
    rw [List.mem_range'_1] at ha
    simp; omega
  have h2 : (List.range' (1 + b) k).countP (fun c => c ≤ b) = 0 := by
    rw [List.countP_eq_zero]
    intro a ha
    rw [List.mem_range'_1] at ha
    simp; omega
  rw [h1, h2]; simp

theorem joined_self {l : List (Nat × Int)} (h : adj (l.map Prod.fst) = 0)
    (hp : (l.map Prod.fst).Perm (List.range' 1 l.length)) : joined l = l := by
  unfold joined
  rw [groups_self h]
  conv => rhs; rw [← List.map_id l]
  apply List.map_congr_left
  intro b hb
  refine Prod.ext ?_ rfl
  simp only [id]
  have : l.countP (fun c => decide (c.1 ≤ b.1)) = (l.map Prod.fst).countP (fun c => c ≤ b.1) := by
    rw [List.countP_map]; rfl
  rw [this, hp.countP_eq]
  apply countP_range
  have := hp.mem_iff.1 (List.mem_map_of_mem hb)
  rw [List.mem_range'_1] at this
  omega

/-! ## `combine_adjacent` -/

/-- The numbers of some blocks. -/
def nums (C : List Block) : List Nat := C.map (·.mtch)

theorem pair_fst (C : List Block) : (C.map Block.pair).map Prod.fst = nums C := by
  simp [nums, Block.pair, Function.comp_def]

theorem decrement_pair (m : Nat) (l : List Block) : (decrement_match m l).map Block.pair = (l.map Block.pair).map (decP m) := by
  simp only [decrement_match, List.map_map]
  apply List.map_congr_left
  intro b _
  show Block.pair (if b.mtch > m then { b with mtch := b.mtch - 1 } else b) = (if b.mtch > m then b.mtch - 1 else b.mtch, b.length)
  by_cases h : b.mtch > m
  · rw [if_pos h, if_pos h]; rfl
  · rw [if_neg h, if_neg h]; rfl

theorem adj_dec {m : Nat} : ∀ {P : List Nat}, (∀ a ∈ P, a ≠ m ∧ a ≠ m + 1) → adj (P.map (dec m) ++ [m]) = adj (P ++ [m]) := by
  have hdm : dec m m = m := by unfold dec; split <;> omega
  intro P
  induction P with
  | nil => intro _; rfl
  | cons a P ih =>
    intro h
    have ha := h a (by simp)
    rw [List.map_cons, List.cons_append, List.cons_append, adj_cons, adj_cons, ih (fun x hx => h x (by simp [hx]))]
    congr 1
    cases P with
    | nil =>
      simp only [joint, List.getLast?_singleton, List.map_nil, List.nil_append, List.head?_cons]
      have : m = dec m a + 1 ↔ m = a + 1 := by unfold dec; split <;> omega
      simp [this]
    | cons b P =>
      have hb := h b (by simp)
      simp only [joint, List.getLast?_singleton, List.map_cons, List.cons_append, List.head?_cons]
      have : dec m b = dec m a + 1 ↔ b = a + 1 := by unfold dec; split <;> split <;> omega
      simp [this]

theorem combineLoop_joined : ∀ (fuel : Nat) (pre : List Block) (cur : Block) (rest : List Block) (B), rest.length ≤ fuel →
    Inv (pre ++ cur :: rest) B → adj (nums (pre ++ [cur])) = 0 → ∃ C', combineLoop fuel pre cur rest = .ok C' ∧
      joined (C'.map Block.pair) = joined ((pre ++ cur :: rest).map Block.pair) ∧ adj (nums C') = 0 := by
  intro fuel
  induction fuel with
  | zero =>
    intro pre cur rest B hf h h0
    have : rest = [] := List.length_eq_zero_iff.1 (by omega)
    subst this
    exact ⟨pre ++ [cur], by rw [combineLoop], rfl, h0⟩
  | succ fuel ih =>
    intro pre cur rest B hf h h0
    cases rest with
    | nil => exact ⟨pre ++ [cur], by rw [combineLoop], rfl, h0⟩
    | cons next rest =>
      rw [combineLoop]
      by_cases hm : next.mtch = cur.mtch + 1
      · rw [if_pos hm]
        have hnd := h.nodup
        simp only [List.map_append, List.map_cons, List.nodup_append, List.nodup_cons, List.mem_cons, not_or] at hnd
        obtain ⟨n1, ⟨⟨n2, n3⟩, n4, n5⟩, n6⟩ := hnd
        have hpre : ∀ x ∈ pre, x.mtch ≠ cur.mtch ∧ x.mtch ≠ cur.mtch + 1 := by
          intro x hx
          have hx := List.mem_map_of_mem (f := (·.mtch)) hx
          exact ⟨n6 _ hx _ (.inl rfl), by rw [← hm]; exact n6 _ hx _ (.inr (.inl rfl))⟩
        have hrest : ∀ x ∈ rest, x.mtch ≠ cur.mtch ∧ x.mtch ≠ cur.mtch + 1 := by
          intro x hx
          have hx := List.mem_map_of_mem (f := (·.mtch)) hx
          exact ⟨fun he => n3 (he ▸ hx), fun he => n4 (by rw [hm, ← he]; exact hx)⟩
        obtain ⟨B1, h1, h2, h3⟩ := combine_step h hm
        obtain ⟨C', e, i1, i2⟩ := ih _ _ _ B1 (by rw [decrement_length]; simp at hf; omega) h1 (by
          unfold nums at h0 ⊢
          rw [List.map_append] at h0 ⊢
          rw [decrement_mtch]
          simp only [List.map_cons, List.map_nil] at h0 ⊢
          rw [adj_dec, h0]
          intro a ha
          obtain ⟨x, hx, rfl⟩ := List.mem_map.1 ha
          exact hpre x hx)
        refine ⟨C', e, ?_, i2⟩
        rw [i1]
        simp only [List.map_append, List.map_cons, decrement_pair]
        have := joined_merge (pre := pre.map Block.pair) (rest := rest.map Block.pair) (m := cur.mtch) (a := cur.length)
          (b := next.length) (by
            intro x hx
            obtain ⟨y, hy, rfl⟩ := List.mem_map.1 hx
            exact hpre y hy) (by
            intro x hx
            obtain ⟨y, hy, rfl⟩ := List.mem_map.1 hx
            exact hrest y hy)
        rw [← hm] at this
        exact this
      · rw [if_neg hm]
        have e : pre ++ cur :: next :: rest = (pre ++ [cur]) ++ next :: rest := by simp
        rw [e] at h ⊢
        refine ih _ _ _ B (by simp at hf; omega) h ?_
        unfold nums at h0 ⊢
        rw [List.map_append, adj_append, h0]
        simp [joint, adj, hm]

theorem combine_joined {C : List Block} {B} (h : Inv C B) : ∃ C' B', combine_adjacent C = .ok C' ∧ Inv C' B' ∧
    C'.map Block.pair = joined (C.map Block.pair) ∧ adj (nums C') = 0 ∧ C'.length ≤ C.length ∧ (Adj C → C'.length < C.length) := by
  obtain ⟨C', B', e, i, _, _, l, s, _⟩ := combine_spec C B h
  refine ⟨C', B', e, i, ?_⟩
  have key : joined (C'.map Block.pair) = joined (C.map Block.pair) ∧ adj (nums C') = 0 := by
    cases C with
    | nil => cases e; exact ⟨rfl, rfl⟩
    | cons cur rest =>
      obtain ⟨C'', e', h1, h2⟩ := combineLoop_joined rest.length [] cur rest B (Nat.le_refl _) h rfl
      rw [combine_adjacent, e'] at e
      cases e
      exact ⟨h1, h2⟩
  refine ⟨?_, key.2, l, s⟩
  rw [← key.1, joined_self]
  · rw [pair_fst]; exact key.2
  · rw [pair_fst, List.length_map, i.length]; exact i.perm

/-! ## Candidates -/

/-- editop.c:150-151 marks `j`. -/
def firstIns (a : Nat) (l : List Nat) (j : Nat) : Bool :=
  match l with
  | b :: _ => decide (b = a + 2 ∧ j = a + 1)
  | [] => false

/-- editop.c:152-154 marks `j`. -/
def firstDel (a : Nat) (l : List Nat) (j : Nat) : Bool :=
  match l with
  | b :: c :: _ => decide (c = a + 1 ∧ j = b)
  | _ => false

/-- `j` is marked as a candidate for insertion. -/
def insB : List Nat → Nat → Bool
  | [], _ => false
  | a :: l, j => firstIns a l j || insB l j

/-- `j` is marked as a candidate for deletion. -/
def delB : List Nat → Nat → Bool
  | [], _ => false
  | a :: l, j => firstDel a l j || delB l j

theorem flagInsertion_exact (sync : Block) (l : List Block) (cand : List Candidate) (hr : ∀ b ∈ l, b.mtch < cand.length) :
    ∃ c1, flagInsertion sync l cand = .ok c1 ∧ c1.length = cand.length ∧
      ∀ j : Nat, c1[j]? = (cand[j]?).map (fun c => { c with for_insertion := c.for_insertion || firstIns sync.mtch (nums l) j }) := by
  cases l with
  | nil => exact ⟨cand, rfl, rfl, fun j => by simp [nums, firstIns]⟩
  | cons next l =>
    unfold flagInsertion
    simp only
    split
    · rename_i hm
      have hn := hr next (by simp)
      have hi : sync.mtch + 1 < cand.length := by omega
      refine ⟨cand.set (sync.mtch + 1) { cand[sync.mtch + 1] with for_insertion := true }, ?_, by simp, ?_⟩
      · rw [rd_ok hi, bind_ok, wr_ok hi]
      · intro j
        rw [List.getElem?_set]
        by_cases hj : sync.mtch + 1 = j
        · subst hj
          simp [nums, firstIns, hi, hm]
        · rw [if_neg hj]
          have : j ≠ sync.mtch + 1 := fun h => hj h.symm
          simp [nums, firstIns, this]
    · rename_i hm
      exact ⟨cand, rfl, rfl, fun j => by simp [nums, firstIns, hm]⟩

theorem flagDeletion_exact (sync : Block) (l : List Block) (cand : List Candidate) (hr : ∀ b ∈ l, b.mtch < cand.length) :
    ∃ c1, flagDeletion sync l cand = .ok c1 ∧ c1.length = cand.length ∧
      ∀ j : Nat, c1[j]? = (cand[j]?).map (fun c => { c with for_deletion := c.for_deletion || firstDel sync.mtch (nums l) j }) := by
  rcases l with _ | ⟨next, _ | ⟨next2, l⟩⟩
  · exact ⟨cand, rfl, rfl, fun j => by simp [nums, firstDel]⟩
  · exact ⟨cand, rfl, rfl, fun j => by simp [nums, firstDel]⟩
  · unfold flagDeletion
    simp only
    split
    · rename_i hm
      have hi := hr next (by simp)
      refine ⟨cand.set next.mtch { cand[next.mtch] with for_deletion := true }, ?_, by simp, ?_⟩
      · rw [rd_ok hi, bind_ok, wr_ok hi]
      · intro j
        rw [List.getElem?_set]
        by_cases hj : next.mtch = j
        · subst hj
          simp [nums, firstDel, hi, hm]
        · rw [if_neg hj]
          have : j ≠ next.mtch := fun h => hj h.symm
          simp [nums, firstDel, this]
    · rename_i hm
      exact ⟨cand, rfl, rfl, fun j => by simp [nums, firstDel, hm]⟩

theorem candidateLoop_exact : ∀ (l : List Block) (cand : List Candidate), (∀ b ∈ l, b.mtch < cand.length) →
    ∃ cand', candidateLoop l cand = .ok cand' ∧ cand'.length = cand.length ∧
      ∀ j : Nat, (cand'[j]?).map (fun c => (c.for_insertion, c.for_deletion)) =
        (cand[j]?).map (fun c => (c.for_insertion || insB (nums l) j, c.for_deletion || delB (nums l) j)) := by
  intro l
  induction l with
  | nil => intro cand _; exact ⟨cand, rfl, rfl, fun j => by simp [nums, insB, delB]⟩
  | cons sync l ih =>
    intro cand hr
    have hs := hr sync (by simp)
    obtain ⟨c1, e1, l1, s1⟩ := flagInsertion_exact sync l cand (fun b hb => hr b (by simp [hb]))
    obtain ⟨c2, e2, l2, s2⟩ := flagDeletion_exact sync l c1 (fun b hb => by rw [l1]; exact hr b (by simp [hb]))
    rw [candidateLoop, e1, bind_ok, e2, bind_ok]
    have hi : sync.mtch < c2.length := by omega
    rw [rd_ok hi, bind_ok, wr_ok hi, bind_ok]
    obtain ⟨c3, e3, l3, m3⟩ := ih (c2.set sync.mtch { c2[sync.mtch] with sync := some sync.id })
      (by intro b hb; have := hr b (by simp [hb]); rw [List.length_set]; omega)
    refine ⟨c3, e3, by rw [l3, List.length_set]; omega, ?_⟩
    intro j
    have hset : ((c2.set sync.mtch { c2[sync.mtch] with sync := some sync.id })[j]?).map
        (fun c => (c.for_insertion || insB (nums l) j, c.for_deletion || delB (nums l) j)) =
        (c2[j]?).map (fun c => (c.for_insertion || insB (nums l) j, c.for_deletion || delB (nums l) j)) := by
      rw [List.getElem?_set]
      by_cases hj : sync.mtch = j
      · subst hj; simp [hi]
      · rw [if_neg hj]
    rw [m3, hset, s2, s1]
    cases cand[j]? with
    | none => rfl
    | some c => simp [nums, insB, delB, Bool.or_assoc]

/-- The table of candidates as it should be. -/
def Exact (C : List Block) (cand : List Candidate) : Prop :=
  cand.length = C.length + 1 ∧ ∀ b ∈ C, ∃ e, rd cand b.mtch = .ok e ∧ e.sync = some b.id ∧
    e.for_insertion = insB (nums C) b.mtch ∧ e.for_deletion = delB (nums C) b.mtch

theorem find_candidates_exact {C B} (h : Inv C B) : ∃ cand, find_candidates C = .ok cand ∧ Points C cand ∧ Exact C cand := by
  obtain ⟨cand, e, hp⟩ := find_candidates_spec h
  obtain ⟨cand', e', _, f⟩ := candidateLoop_exact C (List.replicate (C.length + 1) ⟨false, false, none⟩)
    (by intro b hb; have := h.range hb; have := h.length; simp; omega)
  unfold find_candidates at e
  rw [e'] at e
  obtain rfl : cand' = cand := by cases e; rfl
  refine ⟨cand', e', hp, hp.1, ?_⟩
  intro b hb
  obtain ⟨x, h1, h2⟩ := hp.2 b hb
  refine ⟨x, h1, h2, ?_⟩
  have hj := f b.mtch
  have hx : cand'[b.mtch]? = some x := by
    unfold rd at h1
    split at h1
    · rename_i hx; cases h1; exact hx
    · cases h1
  have hlt : b.mtch < C.length + 1 := by have := h.range hb; have := h.length; omega
  rw [hx, List.getElem?_replicate, if_pos hlt] at hj
  simpa using hj

/-! ## The number of blocks that a move saves -/

/-- `reduction` of editop.c:168-172. -/
def redu (L : List Nat) (s : Nat) : Nat := 1 + (if insB L s = true then 1 else 0) + (if delB L s = true then 1 else 0)

theorem insB_iff (L : List Nat) (j : Nat) : insB L j = true ↔ ∃ u a v, L = u ++ a :: (a + 2) :: v ∧ j = a + 1 := by
  induction L with
  | nil => simp [insB]
  | cons x L ih =>
    rw [insB, Bool.or_eq_true, ih]
    constructor
    · rintro (h | ⟨u, a, v, rfl, rfl⟩)
      · unfold firstIns at h
        split at h
        · rename_i b l
          simp only [decide_eq_true_eq] at h
          obtain ⟨rfl, rfl⟩ := h
          exact ⟨[], x, l, rfl, rfl⟩
        · simp at h
      · exact ⟨x :: u, a, v, rfl, rfl⟩
    · rintro ⟨u, a, v, h, rfl⟩
      cases u with
      | nil =>
        simp only [List.nil_append, List.cons.injEq] at h
        obtain ⟨rfl, rfl⟩ := h
        exact .inl (by simp [firstIns])
      | cons y u =>
        simp only [List.cons_append, List.cons.injEq] at h
        exact .inr ⟨u, a, v, h.2, rfl⟩

theorem delB_mem {L : List Nat} {j : Nat} (h : delB L j = true) : j ∈ L := by
  induction L with
  | nil => simp [delB] at h
  | cons x L ih =>
    rw [delB, Bool.or_eq_true] at h
    rcases h with h | h
    · unfold firstDel at h
      split at h
      · simp only [decide_eq_true_eq] at h
        simp [h.2]
      · simp at h
    · simp [ih h]

theorem joint_le (u v : List Nat) : joint u v ≤ 1 := by
  unfold joint
  split
  · split <;> omega
  · omega

theorem delB_joint {p q : List Nat} {s : Nat} (hn : (p ++ s :: q).Nodup) :
    (if delB (p ++ s :: q) s = true then 1 else 0) = joint p q := by
  have base : ∀ q : List Nat, s ∉ q → delB (s :: q) s = false := by
    intro q hq
    rw [delB, Bool.or_eq_false_iff]
    constructor
    · unfold firstDel
      split
      · rename_i b c l
        rw [decide_eq_false_iff_not]
        rintro ⟨_, rfl⟩
        simp at hq
      · rfl
    · by_contra h
      exact hq (delB_mem (by simpa using h))
  induction p with
  | nil =>
    rw [List.nil_append, List.nodup_cons] at hn
    rw [List.nil_append, base q hn.1]
    simp [joint]
  | cons x p ih =>
    rw [List.cons_append, List.nodup_cons] at hn
    have ih := ih hn.2
    cases p with
    | nil =>
      simp only [List.nil_append, List.nodup_cons] at hn
      rw [List.cons_append, List.nil_append, delB, base q hn.2.1, Bool.or_false]
      cases q with
      | nil => simp [firstDel, joint]
      | cons c q => simp [firstDel, joint]
    | cons y p =>
      have hj : joint (x :: y :: p) q = joint (y :: p) q := by
        unfold joint; rw [List.getLast?_cons_cons]
      rw [hj, ← ih, List.cons_append, delB]
      have : firstDel x (y :: p ++ s :: q) s = false := by
        have hsy : s ≠ y := by
          have := hn.2
          rw [List.cons_append, List.nodup_cons] at this
          intro he
          exact this.1 (by simp [he])
        unfold firstDel
        split
        · rename_i b c l he
          rw [List.cons_append, List.cons.injEq] at he
          obtain ⟨rfl, _⟩ := he
          simp [hsy]
        · rfl
      rw [this, Bool.false_or]

theorem adj_parts {p q : List Nat} {s : Nat} (h0 : adj (p ++ s :: q) = 0) : adj (p ++ q) = joint p q := by
  rw [adj_append, adj_cons] at h0
  rw [adj_append]
  omega

theorem adj_insert (u v : List Nat) (s : Nat) : adj (u ++ s :: v) + joint u v = adj (u ++ v) + joint u [s] + joint [s] v := by
  have : joint u (s :: v) = joint u [s] := by unfold joint; rfl
  rw [adj_append, adj_append, adj_cons, this]
  omega

theorem joint_last {u : List Nat} {s : Nat} (h : joint u [s] ≠ 0) : ∃ u' a, u = u' ++ [a] ∧ s = a + 1 := by
  rcases List.eq_nil_or_concat u with rfl | ⟨u', a, rfl⟩
  · simp [joint] at h
  · refine ⟨u', a, by simp, ?_⟩
    unfold joint at h
    simp only [List.concat_eq_append, List.getLast?_append, List.getLast?_singleton, List.head?_cons, Option.some_or] at h
    by_contra hne
    rw [if_neg hne] at h
    exact h rfl

theorem joint_first {v : List Nat} {s : Nat} (h : joint [s] v ≠ 0) : ∃ v', v = (s + 1) :: v' := by
  cases v with
  | nil => simp [joint] at h
  | cons b v =>
    refine ⟨v, ?_⟩
    unfold joint at h
    simp only [List.getLast?_singleton, List.head?_cons] at h
    by_contra hne
    rw [if_neg (fun he => hne (by rw [he]))] at h
    exact h rfl

/-- Neighbours after taking out `s` that would be next to it in the correct order are candidates for insertion. -/
theorem ins_of_pair {p q u v : List Nat} {a : Nat} (h0 : adj (p ++ (a + 1) :: q) = 0)
    (huv : p ++ q = (u ++ [a]) ++ (a + 2) :: v) : insB (p ++ (a + 1) :: q) (a + 1) = true := by
  rw [insB_iff]
  have hstr : ∀ p' q', p = p' ++ [a] → q = q' → False := by
    rintro p' q' rfl rfl
    rw [adj_append] at h0
    have : joint (p' ++ [a]) ((a + 1) :: q) = 1 := by simp [joint]
    omega
  rcases List.append_eq_append_iff.1 huv with ⟨w, h1, h2⟩ | ⟨w, h1, h2⟩
  · rcases List.eq_nil_or_concat w with rfl | ⟨w', x, rfl⟩
    · exact (hstr u q (by simpa using h1.symm) rfl).elim
    · rw [List.concat_eq_append, ← List.append_assoc] at h1
      have := List.append_inj' h1 rfl
      simp only [List.cons.injEq, and_true] at this
      obtain ⟨_, rfl⟩ := this
      refine ⟨p ++ (a + 1) :: w', a, v, ?_, rfl⟩
      rw [h2]; simp
  · cases w with
    | nil => exact (hstr u q (by simpa using h1) rfl).elim
    | cons x w =>
      rw [List.cons_append, List.cons.injEq] at h2
      obtain ⟨rfl, rfl⟩ := h2
      exact ⟨u, a, w ++ (a + 1) :: q, by rw [h1]; simp, rfl⟩

theorem adj_move_le {p q u v : List Nat} {s : Nat} (hn : (p ++ s :: q).Nodup) (h0 : adj (p ++ s :: q) = 0) (huv : p ++ q = u ++ v) :
    adj (u ++ s :: v) ≤ redu (p ++ s :: q) s := by
  have e := adj_insert u v s
  rw [← huv, adj_parts h0] at e
  unfold redu
  rw [delB_joint hn]
  by_cases h1 : joint u [s] ≠ 0
  · by_cases h2 : joint [s] v ≠ 0
    · obtain ⟨u', a, rfl, rfl⟩ := joint_last h1
      obtain ⟨v', rfl⟩ := joint_first h2
      rw [if_pos (ins_of_pair h0 huv)]
      have := joint_le (u' ++ [a]) [a + 1]
      have := joint_le [a + 1] ((a + 1 + 1) :: v')
      omega
    · have := joint_le u [s]
      omega
  · have := joint_le [s] v
    omega

theorem append_cons_inj {α} {a : α} {x y x' y' : List α} (h : x ++ a :: y = x' ++ a :: y') (h1 : a ∉ x) (h2 : a ∉ x') :
    x = x' ∧ y = y' := by
  induction x generalizing x' with
  | nil =>
    cases x' with
    | nil => simpa using h
    | cons b x' => simp at h; exact absurd h.1 (fun he => h2 (by simp [he]))
  | cons c x ih =>
    cases x' with
    | nil => simp at h; exact absurd h.1 (fun he => h1 (by simp [he]))
    | cons b x' =>
      simp only [List.cons_append, List.cons.injEq] at h
      obtain ⟨i1, i2⟩ := ih h.2 (fun hm => h1 (by simp [hm])) (fun hm => h2 (by simp [hm]))
      exact ⟨by rw [h.1, i1], i2⟩

theorem adj_move_after {p q u v : List Nat} {a : Nat} (hn : (p ++ (a + 1) :: q).Nodup) (h0 : adj (p ++ (a + 1) :: q) = 0)
    (huv : p ++ q = (u ++ [a]) ++ v) : adj ((u ++ [a]) ++ (a + 1) :: v) = redu (p ++ (a + 1) :: q) (a + 1) := by
  have e := adj_insert (u ++ [a]) v (a + 1)
  rw [← huv, adj_parts h0] at e
  have hpq : (p ++ q).Nodup := hn.sublist (List.Sublist.append (List.Sublist.refl p) (List.sublist_cons_self _ q))
  have hs : a + 1 ∉ p ++ q := by
    have := List.nodup_middle.1 hn
    rw [List.nodup_cons] at this
    exact this.1
  have hau : a ∉ u := by
    rw [huv, List.append_assoc, List.nodup_append] at hpq
    intro hm
    exact hpq.2.2 a hm a (by simp) rfl
  have hl : joint (u ++ [a]) [a + 1] = 1 := by simp [joint]
  have hz : joint (u ++ [a]) v = 0 := by
    cases v with
    | nil => simp [joint]
    | cons b v =>
      have : b ≠ a + 1 := by
        rintro rfl
        exact hs (by rw [huv]; simp)
      simp [joint, this]
  unfold redu
  rw [delB_joint hn]
  by_cases h2 : joint [a + 1] v ≠ 0
  · obtain ⟨v', rfl⟩ := joint_first h2
    rw [if_pos (ins_of_pair h0 huv)]
    have := joint_le [a + 1] ((a + 1 + 1) :: v')
    omega
  · rw [if_neg]
    · omega
    · intro hi
      obtain ⟨u0, a', v0, h, ha⟩ := (insB_iff _ _).1 hi
      obtain rfl : a = a' := by omega
      apply h2
      have hv : ∃ v1, v = (a + 2) :: v1 := by
        have key : ∃ u1 v1, p ++ q = u1 ++ a :: (a + 2) :: v1 := by
          rcases List.append_eq_append_iff.1 h with ⟨w, h3, h4⟩ | ⟨w, h3, h4⟩
          · cases w with
            | nil => simp at h4
            | cons x w =>
              simp only [List.cons_append, List.cons.injEq] at h4
              exact ⟨p ++ w, v0, by rw [h4.2]; simp⟩
          · cases w with
            | nil => simp at h4
            | cons x w =>
              simp only [List.cons_append, List.cons.injEq] at h4
              obtain ⟨rfl, h4⟩ := h4
              cases w with
              | nil => simp at h4
              | cons y w =>
                simp only [List.cons_append, List.cons.injEq] at h4
                obtain ⟨rfl, h4⟩ := h4
                exact ⟨u0, w ++ q, by rw [h3]; simp⟩
        obtain ⟨u1, v1, h1⟩ := key
        have hu1 : a ∉ u1 := by
          rw [h1, List.nodup_append] at hpq
          intro hm
          exact hpq.2.2 a hm a (by simp) rfl
        rw [huv, List.append_assoc] at h1
        obtain ⟨_, h5⟩ := append_cons_inj h1 hau hu1
        exact ⟨v1, h5⟩
      obtain ⟨v1, rfl⟩ := hv
      simp [joint]

theorem adj_move_first {p q u v : List Nat} (hn : (p ++ 1 :: q).Nodup) (h0 : adj (p ++ 1 :: q) = 0) (hz : 0 ∉ p ++ 1 :: q)
    (huv : p ++ q = u ++ 2 :: v) : adj (u ++ 1 :: 2 :: v) = redu (p ++ 1 :: q) 1 := by
  have e := adj_insert u (2 :: v) 1
  rw [← huv, adj_parts h0] at e
  have hs : 1 ∉ p ++ q := by
    have := List.nodup_middle.1 hn
    rw [List.nodup_cons] at this
    exact this.1
  have h1 : joint u [1] = 0 := by
    by_contra h
    obtain ⟨u', a, rfl, ha⟩ := joint_last h
    obtain rfl : a = 0 := by omega
    have : 0 ∈ p ++ q := by rw [huv]; simp
    exact hz (by simp at this ⊢; exact this)
  have h2 : joint u (2 :: v) = 0 := by
    by_contra h
    have h' : joint u [2] ≠ 0 := h
    obtain ⟨u', a, rfl, ha⟩ := joint_last h'
    obtain rfl : a = 1 := by omega
    exact hs (by rw [huv]; simp)
  have h3 : joint [1] (2 :: v) = 1 := by simp [joint]
  unfold redu
  rw [delB_joint hn, if_neg]
  · omega
  · intro hi
    obtain ⟨u0, a, v0, h, ha⟩ := (insB_iff _ _).1 hi
    obtain rfl : a = 0 := by omega
    exact hz (by rw [h]; simp)

/-! ## Choosing the move -/

/-- Block `b` is not to be moved rather than `s`. -/
def NotBetter (C : List Block) (s b : Block) : Prop :=
  redu (nums C) b.mtch < redu (nums C) s.mtch ∨
    redu (nums C) b.mtch = redu (nums C) s.mtch ∧ (s.length < b.length ∨ s.length = b.length ∧ s.mtch ≤ b.mtch)

theorem NotBetter.refl (C : List Block) (s : Block) : NotBetter C s s := .inr ⟨rfl, .inr ⟨rfl, Nat.le_refl _⟩⟩

theorem mtch_inj {C : List Block} (h : (nums C).Nodup) {x y : Block} (hx : x ∈ C) (hy : y ∈ C) (he : x.mtch = y.mtch) : x = y :=
  List.inj_on_of_nodup_map h hx hy he

theorem moveChoice_best {C B cand} (h : Inv C B) (hp : Exact C cand) : ∀ (n i : Nat) (move : Option (Nat × Int × Nat)),
    1 ≤ i → i + n = C.length + 1 → (move = none → i = 1 ∧ n ≠ 0) →
    (∀ m ∈ move, ∃ s ∈ C, m = (s.mtch, s.length, redu (nums C) s.mtch) ∧ s.mtch < i ∧ ∀ b ∈ C, b.mtch < i → NotBetter C s b) →
    ∃ s ∈ C, moveChoice C cand n i move = .ok (some (s.mtch, s.length, redu (nums C) s.mtch)) ∧ ∀ b ∈ C, NotBetter C s b := by
  intro n
  induction n with
  | zero =>
    intro i move _ hi hn hm
    cases move with
    | none => exact absurd rfl (hn rfl).2
    | some m =>
      obtain ⟨s, hs, rfl, _, hb⟩ := hm m rfl
      refine ⟨s, hs, rfl, ?_⟩
      intro b hbC
      have := h.range hbC
      have := h.length
      exact hb b hbC (by omega)
  | succ n ih =>
    intro i move h1 h2 hn hm
    obtain ⟨b, hb, hbi⟩ := h.exists h1 (by rw [← h.length]; omega)
    obtain ⟨e, he1, he2, he3, he4⟩ := hp.2 b hb
    have hd := deref_eq h.ids hb
    rw [hbi] at he1
    rw [moveChoice, he1, bind_ok, he2]
    simp only
    rw [show 1 + (if e.for_insertion = true then 1 else 0) + (if e.for_deletion = true then 1 else 0) = redu (nums C) b.mtch by
      unfold redu; rw [he3, he4]]
    have hlast : ∀ x ∈ C, x.mtch < i + 1 → x = b ∨ x.mtch < i := by
      intro x hx hlt
      by_cases hxi : x.mtch = i
      · exact .inl (mtch_inj h.nodup hx hb (by omega))
      · exact .inr (by omega)
    have take : (∀ x ∈ C, x.mtch < i → NotBetter C b x) →
        ∃ s ∈ C, moveChoice C cand n (i + 1) (some (i, b.length, redu (nums C) b.mtch)) =
          .ok (some (s.mtch, s.length, redu (nums C) s.mtch)) ∧ ∀ b ∈ C, NotBetter C s b := by
      intro hall
      refine ih (i + 1) _ (by omega) (by omega) (by simp) ?_
      intro m hm
      cases hm
      refine ⟨b, hb, by rw [hbi], by omega, ?_⟩
      intro x hx hlt
      rcases hlast x hx hlt with rfl | hlt
      · exact .refl C x
      · exact hall x hx hlt
    cases move with
    | none =>
      simp only
      rw [hd, bind_ok]
      refine take ?_
      intro x hx hlt
      have := (hn rfl).1
      have := h.range hx
      omega
    | some m =>
      obtain ⟨s, hs, rfl, hsi, hbest⟩ := hm _ rfl
      have keep : NotBetter C s b → ∃ s' ∈ C, moveChoice C cand n (i + 1) (some (s.mtch, s.length, redu (nums C) s.mtch)) =
          .ok (some (s'.mtch, s'.length, redu (nums C) s'.mtch)) ∧ ∀ b ∈ C, NotBetter C s' b := by
        intro hsb
        refine ih (i + 1) _ (by omega) (by omega) (by simp) ?_
        intro m hm
        cases hm
        refine ⟨s, hs, rfl, by omega, ?_⟩
        intro x hx hlt
        rcases hlast x hx hlt with rfl | hlt
        · exact hsb
        · exact hbest x hx hlt
      simp only
      split
      · rename_i hgt
        rw [hd, bind_ok]
        refine take ?_
        intro x hx hlt
        have := hbest x hx hlt
        unfold NotBetter at this ⊢
        omega
      · rename_i hgt
        split
        · rename_i heq
          rw [hd, bind_ok]
          split
          · rename_i hlen
            refine take ?_
            intro x hx hlt
            have := hbest x hx hlt
            unfold NotBetter at this ⊢
            omega
          · rename_i hlen
            refine keep ?_
            unfold NotBetter
            omega
        · rename_i hne
          refine keep ?_
          unfold NotBetter
          omega

theorem find_move_best {C B cand} (h : Inv C B) (hp : Exact C cand) (hC : C ≠ []) :
    ∃ s ∈ C, find_move C cand = .ok s ∧ ∀ b ∈ C, NotBetter C s b := by
  have hl : 0 < C.length := List.length_pos_iff.2 hC
  obtain ⟨s, hs, e, hb⟩ := moveChoice_best h hp C.length 1 none (by omega) (by omega) (fun _ => ⟨rfl, by omega⟩) (by simp)
  obtain ⟨x, he1, he2, _⟩ := hp.2 s hs
  refine ⟨s, hs, ?_, hb⟩
  unfold find_move
  rw [e, bind_ok]
  simp only
  rw [he1, bind_ok, he2]
  exact deref_eq h.ids hs

/-! ## Performing it -/

theorem nums_moved {C : List Block} {b : Nat × Int} {M : List (Nat × Int)} (h : Moved (C.map Block.pair) b M) :
    ∃ s ∈ C, s.pair = b ∧ ∃ p q u v, nums C = p ++ s.mtch :: q ∧ p ++ q = u ++ v ∧ M.map Prod.fst = u ++ s.mtch :: v ∧
      M.length = C.length := by
  obtain ⟨p, q, u, v, h1, h2, rfl⟩ := h
  have hb : b ∈ C.map Block.pair := by rw [h1]; simp
  obtain ⟨s, hs, rfl⟩ := List.mem_map.1 hb
  refine ⟨s, hs, rfl, p.map Prod.fst, q.map Prod.fst, u.map Prod.fst, v.map Prod.fst, ?_, ?_, ?_, ?_⟩
  · rw [← pair_fst, h1]; simp [Block.pair]
  · rw [← List.map_append, h2, List.map_append]
  · simp [Block.pair]
  · have := congrArg List.length h1
    have := congrArg List.length h2
    simp only [List.length_map, List.length_append, List.length_cons] at *
    omega

theorem best_of {C B} (h : Inv C B) (h0 : adj (nums C) = 0) {s : Block} (hb : ∀ b ∈ C, NotBetter C s b)
    {p q u v : List Block} (h1 : C = p ++ s :: q) (h2 : p ++ q = u ++ v)
    (hpl : (s.mtch = 1 ∧ ∃ t v', t.mtch = 2 ∧ v = t :: v') ∨ ∃ t u', s.mtch = t.mtch + 1 ∧ u = u' ++ [t]) :
    Best (C.map Block.pair) s.pair ((u ++ s :: v).map Block.pair) := by
  have hn : (nums C).Nodup := h.nodup
  have hz : 0 ∉ nums C := by
    intro hm
    obtain ⟨x, hx, he⟩ := List.mem_map.1 hm
    have := h.range hx
    omega
  have hnC : nums C = nums p ++ s.mtch :: nums q := by rw [h1]; simp [nums]
  have hpq : nums p ++ nums q = nums u ++ nums v := by unfold nums; rw [← List.map_append, h2, List.map_append]
  have hadj : adj (nums u ++ s.mtch :: nums v) = redu (nums C) s.mtch := by
    rw [hnC] at hn h0 hz ⊢
    rcases hpl with ⟨hs, t, v', ht, rfl⟩ | ⟨t, u', ht, rfl⟩
    · rw [hs] at hn h0 hz ⊢
      simp only [nums, List.map_cons, ht] at hpq ⊢
      exact adj_move_first hn h0 hz hpq
    · rw [ht] at hn h0 ⊢
      simp only [nums, List.map_append, List.map_cons, List.map_nil] at hpq ⊢
      exact adj_move_after hn h0 hpq
  have hlM : (u ++ s :: v).length = C.length := by
    have := congrArg List.length h2
    rw [h1]
    simp only [List.length_append, List.length_cons] at *
    omega
  have hM : (joined ((u ++ s :: v).map Block.pair)).length + redu (nums C) s.mtch = C.length := by
    have := joined_length ((u ++ s :: v).map Block.pair)
    rw [pair_fst, List.length_map, hlM] at this
    rw [← hadj, ← this]
    simp [nums]
  have hN : ∀ c N, Moved (C.map Block.pair) c N → ∃ x ∈ C, x.pair = c ∧ C.length ≤ (joined N).length + redu (nums C) x.mtch := by
    intro c N hc
    obtain ⟨x, hx, hxc, p', q', u', v', e1, e2, e3, e4⟩ := nums_moved hc
    refine ⟨x, hx, hxc, ?_⟩
    have := joined_length N
    rw [e3, e4] at this
    have hle := adj_move_le (p := p') (q := q') (u := u') (v := v') (s := x.mtch) (e1 ▸ hn) (e1 ▸ h0) e2
    rw [← e1] at hle
    omega
  refine ⟨?_, ?_, ?_, ?_⟩
  · refine ⟨p.map Block.pair, q.map Block.pair, u.map Block.pair, v.map Block.pair, by rw [h1]; simp, ?_, by simp⟩
    rw [← List.map_append, h2, List.map_append]
  · rcases hpl with ⟨hs, t, v', ht, rfl⟩ | ⟨t, u', ht, rfl⟩
    · exact ⟨u.map Block.pair, v'.map Block.pair, t.pair, .inl ⟨hs, ht, by simp⟩⟩
    · exact ⟨u'.map Block.pair, v.map Block.pair, t.pair, .inr ⟨ht, by simp⟩⟩
  · intro c N hc
    obtain ⟨x, hx, _, hle⟩ := hN c N hc
    have := hb x hx
    unfold NotBetter at this
    omega
  · intro c N hc heq
    obtain ⟨x, hx, rfl, hle⟩ := hN c N hc
    have := hb x hx
    unfold NotBetter at this
    show s.length < x.length ∨ s.length = x.length ∧ s.mtch ≤ x.mtch
    omega

/-! ## The loop -/

theorem fmtInt_nat (n : Nat) : fmtInt (n : Int) = decDigits n := by
  unfold fmtInt
  rw [if_neg (by omega)]
  rfl

theorem display_shown (l : List Block) (label : List Nat) : display l label = shown (label, l.map Block.pair) := by
  unfold display shown Synctext.padRight
  simp only [List.flatMap_map, Block.pair, fmtInt_nat]

theorem countLoopD_spec : ∀ (fuel : Nat) (D : Edodata) (C : List Block) (B), C.length ≤ fuel → Inv C B → adj (nums C) = 0 →
    C.length < 10^13 → ∃ D' ls tr, countLoop fuel D C = .ok D' ∧
      (∀ debug, countLoopD debug fuel D C = .ok (D', if debug then tr.flatMap shown else [])) ∧
      Recorded D ls D' ∧ Trace (C.map Block.pair) ls tr := by
  intro fuel
  have base : ∀ (fuel : Nat) (D : Edodata) (C : List Block), ¬ C.length > 1 →
      ∃ D' ls tr, countLoop fuel D C = .ok D' ∧
        (∀ debug, countLoopD debug fuel D C = .ok (D', if debug then tr.flatMap shown else [])) ∧
        Recorded D ls D' ∧ Trace (C.map Block.pair) ls tr := by
    intro fuel D C hC
    refine ⟨D, [], [], ?_, ?_, ⟨rfl, rfl, by simp, by simp⟩, .done _ (by simpa using hC)⟩
    · rw [countLoop.eq_def]; simp only; rw [if_neg hC]
    · intro debug
      rw [countLoopD.eq_def]; simp only; rw [if_neg hC]; simp
  induction fuel with
  | zero => intro D C B hf _ _ _; exact base 0 D C (by omega)
  | succ fuel ih =>
    intro D C B hf h h0 hlen
    by_cases hC : C.length > 1
    · obtain ⟨cand, e1, hp, hx⟩ := find_candidates_exact h
      obtain ⟨s, hs, e2, hb⟩ := find_move_best h hx (by rintro rfl; simp at hC)
      obtain ⟨D1, C1, e3, i1, a1, l1, r1, _, p, q, u, v, g1, g2, rfl, g4⟩ := perform_spec (D := D) h hp hs hC
      obtain ⟨C2, B2, e4, i2, j2, z2, _, s2⟩ := combine_joined i1
      have hlt := s2 a1
      obtain ⟨D', ls, tr, e5, e6, r2, t2⟩ := ih D1 C2 B2 (by omega) i2 z2 (by omega)
      have hbest := best_of h h0 hb g1 g2 g4
      have hrs := h.range hs
      have hCB := h.length
      have hlab : (ascii "moved " ++ fmtInt (s.mtch : Int)).length < 20 := by
        rw [fmtInt_nat, List.length_append]
        have := Ocr.Report.decDigits_len 12 s.mtch (by omega)
        have : (ascii "moved ").length = 6 := rfl
        omega
      refine ⟨D', s.length :: ls, (ascii "moved " ++ decDigits s.mtch, (u ++ s :: v).map Block.pair) ::
        (ascii "combined", C2.map Block.pair) :: tr, ?_, ?_, ?_, ?_⟩
      · rw [countLoop, if_pos hC]
        simp only
        rw [e1, bind_ok, e2, bind_ok, e3, bind_ok]
        simp only
        rw [e4, bind_ok, e5]
      · intro debug
        rw [countLoopD, if_pos hC]
        simp only
        rw [e1, bind_ok, e2, bind_ok]
        unfold perform_moveD combine_adjacentD
        rw [e3, bind_ok]
        simp only
        rw [if_pos hlab]
        cases debug with
        | false =>
          simp only [Bool.false_eq_true, if_false, pure_eq, bind_ok, e4, e6]
          simp
        | true =>
          simp only [if_true, pure_eq, bind_ok, e4, e6, display_shown, fmtInt_nat]
          simp
      · rw [← h.len s hs] at r1
        exact r1.trans r2
      · rw [j2]
        refine .move _ s.pair _ _ _ (by simpa using hC) hbest ?_
        rw [← j2]
        exact t2
    · exact base _ D C hC

theorem count_movesD_spec (D : Edodata) (C : List Block) (B) (h : Inv C B) (hlen : C.length < 10^13) :
    ∃ D' ls tr, count_moves D C = .ok D' ∧
      (∀ debug, count_movesD debug D C = .ok (D', if debug then
        ((ascii "original", C.map Block.pair) :: (ascii "combined", joined (C.map Block.pair)) :: tr).flatMap shown else [])) ∧
      Recorded D ls D' ∧ Trace (joined (C.map Block.pair)) ls tr := by
  obtain ⟨C1, B1, e1, i1, j1, z1, l1, _⟩ := combine_joined h
  obtain ⟨D', ls, tr, e2, e3, r, t⟩ := countLoopD_spec C1.length D C1 B1 (Nat.le_refl _) i1 z1 (by omega)
  refine ⟨D', ls, tr, ?_, ?_, r, j1 ▸ t⟩
  · unfold count_moves; rw [e1, bind_ok, e2]
  · intro debug
    unfold count_movesD combine_adjacentD
    rw [e1, bind_ok, pure_eq, bind_ok]
    simp only
    rw [e3, bind_ok]
    cases debug with
    | false => simp [pure_eq]
    | true => simp [pure_eq, display_shown, j1]

end Ocr.Edo
