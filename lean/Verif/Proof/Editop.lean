import Verif.Spec.Editop
import Verif.Proof.Sort
import Mathlib.Data.List.Nodup
import Mathlib.Data.List.GetD
import Mathlib.Algebra.Order.BigOperators.Group.List
import Mathlib.Data.List.Count
import Verif.Proof.Transpose
import Verif.Proof.Edorpt
import Mathlib.Data.List.Perm.Basic
import Mathlib.Algebra.BigOperators.Group.List.Basic

namespace Ocr.Edo
open Text Res

/-! ## Blocks standing for groups of original blocks -/

/-- `B` lists, in correct order, the groups of original blocks that have been combined. -/
structure Inv (C : List Block) (B : List (List (Nat × Int))) : Prop where
  ids  : (C.map (·.id)).Nodup
  perm : (C.map (·.mtch)).Perm (List.range' 1 B.length)
  len  : ∀ c ∈ C, c.length = chars (B.getD (c.mtch - 1) [])
  pos  : ∀ c ∈ C, 1 ≤ c.length

/-- The original blocks in their current order. -/
def lay (B : List (List (Nat × Int))) (C : List Block) : List (Nat × Int) := C.flatMap (fun c => B.getD (c.mtch - 1) [])

theorem lay_append (B C D) : lay B (C ++ D) = lay B C ++ lay B D := by simp [lay]
theorem lay_cons (B c C) : lay B (c :: C) = B.getD (c.mtch - 1) [] ++ lay B C := by simp [lay]

theorem Inv.length {C B} (h : Inv C B) : C.length = B.length := by
  have := h.perm.length_eq
  simpa using this

theorem Inv.nodup {C B} (h : Inv C B) : (C.map (·.mtch)).Nodup := h.perm.symm.nodup (List.nodup_range' ..)

theorem Inv.range {C B} (h : Inv C B) {c} (hc : c ∈ C) : 1 ≤ c.mtch ∧ c.mtch ≤ B.length := by
  have := h.perm.mem_iff.1 (List.mem_map_of_mem hc)
  rw [List.mem_range'_1] at this; omega

theorem Inv.exists {C B} (h : Inv C B) {m} (h1 : 1 ≤ m) (h2 : m ≤ B.length) : ∃ c ∈ C, c.mtch = m := by
  have := h.perm.mem_iff.2 (List.mem_range'_1.2 ⟨h1, by omega⟩)
  simpa using this

theorem chars_append (a b) : chars (a ++ b) = chars a + chars b := by simp [chars]

/-- The new number of a block when the numbers `m` and `m + 1` become one. -/
def dec (m : Nat) (v : Nat) : Nat := if v > m then v - 1 else v

theorem decrement_mtch (m : Nat) (l : List Block) : (decrement_match m l).map (·.mtch) = (l.map (·.mtch)).map (dec m) := by
  simp only [decrement_match, List.map_map]
  apply List.map_congr_left
  intro b _
  simp only [Function.comp, dec]
  split <;> rfl

theorem decrement_id (m : Nat) (l : List Block) : (decrement_match m l).map (·.id) = l.map (·.id) := by
  simp only [decrement_match, List.map_map]
  apply List.map_congr_left
  intro b _
  simp only [Function.comp]
  split <;> rfl

theorem decrement_length (m : Nat) (l : List Block) : (decrement_match m l).length = l.length := by simp [decrement_match]

theorem map_dec_low (m k a : Nat) (h : a + k ≤ m + 1) : (List.range' a k).map (dec m) = List.range' a k := by
  conv_rhs => rw [← List.map_id (List.range' a k)]
  apply List.map_congr_left
  intro v hv
  rw [List.mem_range'_1] at hv
  simp [dec]; omega

theorem map_dec_high (m k a : Nat) (h : m < a) : (List.range' a k).map (dec m) = List.range' (a - 1) k := by
  induction k generalizing a with
  | zero => simp
  | succ k ih =>
    rw [List.range'_succ, List.range'_succ, List.map_cons, ih (a + 1) (by omega)]
    congr 1
    · simp [dec, h]
    · congr 1; omega

/-- Joining groups `m` and `m + 1`. -/
theorem merge_getD (P Q : List (List (Nat × Int))) (x y : List (Nat × Int)) (v : Nat) (hv : 1 ≤ v)
    (h1 : v ≠ P.length + 1) (h2 : v ≠ P.length + 2) :
    (P ++ (x ++ y) :: Q).getD (dec (P.length + 1) v - 1) [] = (P ++ x :: y :: Q).getD (v - 1) [] := by
  unfold dec
  by_cases h : v > P.length + 1
  · rw [if_pos h]
    obtain ⟨j, rfl⟩ : ∃ j, v = P.length + 3 + j := ⟨v - (P.length + 3), by omega⟩
    rw [List.getD_append_right _ _ _ _ (by omega), List.getD_append_right _ _ _ _ (by omega),
      show P.length + 3 + j - 1 - 1 - P.length = j + 1 by omega, show P.length + 3 + j - 1 - P.length = j + 2 by omega]
    simp
  · rw [if_neg h, List.getD_append _ _ _ _ (by omega), List.getD_append _ _ _ _ (by omega)]

/-- One step of `combine_adjacent`. -/
theorem combine_step {pre rest : List Block} {cur next : Block} {B}
    (h : Inv (pre ++ cur :: next :: rest) B) (hm : next.mtch = cur.mtch + 1) :
    ∃ B', Inv (decrement_match cur.mtch pre ++ { cur with length := cur.length + next.length } :: decrement_match cur.mtch rest) B' ∧
      B'.flatten = B.flatten ∧
      lay B' (decrement_match cur.mtch pre ++ { cur with length := cur.length + next.length } :: decrement_match cur.mtch rest) =
        lay B (pre ++ cur :: next :: rest) := by
  have hc := h.range (c := cur) (by simp)
  have hn := h.range (c := next) (by simp)
  obtain ⟨P, x, y, Q, rfl, hP⟩ : ∃ P x y Q, B = P ++ x :: y :: Q ∧ cur.mtch = P.length + 1 := by
    refine ⟨B.take (cur.mtch - 1), B[cur.mtch - 1], B[cur.mtch], B.drop (cur.mtch + 1), ?_, ?_⟩
    · have e : cur.mtch = cur.mtch - 1 + 1 := by omega
      conv_lhs => rw [← List.take_append_drop (cur.mtch - 1) B]
      congr 1
      rw [List.drop_eq_getElem_cons (by omega)]
      congr 1
      rw [← e, List.drop_eq_getElem_cons (by omega)]
    · rw [List.length_take]; omega
  have hnd := h.nodup
  -- the other blocks have other numbers
  have hother : ∀ b, b ∈ pre ∨ b ∈ rest → b.mtch ≠ P.length + 1 ∧ b.mtch ≠ P.length + 2 ∧ 1 ≤ b.mtch := by
    intro b hb
    have hr := h.range (c := b) (by rcases hb with hb | hb <;> simp [hb])
    have hnd' : ((pre ++ rest).map (·.mtch) ++ [cur.mtch, next.mtch]).Nodup := by
      refine List.Perm.nodup ?_ hnd
      simp only [List.map_append, List.map_cons, List.append_assoc]
      refine List.Perm.append_left _ ?_
      exact (List.perm_append_comm (l₁ := [cur.mtch, next.mtch]))
    rw [List.nodup_append] at hnd'
    have hbm : b.mtch ∈ (pre ++ rest).map (·.mtch) := List.mem_map_of_mem (by simpa using hb)
    have h1 := hnd'.2.2 _ hbm cur.mtch (by simp)
    have h2 := hnd'.2.2 _ hbm next.mtch (by simp)
    omega
  have hget : ∀ b, b ∈ pre ∨ b ∈ rest → (P ++ (x ++ y) :: Q).getD (dec cur.mtch b.mtch - 1) [] =
      (P ++ x :: y :: Q).getD (b.mtch - 1) [] := by
    intro b hb
    obtain ⟨a1, a2, a3⟩ := hother b hb
    rw [hP, merge_getD P Q x y b.mtch a3 a1 a2]
  have hlay : ∀ l : List Block, (∀ b ∈ l, b ∈ pre ∨ b ∈ rest) →
      lay (P ++ (x ++ y) :: Q) (decrement_match cur.mtch l) = lay (P ++ x :: y :: Q) l := by
    intro l
    induction l with
    | nil => intro _; rfl
    | cons b l ih =>
      intro hl
      have hb := hget b (hl b (by simp))
      have ih := ih (fun c hc => hl c (by simp [hc]))
      unfold decrement_match at ih ⊢
      rw [List.map_cons, lay_cons, lay_cons, ih, ← hb]
      congr 3
      unfold dec; split <;> rfl
  have hx : (P ++ x :: y :: Q).getD (cur.mtch - 1) [] = x := by
    rw [hP, List.getD_append_right _ _ _ _ (by omega)]; simp
  have hy : (P ++ x :: y :: Q).getD (next.mtch - 1) [] = y := by
    rw [hm, hP, List.getD_append_right _ _ _ _ (by omega)]; simp
  have hxy : (P ++ (x ++ y) :: Q).getD (cur.mtch - 1) [] = x ++ y := by
    rw [hP, List.getD_append_right _ _ _ _ (by omega)]; simp
  refine ⟨P ++ (x ++ y) :: Q, ⟨?_, ?_, ?_, ?_⟩, by simp, ?_⟩
  · have := h.ids
    rw [List.map_append, List.map_cons, decrement_id, decrement_id]
    refine List.Nodup.sublist ?_ this
    simp
  · rw [List.map_append, List.map_cons, decrement_mtch, decrement_mtch]
    have hd : dec cur.mtch cur.mtch = cur.mtch := by simp [dec]
    have e1 : (pre.map (·.mtch)).map (dec cur.mtch) ++ cur.mtch :: (rest.map (·.mtch)).map (dec cur.mtch) =
        (pre.map (·.mtch) ++ cur.mtch :: rest.map (·.mtch)).map (dec cur.mtch) := by
      rw [List.map_append, List.map_cons, hd]
    show ((pre.map (·.mtch)).map (dec cur.mtch) ++ cur.mtch :: (rest.map (·.mtch)).map (dec cur.mtch)).Perm _
    rw [e1]
    have p1 : (next.mtch :: (pre.map (·.mtch) ++ cur.mtch :: rest.map (·.mtch))).Perm (List.range' 1 (P ++ x :: y :: Q).length) := by
      refine List.Perm.trans ?_ h.perm
      simp only [List.map_append, List.map_cons]
      have : (next.mtch :: (pre.map (·.mtch) ++ cur.mtch :: rest.map (·.mtch))).Perm
          (pre.map (·.mtch) ++ [cur.mtch] ++ next.mtch :: rest.map (·.mtch)) := by
        refine List.Perm.trans ?_ List.perm_middle.symm
        simp
      simpa using this
    have e2 : List.range' 1 (P ++ x :: y :: Q).length = List.range' 1 (P.length + 1) ++ (P.length + 2) :: List.range' (P.length + 3) Q.length := by
      rw [show (P ++ x :: y :: Q).length = (P.length + 1) + (Q.length + 1) by simp only [List.length_append, List.length_cons]; omega, ← List.range'_append_1]
      rw [show 1 + (P.length + 1) = P.length + 2 by omega, List.range'_succ (s := P.length + 2)]
    rw [e2] at p1
    have p2 : (pre.map (·.mtch) ++ cur.mtch :: rest.map (·.mtch)).Perm
        (List.range' 1 (P.length + 1) ++ List.range' (P.length + 3) Q.length) := by
      have := p1.trans List.perm_middle
      rw [show next.mtch = P.length + 2 by omega] at this
      exact this.cons_inv
    have p3 := p2.map (dec cur.mtch)
    rw [List.map_append (l₁ := List.range' 1 (P.length + 1)), map_dec_low _ _ _ (by omega), map_dec_high _ _ _ (by omega)] at p3
    refine p3.trans (List.Perm.of_eq ?_)
    rw [show (P ++ (x ++ y) :: Q).length = (P.length + 1) + Q.length by simp only [List.length_append, List.length_cons]; omega,
      ← List.range'_append_1 (m := P.length + 1) (n := Q.length), show 1 + (P.length + 1) = P.length + 3 - 1 by omega]
  · intro c hcm
    rcases List.mem_append.1 hcm with hcm | hcm
    · simp only [decrement_match, List.mem_map] at hcm
      obtain ⟨b, hb, rfl⟩ := hcm
      have := h.len b (by simp [hb])
      rw [← hget b (.inl hb)] at this
      unfold dec at this
      split
      · rename_i hgt; rw [if_pos hgt] at this; exact this
      · rename_i hgt; rw [if_neg hgt] at this; exact this
    · rcases List.mem_cons.1 hcm with rfl | hcm
      · show cur.length + next.length = chars _
        rw [hxy, h.len cur (by simp), h.len next (by simp), hx, hy, chars_append]
      · simp only [decrement_match, List.mem_map] at hcm
        obtain ⟨b, hb, rfl⟩ := hcm
        have := h.len b (by simp [hb])
        rw [← hget b (.inr hb)] at this
        unfold dec at this
        split
        · rename_i hgt; rw [if_pos hgt] at this; exact this
        · rename_i hgt; rw [if_neg hgt] at this; exact this
  · intro c hcm
    have hdec : ∀ l : List Block, (∀ b ∈ l, 1 ≤ b.length) → ∀ b ∈ decrement_match cur.mtch l, 1 ≤ b.length := by
      intro l hl b hb
      simp only [decrement_match, List.mem_map] at hb
      obtain ⟨b', hb', rfl⟩ := hb
      have := hl b' hb'
      split <;> exact this
    rcases List.mem_append.1 hcm with hcm | hcm
    · exact hdec pre (fun b hb => h.pos b (by simp [hb])) c hcm
    · rcases List.mem_cons.1 hcm with rfl | hcm
      · have := h.pos cur (by simp); have := h.pos next (by simp)
        show 1 ≤ cur.length + next.length
        omega
      · exact hdec rest (fun b hb => h.pos b (by simp [hb])) c hcm
  · rw [lay_append, lay_cons, lay_append, lay_cons, lay_cons, hlay pre (fun b hb => .inl hb), hlay rest (fun b hb => .inr hb), hx, hy]
    show _ ++ ((P ++ (x ++ y) :: Q).getD (cur.mtch - 1) [] ++ _) = _
    rw [hxy]
    simp

/-- Two neighbours with consecutive numbers. -/
def Adj (l : List Block) : Prop := ∃ a x y b, l = a ++ x :: y :: b ∧ y.mtch = x.mtch + 1

theorem combineLoop_spec : ∀ (fuel : Nat) (pre : List Block) (cur : Block) (rest : List Block) (B), rest.length ≤ fuel →
    Inv (pre ++ cur :: rest) B → ∃ C' B', combineLoop fuel pre cur rest = .ok C' ∧ Inv C' B' ∧ B'.flatten = B.flatten ∧
      lay B' C' = lay B (pre ++ cur :: rest) ∧ C'.length ≤ (pre ++ cur :: rest).length ∧
      (Adj (cur :: rest) → C'.length < (pre ++ cur :: rest).length) ∧ C' ≠ [] := by
  intro fuel
  induction fuel with
  | zero =>
    intro pre cur rest B hf h
    have : rest = [] := List.length_eq_zero_iff.1 (by omega)
    subst this
    refine ⟨pre ++ [cur], B, by rw [combineLoop], h, rfl, rfl, Nat.le_refl _, ?_, by simp⟩
    rintro ⟨a, x, y, b, he, _⟩
    have := congrArg List.length he
    simp only [List.length_append, List.length_cons, List.length_nil] at this
    omega
  | succ fuel ih =>
    intro pre cur rest B hf h
    cases rest with
    | nil =>
      refine ⟨pre ++ [cur], B, by rw [combineLoop], h, rfl, rfl, Nat.le_refl _, ?_, by simp⟩
      rintro ⟨a, x, y, b, he, _⟩
      have := congrArg List.length he
      simp only [List.length_append, List.length_cons, List.length_nil] at this
      omega
    | cons next rest =>
      rw [combineLoop]
      by_cases hm : next.mtch = cur.mtch + 1
      · rw [if_pos hm]
        obtain ⟨B1, h1, h2, h3⟩ := combine_step h hm
        obtain ⟨C', B', e, i1, i2, i3, i4, _, i6⟩ := ih _ _ _ B1 (by rw [decrement_length]; simp at hf; omega) h1
        refine ⟨C', B', e, i1, i2.trans h2, i3.trans h3, ?_, fun _ => ?_, i6⟩
        · simp only [List.length_append, List.length_cons, decrement_length] at i4 ⊢; omega
        · simp only [List.length_append, List.length_cons, decrement_length] at i4 ⊢; omega
      · rw [if_neg hm]
        have e : pre ++ cur :: next :: rest = (pre ++ [cur]) ++ next :: rest := by simp
        rw [e] at h ⊢
        obtain ⟨C', B', e, i1, i2, i3, i4, i5, i6⟩ := ih _ _ _ B (by simp at hf; omega) h
        refine ⟨C', B', e, i1, i2, i3, i4, ?_, i6⟩
        rintro ⟨a, x, y, b, he, hxy⟩
        cases a with
        | nil =>
          simp only [List.nil_append, List.cons.injEq] at he
          obtain ⟨rfl, rfl, _⟩ := he
          exact absurd hxy hm
        | cons a0 a =>
          simp only [List.cons_append, List.cons.injEq] at he
          exact i5 ⟨a, x, y, b, he.2, hxy⟩

theorem combine_spec (C : List Block) (B) (h : Inv C B) : ∃ C' B', combine_adjacent C = .ok C' ∧ Inv C' B' ∧
    B'.flatten = B.flatten ∧ lay B' C' = lay B C ∧ C'.length ≤ C.length ∧ (Adj C → C'.length < C.length) ∧ (C ≠ [] → C' ≠ []) := by
  cases C with
  | nil =>
    refine ⟨[], B, rfl, h, rfl, rfl, Nat.le_refl _, ?_, id⟩
    rintro ⟨a, x, y, b, he, _⟩
    simp at he
  | cons cur rest =>
    obtain ⟨C', B', e, i1, i2, i3, i4, i5, i6⟩ := combineLoop_spec rest.length [] cur rest B (Nat.le_refl _) h
    exact ⟨C', B', e, i1, i2, i3, i4, i5, fun _ => i6⟩

theorem combineLoop_sorted : ∀ (fuel : Nat) (cur : Block) (rest : List Block), rest.length ≤ fuel →
    rest.map (·.mtch) = List.range' (cur.mtch + 1) rest.length → ∃ b, combineLoop fuel [] cur rest = .ok [b] := by
  intro fuel
  induction fuel with
  | zero =>
    intro cur rest hf _
    have : rest = [] := List.length_eq_zero_iff.1 (by omega)
    subst this
    exact ⟨cur, by rw [combineLoop]; rfl⟩
  | succ fuel ih =>
    intro cur rest hf h
    cases rest with
    | nil => exact ⟨cur, by rw [combineLoop]; rfl⟩
    | cons next rest =>
      rw [List.map_cons, List.length_cons, List.range'_succ, List.cons.injEq] at h
      rw [combineLoop]
      rw [if_pos h.1]
      refine ih _ _ (by rw [decrement_length]; simp at hf; omega) ?_
      rw [decrement_mtch, h.2, map_dec_high _ _ _ (by omega), decrement_length]
      rfl

/-! ## Choosing a move -/

theorem rd_ok {α} {l : List α} {i : Nat} (h : i < l.length) : rd l i = .ok l[i] := by
  unfold rd; rw [List.getElem?_eq_getElem h]

theorem wr_ok {α} {l : List α} {i : Nat} (h : i < l.length) (a : α) : wr l i a = .ok (l.set i a) := by
  unfold wr; rw [if_pos h]

/-- Changing flags of one candidate. -/
theorem set_flags {cand : List Candidate} {i : Nat} (hi : i < cand.length) {f : Candidate → Candidate}
    (hf : ∀ c, (f c).sync = c.sync) (j : Nat) :
    ((cand.set i (f cand[i]))[j]?).map Candidate.sync = (cand[j]?).map Candidate.sync := by
  rw [List.getElem?_set]
  split
  · subst_vars
    rw [List.getElem?_eq_getElem hi]; simp [hf]
  · rfl

theorem flagInsertion_spec (sync : Block) (l : List Block) (cand : List Candidate) (hr : ∀ b ∈ l, b.mtch < cand.length) :
    ∃ c1, flagInsertion sync l cand = .ok c1 ∧ c1.length = cand.length ∧
      ∀ j : Nat, (c1[j]?).map Candidate.sync = (cand[j]?).map Candidate.sync := by
  cases l with
  | nil => exact ⟨cand, rfl, rfl, fun _ => rfl⟩
  | cons next l =>
    unfold flagInsertion
    simp only
    split
    · rename_i hm
      have hn := hr next (by simp)
      have hi : sync.mtch + 1 < cand.length := by omega
      refine ⟨cand.set (sync.mtch + 1) { cand[sync.mtch + 1] with for_insertion := true }, ?_, ?_, ?_⟩
      · rw [rd_ok hi, bind_ok, wr_ok hi]
      · simp
      · exact set_flags hi (f := fun c => { c with for_insertion := true }) (fun _ => rfl)
    · exact ⟨cand, rfl, rfl, fun _ => rfl⟩

theorem flagDeletion_spec (sync : Block) (l : List Block) (cand : List Candidate) (hr : ∀ b ∈ l, b.mtch < cand.length) :
    ∃ c1, flagDeletion sync l cand = .ok c1 ∧ c1.length = cand.length ∧
      ∀ j : Nat, (c1[j]?).map Candidate.sync = (cand[j]?).map Candidate.sync := by
  rcases l with _ | ⟨next, _ | ⟨next2, l⟩⟩
  · exact ⟨cand, rfl, rfl, fun _ => rfl⟩
  · exact ⟨cand, rfl, rfl, fun _ => rfl⟩
  · unfold flagDeletion
    simp only
    split
    · have hi := hr next (by simp)
      refine ⟨cand.set next.mtch { cand[next.mtch] with for_deletion := true }, ?_, ?_, ?_⟩
      · rw [rd_ok hi, bind_ok, wr_ok hi]
      · simp
      · exact set_flags hi (f := fun c => { c with for_deletion := true }) (fun _ => rfl)
    · exact ⟨cand, rfl, rfl, fun _ => rfl⟩

theorem candidateLoop_spec : ∀ (l : List Block) (cand : List Candidate), (∀ b ∈ l, b.mtch < cand.length) →
    (l.map (·.mtch)).Nodup →
    ∃ cand', candidateLoop l cand = .ok cand' ∧ cand'.length = cand.length ∧
      (∀ b ∈ l, (cand'[b.mtch]?).map Candidate.sync = some (some b.id)) ∧
      (∀ j : Nat, (∀ b ∈ l, b.mtch ≠ j) → (cand'[j]?).map Candidate.sync = (cand[j]?).map Candidate.sync) := by
  intro l
  induction l with
  | nil => intro cand _ _; exact ⟨cand, rfl, rfl, by simp, fun _ _ => rfl⟩
  | cons sync l ih =>
    intro cand hr hnd
    rw [List.map_cons, List.nodup_cons] at hnd
    have hs := hr sync (by simp)
    obtain ⟨c1, e1, l1, s1⟩ := flagInsertion_spec sync l cand (fun b hb => hr b (by simp [hb]))
    obtain ⟨c2, e2, l2, s2⟩ := flagDeletion_spec sync l c1 (fun b hb => by rw [l1]; exact hr b (by simp [hb]))
    rw [candidateLoop, e1, bind_ok, e2, bind_ok]
    have hi : sync.mtch < c2.length := by omega
    rw [rd_ok hi, bind_ok, wr_ok hi, bind_ok]
    obtain ⟨c3, e3, l3, m3, o3⟩ := ih (c2.set sync.mtch { c2[sync.mtch] with sync := some sync.id })
      (by intro b hb; have := hr b (by simp [hb]); rw [List.length_set]; omega) hnd.2
    refine ⟨c3, e3, by rw [l3, List.length_set]; omega, ?_, ?_⟩
    · intro b hb
      rcases List.mem_cons.1 hb with rfl | hb
      · rw [o3 b.mtch, List.getElem?_set]
        · simp [hi]
        · intro b' hb' he
          exact hnd.1 (he ▸ List.mem_map_of_mem hb')
      · exact m3 b hb
    · intro j hj
      rw [o3 j (fun b hb => hj b (by simp [hb])), List.getElem?_set, if_neg (hj sync (by simp)), s2, s1]

/-- The table of candidates points to every block. -/
def Points (C : List Block) (cand : List Candidate) : Prop :=
  cand.length = C.length + 1 ∧ ∀ b ∈ C, ∃ e, rd cand b.mtch = .ok e ∧ e.sync = some b.id

theorem find_candidates_spec {C B} (h : Inv C B) : ∃ cand, find_candidates C = .ok cand ∧ Points C cand := by
  obtain ⟨cand, e, l, m, _⟩ := candidateLoop_spec C (List.replicate (C.length + 1) ⟨false, false, none⟩)
    (by intro b hb; have := h.range hb; have := h.length; simp; omega) h.nodup
  refine ⟨cand, e, by simpa using l, ?_⟩
  intro b hb
  have hm := m b hb
  cases hc : cand[b.mtch]? with
  | none => rw [hc] at hm; simp at hm
  | some x =>
    rw [hc] at hm
    refine ⟨x, by unfold rd; rw [hc], by simpa using hm⟩

theorem deref_eq {C : List Block} (h : (C.map (·.id)).Nodup) {b : Block} (hb : b ∈ C) : deref C (some b.id) = .ok b := by
  unfold deref
  simp only
  have : C.find? (fun x => decide (x.id = b.id)) = some b := by
    induction C with
    | nil => simp at hb
    | cons x C ih =>
      rw [List.map_cons, List.nodup_cons] at h
      rcases List.mem_cons.1 hb with rfl | hb'
      · simp
      · rw [List.find?_cons_of_neg, ih h.2 hb']
        simp only [decide_eq_true_eq]
        intro he
        exact h.1 (he ▸ List.mem_map_of_mem hb')
  rw [this]

theorem moveChoice_spec {C B cand} (h : Inv C B) (hp : Points C cand) : ∀ (n i : Nat) (move : Option (Nat × Int × Nat)),
    1 ≤ i → i + n = C.length + 1 → (∀ m ∈ move, 1 ≤ m.1 ∧ m.1 ≤ C.length) → (move = none → n ≠ 0) →
    ∃ m, moveChoice C cand n i move = .ok (some m) ∧ 1 ≤ m.1 ∧ m.1 ≤ C.length := by
  intro n
  induction n with
  | zero =>
    intro i move _ _ hm hn
    cases move with
    | none => exact absurd rfl (hn rfl)
    | some m => exact ⟨m, rfl, hm m rfl⟩
  | succ n ih =>
    intro i move h1 h2 hm _
    obtain ⟨b, hb, hbi⟩ := h.exists h1 (by rw [← h.length]; omega)
    obtain ⟨e, he1, he2⟩ := hp.2 b hb
    have hd := deref_eq h.ids hb
    rw [hbi] at he1
    rw [moveChoice, he1, bind_ok, he2]
    simp only
    generalize 1 + (if e.for_insertion = true then 1 else 0) + (if e.for_deletion = true then 1 else 0) = red
    have ihs : ∀ m : Nat × Int × Nat, 1 ≤ m.1 ∧ m.1 ≤ C.length →
        ∃ m', moveChoice C cand n (i + 1) (some m) = .ok (some m') ∧ 1 ≤ m'.1 ∧ m'.1 ≤ C.length := by
      intro m hmr
      exact ih (i + 1) (some m) (by omega) (by omega) (by intro m' hm'; cases hm'; exact hmr) (by simp)
    cases move with
    | none =>
      simp only
      rw [hd, bind_ok]
      exact ihs (i, b.length, red) ⟨h1, by omega⟩
    | some m =>
      obtain ⟨mi, ml, mr⟩ := m
      have hm := hm _ rfl
      simp only
      split
      · rw [hd, bind_ok]
        exact ihs (i, b.length, red) ⟨h1, by omega⟩
      · split
        · rw [hd, bind_ok]
          split
          · exact ihs (i, b.length, red) ⟨h1, by omega⟩
          · exact ihs _ hm
        · exact ihs _ hm

theorem find_move_spec {C B cand} (h : Inv C B) (hp : Points C cand) (hC : C ≠ []) :
    ∃ b ∈ C, find_move C cand = .ok b := by
  have hl : 0 < C.length := List.length_pos_iff.2 hC
  obtain ⟨⟨mi, ml, mr⟩, e, h1, h2⟩ := moveChoice_spec h hp C.length 1 none (by omega) (by omega) (by simp) (by omega)
  obtain ⟨b, hb, hbi⟩ := h.exists h1 (by rw [← h.length]; exact h2)
  obtain ⟨x, he1, he2⟩ := hp.2 b hb
  refine ⟨b, hb, ?_⟩
  unfold find_move
  rw [e, bind_ok]
  simp only at hbi ⊢
  rw [← hbi, he1, bind_ok, he2]
  exact deref_eq h.ids hb

/-! ## Performing a move -/

theorem remove_eq (p q : List Block) (s : Block) (h : ∀ x ∈ p, x.id ≠ s.id) : removeBlock s.id (p ++ s :: q) = .ok (p ++ q) := by
  induction p with
  | nil => simp [removeBlock]
  | cons x p ih =>
    rw [List.cons_append, removeBlock, if_neg (h x (by simp)), ih (fun y hy => h y (by simp [hy]))]; rfl

theorem insertBefore_eq (p q : List Block) (b t : Block) (h : ∀ x ∈ p, x.id ≠ t.id) :
    insertBefore b t.id (p ++ t :: q) = .ok (p ++ b :: t :: q) := by
  induction p with
  | nil => simp [insertBefore]
  | cons x p ih =>
    rw [List.cons_append, insertBefore, if_neg (h x (by simp)), ih (fun y hy => h y (by simp [hy]))]; rfl

theorem insertAfter_eq (p q : List Block) (b t : Block) (h : ∀ x ∈ p, x.id ≠ t.id) :
    insertAfter t.id b (p ++ t :: q) = .ok (p ++ t :: b :: q) := by
  induction p with
  | nil => simp [insertAfter]
  | cons x p ih =>
    rw [List.cons_append, insertAfter, if_neg (h x (by simp)), ih (fun y hy => h y (by simp [hy]))]; rfl

/-- Taking out one block and putting it elsewhere is a move of that block. -/
theorem moves_of_reinsert {B} {p q u v : List Block} {s : Block} (h : p ++ q = u ++ v) {ls R}
    (hm : Moves (lay B (u ++ s :: v)) ls R) : Moves (lay B (p ++ s :: q)) (chars (B.getD (s.mtch - 1) []) :: ls) R := by
  rw [lay_append, lay_cons] at hm ⊢
  rcases List.append_eq_append_iff.1 h with ⟨w, rfl, rfl⟩ | ⟨w, rfl, rfl⟩
  · have := Moves.right (lay B p) (B.getD (s.mtch - 1) []) (lay B w) (lay B v) ls R (by
      rw [lay_append] at hm; simpa using hm)
    rw [lay_append]; simpa using this
  · have := Moves.left (lay B u) (lay B w) (B.getD (s.mtch - 1) []) (lay B q) ls R (by
      rw [lay_append] at hm; simpa using hm)
    rw [lay_append]; simpa using this

theorem mem_split_id {C : List Block} (h : (C.map (·.id)).Nodup) {s : Block} (hs : s ∈ C) :
    ∃ p q, C = p ++ s :: q ∧ ∀ x ∈ p, x.id ≠ s.id := by
  obtain ⟨p, q, rfl⟩ := List.append_of_mem hs
  refine ⟨p, q, rfl, ?_⟩
  intro x hx he
  rw [List.map_append, List.map_cons, List.nodup_append] at h
  exact h.2.2 x.id (List.mem_map_of_mem hx) s.id (by simp) he

theorem perform_spec {D C B cand} {s : Block} (h : Inv C B) (hp : Points C cand) (hs : s ∈ C) (hC : 1 < C.length) :
    ∃ D' C', perform_move D C cand s = .ok (D', C') ∧ Inv C' B ∧ Adj C' ∧ C'.length = C.length ∧
      Recorded D [chars (B.getD (s.mtch - 1) [])] D' ∧
      (∀ ls R, Moves (lay B C') ls R → Moves (lay B C) (chars (B.getD (s.mtch - 1) []) :: ls) R) ∧
      ∃ p q u v, C = p ++ s :: q ∧ p ++ q = u ++ v ∧ C' = u ++ s :: v ∧
        ((s.mtch = 1 ∧ ∃ t v', t.mtch = 2 ∧ v = t :: v') ∨ ∃ t u', s.mtch = t.mtch + 1 ∧ u = u' ++ [t]) := by
  obtain ⟨p, q, rfl, hne⟩ := mem_split_id h.ids hs
  have hlen := h.len s hs
  have hpos := h.pos s hs
  have hrs := h.range hs
  have hCB := h.length
  -- the block next to which it goes
  obtain ⟨t, ht, htm⟩ : ∃ t ∈ p ++ s :: q, t.mtch = if s.mtch = 1 then 2 else s.mtch - 1 := by
    apply h.exists
    · split <;> omega
    · split <;> omega
  have hts : t ≠ s := by
    rintro rfl
    split at htm <;> omega
  have htpq : t ∈ p ++ q := by
    rcases List.mem_append.1 ht with h' | h'
    · simp [h']
    · rcases List.mem_cons.1 h' with h' | h'
      · exact absurd h' hts
      · simp [h']
  have hids' : ((p ++ q).map (·.id)).Nodup := by
    refine List.Nodup.sublist ?_ h.ids
    exact (List.Sublist.append (List.Sublist.refl p) (List.sublist_cons_self s q)).map _
  obtain ⟨u, v, huv, hu⟩ := mem_split_id hids' htpq
  obtain ⟨e, he1, he2⟩ := hp.2 t ht
  -- where it goes
  obtain ⟨u', v', huv', hins, hadj, hpl⟩ : ∃ u' v', p ++ q = u' ++ v' ∧
      (if s.mtch = 1 then do
        let c ← rd cand 2
        let p' ← nonNull c.sync
        insertBefore s p' (p ++ q)
      else do
        let c ← rd cand (s.mtch - 1)
        let p' ← nonNull c.sync
        insertAfter p' s (p ++ q) : Res (List Block)) = .ok (u' ++ s :: v') ∧ Adj (u' ++ s :: v') ∧
      ((s.mtch = 1 ∧ ∃ t v'', t.mtch = 2 ∧ v' = t :: v'') ∨ ∃ t u'', s.mtch = t.mtch + 1 ∧ u' = u'' ++ [t]) := by
    by_cases h1 : s.mtch = 1
    · rw [if_pos h1] at htm ⊢
      refine ⟨u, t :: v, huv, ?_, ⟨u, s, t, v, rfl, by omega⟩, .inl ⟨h1, t, v, htm, rfl⟩⟩
      rw [← htm, he1, bind_ok, he2]
      simp only [nonNull]
      rw [bind_ok, huv, insertBefore_eq u v s t hu]
    · rw [if_neg h1] at htm ⊢
      refine ⟨u ++ [t], v, by rw [huv]; simp, ?_, ⟨u, t, s, v, by simp, by omega⟩, .inr ⟨t, u, by omega, rfl⟩⟩
      rw [← htm, he1, bind_ok, he2]
      simp only [nonNull]
      rw [bind_ok, huv, insertAfter_eq u v s t hu]
      simp
  have hperm : (u' ++ s :: v').Perm (p ++ s :: q) := by
    refine List.perm_middle.trans (List.Perm.trans ?_ List.perm_middle.symm)
    rw [huv']
  refine ⟨{ D with
      total_moves := D.total_moves + 1
      moves := fun i => if i = (min s.length MAX_MOVE_LENGTH).toNat then D.moves i + 1 else D.moves i },
    u' ++ s :: v', ?_, ?_, hadj, hperm.length_eq, ?_, ?_, p, q, u', v', rfl, huv', rfl, hpl⟩
  · unfold perform_move
    rw [remove_eq p q s hne, bind_ok, hins, bind_ok, if_neg (by unfold MAX_MOVE_LENGTH; omega)]
    rfl
  · refine ⟨?_, ?_, ?_, ?_⟩
    · exact (hperm.map _).nodup_iff.2 h.ids
    · exact (hperm.map _).trans h.perm
    · intro c hc; exact h.len c (hperm.mem_iff.1 hc)
    · intro c hc; exact h.pos c (hperm.mem_iff.1 hc)
  · refine ⟨rfl, rfl, by simp, ?_⟩
    intro i
    rw [← hlen]
    simp only [List.countP_cons, List.countP_nil, decide_eq_true_eq]
    unfold MAX_MOVE_LENGTH
    by_cases hi : i = (min s.length (100 : Nat)).toNat
    · rw [if_pos hi, if_pos (by omega)]; simp
    · rw [if_neg hi, if_neg (by omega)]; simp
  · intro ls R hm
    exact moves_of_reinsert huv' hm

/-! ## The loop -/

theorem Recorded.trans {D D' D'' : Edodata} {l ls : List Int} (h : Recorded D l D') (h' : Recorded D' ls D'') :
    Recorded D (l ++ ls) D'' := by
  refine ⟨by rw [h'.insertions, h.insertions], by rw [h'.deletions, h.deletions], ?_, ?_⟩
  · rw [h'.moves, h.moves, List.length_append]; push_cast; omega
  · intro i; rw [h'.lengths, h.lengths, List.countP_append]; push_cast; omega

theorem countLoop_spec : ∀ (fuel : Nat) (D : Edodata) (C : List Block) (B), C.length ≤ fuel → Inv C B →
    ∃ D' ls, countLoop fuel D C = .ok D' ∧ Recorded D ls D' ∧ Moves (lay B C) ls B.flatten ∧ ls.length ≤ C.length - 1 ∧
        ∀ l ∈ ls, 1 ≤ l := by
  intro fuel
  have base : ∀ (fuel : Nat) (D : Edodata) (C : List Block) (B), ¬ C.length > 1 → Inv C B →
      ∃ D' ls, countLoop fuel D C = .ok D' ∧ Recorded D ls D' ∧ Moves (lay B C) ls B.flatten ∧ ls.length ≤ C.length - 1 ∧
        ∀ l ∈ ls, 1 ≤ l := by
    intro fuel D C B hC h
    refine ⟨D, [], ?_, ⟨rfl, rfl, by simp, by simp⟩, ?_, by simp, by simp⟩
    · rw [countLoop.eq_def]; simp only; rw [if_neg hC]
    · have hl := h.length
      have : lay B C = B.flatten := by
        rcases C with _ | ⟨c, _ | ⟨c2, C⟩⟩
        · have : B = [] := List.length_eq_zero_iff.1 (by simpa using hl.symm)
          subst this; rfl
        · rcases B with _ | ⟨b, _ | ⟨b2, B⟩⟩
          · simp at hl
          · have := h.range (c := c) (by simp)
            have e : c.mtch = 1 := by simp at this; omega
            simp [lay, e]
          · simp at hl
        · simp at hC
      rw [this]; exact .done _
  induction fuel with
  | zero => intro D C B hf h; exact base 0 D C B (by omega) h
  | succ fuel ih =>
    intro D C B hf h
    by_cases hC : C.length > 1
    · obtain ⟨cand, e1, hp⟩ := find_candidates_spec h
      obtain ⟨s, hs, e2⟩ := find_move_spec h hp (by rintro rfl; simp at hC)
      obtain ⟨D1, C1, e3, i1, a1, l1, r1, m1, _⟩ := perform_spec (D := D) h hp hs hC
      obtain ⟨C2, B2, e4, i2, f2, y2, _, s2, n2⟩ := combine_spec C1 B i1
      have hlt := s2 a1
      obtain ⟨D', ls, e5, r2, m2, l2, p2⟩ := ih D1 C2 B2 (by omega) i2
      refine ⟨D', chars (B.getD (s.mtch - 1) []) :: ls, ?_, ?_, ?_, ?_, ?_⟩
      · rw [countLoop, if_pos hC]
        simp only
        rw [e1, bind_ok, e2, bind_ok, e3, bind_ok]
        simp only
        rw [e4, bind_ok, e5]
      · exact r1.trans r2
      · apply m1
        rw [y2, f2] at m2
        exact m2
      · have hz : C2.length ≠ 0 := by
          intro hz
          exact n2 (by rintro rfl; simp at l1; omega) (List.length_eq_zero_iff.1 hz)
        simp only [List.length_cons]; omega
      · intro l hl
        rcases List.mem_cons.1 hl with rfl | hl
        · rw [← h.len s hs]; exact h.pos s hs
        · exact p2 l hl
    · exact base _ D C B hC h

/-- The pair of numbers that describes a block. -/
def Block.pair (b : Block) : Nat × Int := (b.mtch, b.length)

theorem find_mtch {C : List Block} (h : (C.map (·.mtch)).Nodup) {c : Block} (hc : c ∈ C) :
    C.find? (fun b => b.mtch = c.mtch) = some c := by
  induction C with
  | nil => simp at hc
  | cons x C ih =>
    rw [List.map_cons, List.nodup_cons] at h
    rcases List.mem_cons.1 hc with rfl | hc'
    · simp
    · rw [List.find?_cons_of_neg, ih h.2 hc']
      simp only [decide_eq_true_eq]
      intro he
      exact h.1 (he ▸ List.mem_map_of_mem hc')

theorem count_moves_spec (D : Edodata) (C : List Block) (hid : (C.map (·.id)).Nodup)
    (hp : (C.map (·.mtch)).Perm (List.range' 1 C.length)) (hl : ∀ b ∈ C, 1 ≤ b.length) :
    ∃ D' ls S, count_moves D C = .ok D' ∧ Recorded D ls D' ∧ Moves (C.map Block.pair) ls S ∧
      S.map Prod.fst = List.range' 1 C.length ∧ ls.length ≤ C.length - 1 ∧ (∀ l ∈ ls, 1 ≤ l) ∧
      (ls = [] ↔ C.map (·.mtch) = List.range' 1 C.length) := by
  have hnd : (C.map (·.mtch)).Nodup := hp.symm.nodup (List.nodup_range' ..)
  obtain ⟨len, hlen⟩ : ∃ len : Nat → Int, len = fun m => ((C.find? (fun b => b.mtch = m)).map (·.length)).getD 0 := ⟨_, rfl⟩
  have hlc : ∀ c ∈ C, len c.mtch = c.length := by
    intro c hc; rw [hlen]; simp only; rw [find_mtch hnd hc]; rfl
  obtain ⟨B, hB⟩ : ∃ B : List (List (Nat × Int)), B = (List.range' 1 C.length).map (fun m => [(m, len m)]) := ⟨_, rfl⟩
  have hBl : B.length = C.length := by rw [hB]; simp
  have hr : ∀ c ∈ C, 1 ≤ c.mtch ∧ c.mtch ≤ C.length := by
    intro c hc
    have := hp.mem_iff.1 (List.mem_map_of_mem hc)
    rw [List.mem_range'_1] at this; omega
  have hget : ∀ c ∈ C, B.getD (c.mtch - 1) [] = [c.pair] := by
    intro c hc
    have := hr c hc
    rw [List.getD_eq_getElem _ _ (by omega)]
    simp only [hB, List.getElem_map, List.getElem_range']
    rw [show 1 + 1 * (c.mtch - 1) = c.mtch by omega, hlc c hc]
    rfl
  have hinv : Inv C B := by
    refine ⟨hid, by rw [hBl]; exact hp, ?_, hl⟩
    intro c hc
    rw [hget c hc]; simp [chars, Block.pair]
  have hlay : ∀ l : List Block, (∀ c ∈ l, c ∈ C) → lay B l = l.map Block.pair := by
    intro l
    induction l with
    | nil => intro _; rfl
    | cons c l ih =>
      intro h
      rw [lay_cons, hget c (h c (by simp)), ih (fun b hb => h b (by simp [hb]))]; rfl
  have hflat : B.flatten = (List.range' 1 C.length).map (fun m => (m, len m)) := by
    rw [hB]
    generalize List.range' 1 C.length = r
    induction r with
    | nil => rfl
    | cons m r ih => simp [ih]
  obtain ⟨C1, B1, e1, i1, f1, y1, l1, _, _⟩ := combine_spec C B hinv
  obtain ⟨D', ls, e2, r2, m2, l2, p2⟩ := countLoop_spec C1.length D C1 B1 (Nat.le_refl _) i1
  have hS : B1.flatten.map Prod.fst = List.range' 1 C.length := by
    rw [f1, hflat, List.map_map]
    simp [Function.comp_def]
  rw [y1, hlay C (fun _ h => h)] at m2
  refine ⟨D', ls, B1.flatten, ?_, r2, m2, hS, by omega, p2, ?_⟩
  · unfold count_moves; rw [e1, bind_ok, e2]
  · constructor
    · intro h
      subst h
      have : ∀ {L ls R}, Moves L ls R → ls = [] → L = R := by
        intro L ls R h
        cases h with
        | done => intro _; rfl
        | right => intro h; simp at h
        | left => intro h; simp at h
      have := this m2 rfl
      rw [← this, List.map_map] at hS
      simpa [Function.comp_def, Block.pair] using hS
    · intro h
      cases C with
      | nil => simp at l1; subst l1; simp at l2; exact l2
      | cons cur rest =>
        rw [List.map_cons, List.length_cons, List.range'_succ, List.cons.injEq] at h
        obtain ⟨b, hb⟩ := combineLoop_sorted rest.length cur rest (Nat.le_refl _) (by rw [h.2, h.1])
        rw [combine_adjacent, hb] at e1
        cases e1
        simpa using l2

/-! ## Counting insertions and deletions -/

open Sync (Sync Substr IsAlignment Numbered piece Tiles rdI)

theorem insertionLoop_spec (text : List Nat) : ∀ (n i : Nat) (total : Int), i + n ≤ text.length →
    insertionLoop text n i total = .ok (total + ((text.drop i).take n).countP (fun c => c ≠ REJECT_CHARACTER)) := by
  intro n
  induction n with
  | zero => intro i total _; simp [insertionLoop]
  | succ n ih =>
    intro i total h
    have hi : i < text.length := by omega
    have hrd : rdI text (i : Int) = .ok text[i] := by
      unfold rdI; rw [if_neg (by omega)]; simp [rd, List.getElem?_eq_getElem hi]
    rw [insertionLoop, hrd, bind_ok, List.drop_eq_getElem_cons hi, List.take_succ_cons, List.countP_cons]
    have := ih (i + 1) (if text[i] ≠ REJECT_CHARACTER then total + 1 else total) (by omega)
    push_cast at this ⊢
    rw [this]
    by_cases hr : text[i] ≠ REJECT_CHARACTER
    · simp only [hr, if_true, ne_eq, not_false_eq_true, decide_true]; congr 1; omega
    · simp only [hr, if_false, ne_eq, decide_false]; simp

/-- The characters of the unmatched items. -/
def unm (a : List Nat) (l : List Sync) : List Nat := l.flatMap (fun s => if s.mtch = none then piece a (s.sub 0) else [])
/-- The characters of the matched items. -/
def mat (a : List Nat) (l : List Sync) : List Nat := l.flatMap (fun s => if s.mtch = none then [] else piece a (s.sub 0))

theorem piece_length {a : List Nat} {s : Substr} (h0 : 0 ≤ s.start) (h1 : s.start + s.length ≤ a.length) (h2 : 0 ≤ s.length) :
    ((piece a s).length : Int) = s.length := by
  unfold piece; rw [List.length_take, List.length_drop]; omega

theorem count_insertions_spec {a : List Nat} {l : List Sync} (h : IsAlignment [a] l) :
    ∀ (l' : List Sync) (total : Int), (∀ s ∈ l', s ∈ l) →
      count_insertions a l' total = .ok (total + (unm a l').countP (fun c => c ≠ REJECT_CHARACTER)) := by
  intro l'
  induction l' with
  | nil => intro total _; simp [count_insertions, unm]
  | cons s l' ih =>
    intro total hs
    have hsl := hs s (by simp)
    obtain ⟨b1, b2, b3, b4⟩ := Sync.mem_bounds h hsl
    have ih := fun t => ih t (fun x hx => hs x (by simp [hx]))
    rw [count_insertions, Sync.only_eq h hsl, bind_ok]
    by_cases hm : s.mtch = none
    · rw [if_pos hm]
      have e : (s.sub 0).start = (((s.sub 0).start.toNat : Nat) : Int) := by omega
      have := insertionLoop_spec a ((s.sub 0).stop + 1 - (s.sub 0).start).toNat (s.sub 0).start.toNat total (by omega)
      rw [← e] at this
      rw [this, bind_ok, ih]
      unfold unm
      rw [List.flatMap_cons, if_pos hm, List.countP_append]
      unfold piece
      rw [show ((s.sub 0).stop + 1 - (s.sub 0).start).toNat = (s.sub 0).length.toNat by omega]
      push_cast; congr 1; omega
    · rw [if_neg hm]
      show (count_insertions a l' total) = _
      rw [ih]
      unfold unm
      rw [List.flatMap_cons, if_neg hm, List.nil_append]

/-- The blocks left by `count_deletions`. -/
def blocks (cells : Nat → Int) (l : List Sync) : List Block :=
  l.filterMap (fun s => s.mtch.map (fun c => ⟨c, (cells c).toNat, (s.sub 0).length⟩))

theorem count_deletions_spec {b : List Nat} {l : List Sync} (h : IsAlignment [b] l) (cells : Nat → Int) :
    ∀ (l' : List Sync) (total : Int), (∀ s ∈ l', s ∈ l) →
      count_deletions cells l' total = .ok (blocks cells l', total + (unm b l').length) := by
  intro l'
  induction l' with
  | nil => intro total _; simp [count_deletions, unm, blocks]
  | cons s l' ih =>
    intro total hs
    have hsl := hs s (by simp)
    obtain ⟨b1, b2, b3, b4⟩ := Sync.mem_bounds h hsl
    have ih := fun t => ih t (fun x hx => hs x (by simp [hx]))
    have hpl := piece_length (a := b) (s := s.sub 0) (by omega) (by omega) (by omega)
    rw [count_deletions, Sync.only_eq h hsl, bind_ok]
    cases hm : s.mtch with
    | none =>
      simp only
      rw [ih]
      unfold unm blocks
      rw [List.flatMap_cons, if_pos hm, List.length_append, List.filterMap_cons, hm]
      simp only [Option.map_none]
      congr 2; push_cast; omega
    | some c =>
      simp only
      rw [ih, bind_ok]
      unfold unm blocks
      rw [List.flatMap_cons, if_neg (by simp [hm]), List.filterMap_cons, hm]
      rfl

theorem tiles_flat (a : List Nat) : ∀ (l : List Sync) (p : Nat), Tiles p (l.map (·.sub 0)) a.length →
    l.flatMap (fun s => piece a (s.sub 0)) = a.drop p := by
  intro l
  induction l with
  | nil => intro p h; simp only [List.map_nil, Tiles] at h; simp; omega
  | cons s l ih =>
    intro p h
    simp only [List.map_cons, Tiles] at h
    obtain ⟨h1, h2, h3, h4⟩ := h
    have := ih (p + (s.sub 0).length.toNat) (by
      rw [show ((p + (s.sub 0).length.toNat : Nat) : Int) = (p : Int) + (s.sub 0).length by omega]; exact h4)
    rw [List.flatMap_cons, this]
    unfold piece
    rw [show (s.sub 0).start.toNat = p by omega, ← Sync.take_drop_split]

theorem count_split (a : List Nat) (c : Nat) : ∀ l : List Sync, (l.flatMap (fun s => piece a (s.sub 0))).count c =
    (unm a l).count c + (mat a l).count c := by
  intro l
  induction l with
  | nil => simp [unm, mat]
  | cons s l ih =>
    unfold unm mat at *
    rw [List.flatMap_cons, List.flatMap_cons, List.flatMap_cons, List.count_append, List.count_append, List.count_append, ih]
    by_cases h : s.mtch = none
    · simp only [h, if_true, List.count_nil]; omega
    · simp only [h, if_false, List.count_nil]; omega

theorem count_mat (t : List Nat) (W : Nat → List Nat) (c : Nat) : ∀ l : List Sync,
    (∀ s ∈ l, ∀ k, s.mtch = some k → piece t (s.sub 0) = W k) →
    (mat t l).count c = ((l.filterMap (·.mtch)).map (fun k => (W k).count c)).sum := by
  intro l
  induction l with
  | nil => intro _; rfl
  | cons s l ih =>
    intro h
    have ih := ih (fun x hx => h x (by simp [hx]))
    unfold mat at *
    rw [List.flatMap_cons, List.count_append, ih]
    cases hm : s.mtch with
    | none => simp [hm]
    | some k => simp [hm, h s (by simp) k hm]

/-- Multiset differences: what is left over on each side. -/
theorem leftover {a b : List Nat} {r : Sync.Synclist2} (h1 : IsAlignment [a] r.items1) (h2 : IsAlignment [b] r.items2)
    (hp : (r.items2.filterMap (·.mtch)).Perm (r.items1.filterMap (·.mtch)))
    (hs : ∀ x ∈ r.items1, ∀ y ∈ r.items2, x.mtch ≠ none → x.mtch = y.mtch → piece a (x.sub 0) = piece b (y.sub 0))
    (hu : ∀ x ∈ r.items1, ∀ y ∈ r.items2, x.mtch = none → y.mtch = none → ∀ c, c ≠ REJECT_CHARACTER →
      c ∈ piece a (x.sub 0) → c ∉ piece b (y.sub 0)) :
    ((unm a r.items1).filter (fun c => c ≠ REJECT_CHARACTER)).Perm ((a.filter (fun c => c ≠ REJECT_CHARACTER)).diff b) ∧
    (unm b r.items2).Perm (b.diff (a.filter (fun c => c ≠ REJECT_CHARACTER))) := by
  obtain ⟨W, hW⟩ : ∃ W : Nat → List Nat, W = fun k => ((r.items1.find? (fun s => s.mtch = some k)).map
    (fun s => piece a (s.sub 0))).getD [] := ⟨_, rfl⟩
  have w2 : ∀ y ∈ r.items2, ∀ k, y.mtch = some k → piece b (y.sub 0) = W k := by
    intro y hy k hk
    have : k ∈ r.items1.filterMap (·.mtch) := hp.mem_iff.1 (List.mem_filterMap.2 ⟨y, hy, hk⟩)
    obtain ⟨x, hx, hxk⟩ := List.mem_filterMap.1 this
    rw [hW]; simp only
    cases hf : r.items1.find? (fun s => decide (s.mtch = some k)) with
    | none =>
      rw [List.find?_eq_none] at hf
      exact absurd hxk (by simpa using hf x hx)
    | some x' =>
      have hm := List.find?_some hf
      simp only [decide_eq_true_eq] at hm
      have := hs x' (List.mem_of_find?_eq_some hf) y hy (by simp [hm]) (by rw [hm, hk])
      simp [this]
  have w1 : ∀ x ∈ r.items1, ∀ k, x.mtch = some k → piece a (x.sub 0) = W k := by
    intro x hx k hk
    have : k ∈ r.items2.filterMap (·.mtch) := hp.mem_iff.2 (List.mem_filterMap.2 ⟨x, hx, hk⟩)
    obtain ⟨y, hy, hyk⟩ := List.mem_filterMap.1 this
    rw [hs x hx y hy (by simp [hk]) (by rw [hk, hyk])]
    exact w2 y hy k hyk
  have e1 := tiles_flat a r.items1 0 (by simpa using h1.tiles 0 (by simp))
  have e2 := tiles_flat b r.items2 0 (by simpa using h2.tiles 0 (by simp))
  rw [List.drop_zero] at e1 e2
  have hm : ∀ c, (mat a r.items1).count c = (mat b r.items2).count c := by
    intro c
    rw [count_mat a W c _ w1, count_mat b W c _ w2]
    exact (hp.symm.map _).sum_eq
  have hrej : (mat a r.items1).count REJECT_CHARACTER = 0 := by
    rw [List.count_eq_zero]
    intro hc
    unfold mat at hc
    rw [List.mem_flatMap] at hc
    obtain ⟨s, hs, hc⟩ := hc
    split at hc
    · simp at hc
    · rename_i hn
      obtain ⟨w, _, hw, he⟩ := h1.matched s hs hn
      have := he 0 (by simp)
      simp only [List.getElem_cons_zero] at this
      rw [this] at hc
      exact hw hc
  have ca : ∀ c, a.count c = (unm a r.items1).count c + (mat a r.items1).count c := by
    intro c; rw [← count_split, e1]
  have cb : ∀ c, b.count c = (unm b r.items2).count c + (mat b r.items2).count c := by
    intro c; rw [← count_split, e2]
  have hex : ∀ c, c ≠ REJECT_CHARACTER → (unm a r.items1).count c = 0 ∨ (unm b r.items2).count c = 0 := by
    intro c hc
    by_contra hcon
    rw [not_or] at hcon
    have m1 : c ∈ unm a r.items1 := List.count_pos_iff.1 (by omega)
    have m2 : c ∈ unm b r.items2 := List.count_pos_iff.1 (by omega)
    unfold unm at m1 m2
    rw [List.mem_flatMap] at m1 m2
    obtain ⟨x, hx, m1⟩ := m1
    obtain ⟨y, hy, m2⟩ := m2
    split at m1
    · split at m2
      · rename_i n1 n2
        exact hu x hx y hy n1 n2 c hc m1 m2
      · simp at m2
    · simp at m1
  have cf : ∀ (l : List Nat) c, (l.filter (fun c => decide (c ≠ REJECT_CHARACTER))).count c =
      if c = REJECT_CHARACTER then 0 else l.count c := by
    intro l c
    split
    · rename_i h; subst h
      rw [List.count_eq_zero]; simp
    · rename_i h
      rw [List.count_filter (by simpa using h)]
  constructor
  · rw [List.perm_iff_count]
    intro c
    rw [List.count_diff, cf, cf]
    split
    · simp
    · rename_i hc
      have := ca c; have := cb c; have := hm c; have := hex c hc
      omega
  · rw [List.perm_iff_count]
    intro c
    rw [List.count_diff, cf]
    split
    · rename_i hc; subst hc
      have := cb REJECT_CHARACTER; have := hm REJECT_CHARACTER; omega
    · rename_i hc
      have := ca c; have := cb c; have := hm c; have := hex c hc
      omega

/-- The blocks from which the moves are counted. -/
theorem blocks_start {a b : List Nat} {r : Sync.Synclist2} (e : Sync.transpose_sync a b = .ok r) :
    ((blocks r.cells r.items2).map (·.id)).Nodup ∧
    ((blocks r.cells r.items2).map (·.mtch)).Perm (List.range' 1 (blocks r.cells r.items2).length) ∧
    ∀ x ∈ blocks r.cells r.items2, 1 ≤ x.length := by
  obtain ⟨r', e', h1, h2, hn, hp, hs, hu⟩ := Sync.transpose_spec a b
  rw [e] at e'
  cases e'
  have hids : ∀ l : List Sync, (blocks r.cells l).map (·.id) = l.filterMap (·.mtch) := by
    intro l
    induction l with
    | nil => rfl
    | cons s l ih =>
      unfold blocks at *
      cases hm : s.mtch <;> simp [hm, ih]
  have hmt : ∀ l : List Sync, (blocks r.cells l).map (·.mtch) = ((l.filterMap (·.mtch)).map r.cells).map Int.toNat := by
    intro l
    induction l with
    | nil => rfl
    | cons s l ih =>
      unfold blocks at *
      cases hm : s.mtch <;> simp [hm, ih]
  have hlen : (blocks r.cells r.items2).length = (r.items1.filterMap (·.mtch)).length := by
    have := congrArg List.length (hids r.items2)
    rw [List.length_map] at this
    rw [this, hp.length_eq]
  have hperm : ((blocks r.cells r.items2).map (·.mtch)).Perm (List.range' 1 (blocks r.cells r.items2).length) := by
    rw [hmt, hlen]
    refine (((hp.map r.cells)).map Int.toNat).trans (List.Perm.of_eq ?_)
    rw [hn.2, List.map_map, List.range'_eq_map_range]
    apply List.map_congr_left
    intro i _
    simp only [Function.comp]; omega
  have hpos : ∀ x ∈ blocks r.cells r.items2, 1 ≤ x.length := by
    intro x hx
    unfold blocks at hx
    rw [List.mem_filterMap] at hx
    obtain ⟨s, hs, hx⟩ := hx
    cases hm : s.mtch with
    | none => simp [hm] at hx
    | some k =>
      rw [hm] at hx
      simp only [Option.map_some, Option.some.injEq] at hx
      subst hx
      obtain ⟨w, hw, _, he⟩ := h2.matched s hs (by simp [hm])
      have he := he 0 (by simp)
      simp only [List.getElem_cons_zero] at he
      obtain ⟨b1, b2, b3, b4⟩ := Sync.mem_bounds h2 hs
      have hl := piece_length (a := b) (s := s.sub 0) (by omega) (by omega) (by omega)
      rw [he] at hl
      have := List.length_pos_iff.2 hw
      show 1 ≤ (s.sub 0).length
      omega
  exact ⟨by rw [hids]; exact hp.nodup_iff.2 hn.1, hperm, hpos⟩

theorem editop_spec (a b : List Nat) : ∃ r D, Sync.transpose_sync a b = .ok r ∧ editop a b = .ok D ∧
    D.total_insertions = ((a.filter (fun c => c ≠ REJECT_CHARACTER)).diff b).length ∧
    D.total_deletions = (b.diff (a.filter (fun c => c ≠ REJECT_CHARACTER))).length ∧
    ∃ ls S, D.total_moves = ls.length ∧ (∀ i : Nat, D.moves i = ls.countP (fun l : Int => min l 100 = i)) ∧
      Moves ((blocks r.cells r.items2).map Block.pair) ls S ∧
      S.map Prod.fst = List.range' 1 (blocks r.cells r.items2).length ∧
      ls.length ≤ (blocks r.cells r.items2).length - 1 ∧ (∀ l ∈ ls, 1 ≤ l) ∧
      (ls = [] ↔ (blocks r.cells r.items2).map (·.mtch) = List.range' 1 (blocks r.cells r.items2).length) := by
  obtain ⟨r, e, h1, h2, hn, hp, hs, hu⟩ := Sync.transpose_spec a b
  obtain ⟨p1, p2⟩ := leftover h1 h2 hp hs hu
  obtain ⟨hnodup, hperm, hpos⟩ := blocks_start e
  obtain ⟨D, ls, S, e3, rec, mv, hS, hl, hp1, hz⟩ := count_moves_spec
    { Edodata.zero with
      total_insertions := 0 + ((unm a r.items1).countP (fun c => c ≠ REJECT_CHARACTER) : Nat)
      total_deletions := 0 + ((unm b r.items2).length : Nat) } (blocks r.cells r.items2)
    hnodup hperm hpos
  refine ⟨r, D, e, ?_, ?_, ?_, ls, S, ?_, ?_, mv, hS, hl, hp1, hz⟩
  · unfold editop
    rw [e, bind_ok, count_insertions_spec h1 _ _ (fun _ h => h), bind_ok, count_deletions_spec h2 _ _ _ (fun _ h => h), bind_ok]
    exact e3
  · rw [rec.insertions, ← p1.length_eq, ← List.countP_eq_length_filter]; simp
  · rw [rec.deletions, ← p2.length_eq]; simp
  · rw [rec.moves]; simp [Edodata.zero]
  · intro i; rw [rec.lengths]; simp [Edodata.zero]

end Ocr.Edo
