import Verif.Model.Sort
import Verif.Spec.Sort
import Mathlib.Data.List.Induction
import Mathlib.Data.List.Perm.Basic

namespace Ocr.Sort

variable {α : Type} (cmp : α → α → Int)

theorem rd_mid (p q : List α) (x : α) : rd (p ++ x :: q) p.length = .ok x := by
  simp [rd]

theorem wr_mid (p q : List α) (x y : α) : wr (p ++ x :: q) p.length y = .ok (p ++ y :: q) := by
  simp [wr]

theorem rd_mid' (p q : List α) (x : α) (n : Nat) (h : n = p.length) : rd (p ++ x :: q) n = .ok x := by
  subst h; exact rd_mid p q x

theorem wr_mid' (p q : List α) (x y : α) (n : Nat) (h : n = p.length) :
    wr (p ++ x :: q) n y = .ok (p ++ y :: q) := by
  subst h; exact wr_mid p q x y

theorem scanJ_spec (ref h : α) (p : List α) (M : List α) : ∀ q : List α,
    ∃ M1 S, M = M1 ++ S ∧
      scanJ cmp (p ++ h :: (M ++ q)) ref p.length (p.length + M.length) = .ok (p.length + M1.length) ∧
      (∀ x ∈ S, cmp ref x < 0) ∧ (∀ M' x, M1 = M' ++ [x] → ¬ cmp ref x < 0) := by
  induction M using List.reverseRecOn with
  | nil =>
    intro q
    refine ⟨[], [], rfl, ?_, by simp, by simp⟩
    simp only [List.length_nil, Nat.add_zero]
    cases hp : p.length with
    | zero => simp [scanJ]
    | succ n => rw [scanJ]; simp
  | append_singleton M x ih =>
    intro q
    have e : p.length + (M ++ [x]).length = (p.length + M.length) + 1 := by simp; omega
    have hr : rd (p ++ h :: (M ++ [x] ++ q)) (p.length + M.length + 1) = .ok x := by
      have := rd_mid' (p ++ h :: M) q x (p.length + M.length + 1) (by simp; omega)
      simpa using this
    by_cases hx : cmp ref x < 0
    · obtain ⟨M1, S, e1, e2, e3, e4⟩ := ih (x :: q)
      refine ⟨M1, S ++ [x], by simp [e1], ?_, ?_, e4⟩
      · rw [e, scanJ, if_pos (by omega), hr]
        simp only [Res.bind_ok, if_pos hx]
        have : M ++ [x] ++ q = M ++ x :: q := by simp
        rw [this]; exact e2
      · intro y hy
        rcases List.mem_append.1 hy with hy | hy
        · exact e3 y hy
        · simp at hy; subst hy; exact hx
    · refine ⟨M ++ [x], [], by simp, ?_, by simp, ?_⟩
      · rw [e, scanJ, if_pos (by omega), hr]
        simp [if_neg hx]
      · intro M' y hy
        have := List.append_inj' hy rfl
        simp at this; rw [← this.2]; exact hx

theorem scanI_spec (ref h : α) (q : List α) (M : List α) : ∀ (p : List α) (fuel : Nat), M.length ≤ fuel →
    ∃ S M1, M = S ++ M1 ∧
      scanI cmp (p ++ (M ++ h :: q)) ref (p.length + M.length) fuel p.length = .ok (p.length + S.length) ∧
      (∀ x ∈ S, cmp ref x > 0) ∧ (∀ x M', M1 = x :: M' → ¬ cmp ref x > 0) := by
  induction M with
  | nil =>
    intro p fuel _
    refine ⟨[], [], rfl, ?_, by simp, by simp⟩
    unfold scanI; simp
  | cons x M ih =>
    intro p fuel hf
    obtain ⟨fuel, rfl⟩ : ∃ f, fuel = f + 1 := ⟨fuel - 1, by simp at hf; omega⟩
    have hr : rd (p ++ (x :: M ++ h :: q)) p.length = .ok x := by
      have := rd_mid p (M ++ h :: q) x
      simpa using this
    by_cases hx : cmp ref x > 0
    · obtain ⟨S, M1, e1, e2, e3, e4⟩ := ih (p ++ [x]) fuel (by simp at hf; omega)
      refine ⟨x :: S, M1, by simp [e1], ?_, ?_, e4⟩
      · unfold scanI
        rw [if_pos (by simp), hr]
        simp only [Res.bind_ok, if_pos hx]
        simp only [List.append_assoc, List.length_append, List.length_cons, List.length_nil,
          List.cons_append, List.nil_append, Nat.zero_add] at e2 ⊢
        rw [show p.length + (M.length + 1) = p.length + 1 + M.length by omega, e2]
        congr 1; omega
      · intro y hy
        rcases List.mem_cons.1 hy with rfl | hy
        · exact hx
        · exact e3 y hy
    · refine ⟨[], x :: M, by simp, ?_, by simp, ?_⟩
      · unfold scanI
        rw [if_pos (by simp), hr]
        simp [if_neg hx]
      · intro y M' hy; simp at hy; rw [← hy.1]; exact hx

/-- The partitioning loop, from a state in which position `i` is the hole. -/
theorem partition_spec (ref : α) : ∀ (fuel : Nat) (M : List α), M.length ≤ fuel → ∀ (p q : List α) (h : α),
    ∃ L h' R, partition cmp ref fuel (p ++ h :: (M ++ q)) p.length (p.length + M.length) =
        .ok (p ++ (L ++ h' :: (R ++ q)), p.length + L.length, p.length + L.length) ∧
      (L ++ R).Perm M ∧ (∀ x ∈ L, 0 ≤ cmp ref x) ∧ (∀ x ∈ R, cmp ref x ≤ 0) := by
  intro fuel
  induction fuel with
  | zero =>
    intro M hM p q h
    have : M = [] := by simpa using hM
    subst this
    exact ⟨[], h, [], by unfold partition; simp, by simp, by simp, by simp⟩
  | succ fuel ih =>
    intro M hM p q h
    by_cases hM0 : M = []
    · subst hM0
      exact ⟨[], h, [], by unfold partition; simp, by simp, by simp, by simp⟩
    · have hlen : 0 < M.length := List.length_pos_of_ne_nil hM0
      obtain ⟨M1, S, e1, e2, e3, e4⟩ := scanJ_spec cmp ref h p M q
      unfold partition
      rw [if_pos (by omega)]
      simp only [e2, Res.bind_ok]
      rcases List.eq_nil_or_concat M1 with rfl | ⟨M1, x, rfl⟩
      · -- the hole is reached: all of M stays to the right
        simp only [List.length_nil, Nat.add_zero, ne_eq, not_true_eq_false, if_false, Res.pure_eq, Res.bind_ok]
        have hs : scanI cmp (p ++ h :: (M ++ q)) ref p.length (p ++ h :: (M ++ q)).length p.length
            = .ok p.length := by
          unfold scanI; simp
        rw [hs]
        simp only [Res.bind_ok, not_true_eq_false, if_false, Res.pure_eq]
        have hp : partition cmp ref fuel (p ++ h :: (M ++ q)) p.length p.length =
            .ok (p ++ h :: (M ++ q), p.length, p.length) := by
          unfold partition; simp
        rw [hp]
        refine ⟨[], h, M, by simp, by simp, by simp, ?_⟩
        intro y hy; rw [e1] at hy; have := e3 y (by simpa using hy); omega
      · -- x is moved into the hole at i; the hole is now at j
        have hx := e4 M1 x (by simp)
        rw [List.concat_eq_append] at e1
        subst e1
        have hne : p.length ≠ p.length + (M1.concat x).length := by simp
        simp only [ne_eq, hne, not_false_eq_true, if_true]
        have hr : rd (p ++ h :: (M1 ++ [x] ++ S ++ q)) (p.length + (M1.concat x).length) = .ok x := by
          have := rd_mid' (p ++ h :: M1) (S ++ q) x (p.length + (M1.concat x).length) (by simp)
          simpa using this
        have hw : wr (p ++ h :: (M1 ++ [x] ++ S ++ q)) p.length x =
            .ok (p ++ x :: (M1 ++ [x] ++ S ++ q)) := wr_mid _ _ _ _
        simp only [hr, hw, Res.bind_ok, Res.pure_eq]
        obtain ⟨T, M2, f1, f2, f3, f4⟩ := scanI_spec cmp ref x (S ++ q) M1 (p ++ [x])
          (p ++ x :: (M1 ++ [x] ++ S ++ q)).length (by simp; omega)
        have ea : p ++ [x] ++ (M1 ++ x :: (S ++ q)) = p ++ x :: (M1 ++ [x] ++ S ++ q) := by simp
        have el : (p ++ [x]).length + M1.length = p.length + (M1.concat x).length := by simp; omega
        rw [ea, el] at f2
        have ep : (p ++ [x]).length = p.length + 1 := by simp
        rw [ep] at f2
        rw [f2]
        simp only [Res.bind_ok]
        rcases M2 with _ | ⟨y, M2⟩
        · -- i reached j
          simp only [List.append_nil] at f1
          subst f1
          have : p.length + 1 + M1.length = p.length + (M1.concat x).length := by simp; omega
          simp only [this, not_true_eq_false, if_false, Res.pure_eq, Res.bind_ok]
          have hp : ∀ a n, partition cmp ref fuel a n n = .ok (a, n, n) := by
            intro a n; unfold partition; simp
          rw [hp]
          refine ⟨x :: M1, x, S, ?_, ?_, ?_, ?_⟩
          · simp
          · simpa using (List.perm_middle (a := x) (l₁ := M1) (l₂ := S)).symm
          · intro y hy
            rcases List.mem_cons.1 hy with rfl | hy
            · omega
            · have := f3 y hy; omega
          · intro y hy; have := e3 y hy; omega
        · -- y is moved into the hole at j; the hole is now at i
          have hy := f4 y M2 rfl
          subst f1
          have hne2 : p.length + 1 + T.length ≠ p.length + ((T ++ y :: M2).concat x).length := by simp; omega
          simp only [hne2, not_false_eq_true, if_true]
          have hr2 : rd (p ++ x :: (T ++ y :: M2 ++ [x] ++ S ++ q)) (p.length + 1 + T.length) = .ok y := by
            have := rd_mid' (p ++ x :: T) (M2 ++ [x] ++ S ++ q) y (p.length + 1 + T.length) (by simp; omega)
            simpa using this
          have hw2 : wr (p ++ x :: (T ++ y :: M2 ++ [x] ++ S ++ q)) (p.length + ((T ++ y :: M2).concat x).length) y =
              .ok ((p ++ x :: T) ++ y :: (M2 ++ (y :: S ++ q))) := by
            have := wr_mid' (p ++ x :: (T ++ y :: M2)) (S ++ q) x y
              (p.length + ((T ++ y :: M2).concat x).length) (by simp; omega)
            simpa using this
          simp only [hr2, hw2, Res.bind_ok, Res.pure_eq]
          obtain ⟨L, h', R, g1, g2, g3, g4⟩ := ih M2 (by simp at hM; omega) (p ++ x :: T) (y :: S ++ q) y
          have i1 : (p ++ x :: T).length = p.length + 1 + T.length := by simp; omega
          have i2 : p.length + 1 + T.length + M2.length = p.length + ((T ++ y :: M2).concat x).length - 1 := by
            simp; omega
          rw [i1, i2] at g1
          rw [g1]
          refine ⟨x :: T ++ L, h', R ++ y :: S, ?_, ?_, ?_, ?_⟩
          · simp; omega
          · have h1 : (x :: T ++ L ++ (R ++ y :: S)).Perm (x :: T ++ ((L ++ R) ++ y :: S)) := by simp
            refine h1.trans ?_
            have h2 : (x :: T ++ ((L ++ R) ++ y :: S)).Perm (x :: T ++ (M2 ++ y :: S)) :=
              (List.Perm.append_right (y :: S) g2).append_left _
            refine h2.trans ?_
            classical
            rw [List.perm_iff_count]
            intro a
            simp [List.count_cons]; omega
          · intro z hz
            rcases List.mem_append.1 hz with hz | hz
            · rcases List.mem_cons.1 hz with rfl | hz
              · omega
              · have := f3 z hz; omega
            · exact g3 z hz
          · intro z hz
            rcases List.mem_append.1 hz with hz | hz
            · exact g4 z hz
            · rcases List.mem_cons.1 hz with rfl | hz
              · omega
              · have := e3 z hz; omega

theorem quicksort_spec : ∀ (fuel : Nat) (seg : List α), seg ≠ [] → seg.length ≤ fuel → ∀ (p q : List α),
    ∃ seg', quicksort cmp fuel (p ++ (seg ++ q)) p.length (p.length + (seg.length - 1)) =
        .ok (p ++ (seg' ++ q)) ∧ seg'.Perm seg ∧
      (∀ S : α → Prop, TotalPreorderOn S cmp → (∀ x ∈ seg, S x) → seg'.Pairwise (fun x y => cmp x y ≤ 0)) := by
  intro fuel
  induction fuel with
  | zero => intro seg h0 hl; simp at hl; exact absurd hl h0
  | succ fuel ih =>
    intro seg h0 hl p q
    obtain ⟨ref, M, rfl⟩ : ∃ r M, seg = r :: M := by
      cases seg with
      | nil => exact absurd rfl h0
      | cons r M => exact ⟨r, M, rfl⟩
    simp only [List.length_cons, Nat.add_sub_cancel] at hl ⊢
    obtain ⟨L, h', R, g1, g2, g3, g4⟩ := partition_spec cmp ref (p ++ (ref :: M ++ q)).length M
      (by simp; omega) p q ref
    have hlen : L.length + R.length = M.length := by rw [← List.length_append]; exact g2.length_eq
    unfold quicksort
    have hr : rd (p ++ (ref :: M ++ q)) p.length = .ok ref := by
      simpa using rd_mid p (M ++ q) ref
    simp only [hr, Res.bind_ok]
    have : p ++ (ref :: M ++ q) = p ++ ref :: (M ++ q) := by simp
    rw [this] at g1 ⊢
    rw [g1]
    simp only [Res.bind_ok]
    have hw : wr (p ++ (L ++ h' :: (R ++ q))) (p.length + L.length) ref =
        .ok (p ++ (L ++ (ref :: (R ++ q)))) := by
      simpa using wr_mid' (p ++ L) (R ++ q) h' ref (p.length + L.length) (by simp)
    simp only [hw, Res.bind_ok]
    -- left part
    have left : ∃ L', (if ((p.length : Nat) : Int) < ((p.length + L.length : Nat) : Int) - 1 then
          quicksort cmp fuel (p ++ (L ++ (ref :: (R ++ q)))) p.length (p.length + L.length - 1)
        else pure (p ++ (L ++ (ref :: (R ++ q))))) = .ok (p ++ (L' ++ (ref :: (R ++ q)))) ∧ L'.Perm L ∧
        (∀ S : α → Prop, TotalPreorderOn S cmp → (∀ x ∈ L, S x) → L'.Pairwise (fun x y => cmp x y ≤ 0)) := by
      by_cases hL : 2 ≤ L.length
      · rw [if_pos (by push_cast; omega)]
        have hL0 : L ≠ [] := by rintro rfl; simp at hL
        obtain ⟨L', e1, e2, e3⟩ := ih L hL0 (by omega) p (ref :: (R ++ q))
        rw [show p.length + L.length - 1 = p.length + (L.length - 1) by omega]
        exact ⟨L', e1, e2, e3⟩
      · rw [if_neg (by push_cast; omega)]
        refine ⟨L, rfl, List.Perm.refl _, fun _ _ _ => ?_⟩
        match L, hL with
        | [], _ => simp
        | [a], _ => simp
        | a :: b :: L, hL => simp at hL
    obtain ⟨L', l1, l2, l3⟩ := left
    rw [l1]
    simp only [Res.bind_ok]
    have right : ∃ R', (if p.length + L.length + 1 < p.length + M.length then
          quicksort cmp fuel (p ++ (L' ++ (ref :: (R ++ q)))) (p.length + L.length + 1) (p.length + M.length)
        else pure (p ++ (L' ++ (ref :: (R ++ q))))) = .ok (p ++ (L' ++ (ref :: (R' ++ q)))) ∧ R'.Perm R ∧
        (∀ S : α → Prop, TotalPreorderOn S cmp → (∀ x ∈ R, S x) → R'.Pairwise (fun x y => cmp x y ≤ 0)) := by
      by_cases hR : 2 ≤ R.length
      · rw [if_pos (by omega)]
        have hR0 : R ≠ [] := by rintro rfl; simp at hR
        obtain ⟨R', e1, e2, e3⟩ := ih R hR0 (by omega) (p ++ (L' ++ [ref])) q
        refine ⟨R', ?_, e2, e3⟩
        have i1 : (p ++ (L' ++ [ref])).length = p.length + L.length + 1 := by
          simp [l2.length_eq]; omega
        rw [i1, show p.length + L.length + 1 + (R.length - 1) = p.length + M.length by omega] at e1
        simpa using e1
      · rw [if_neg (by omega)]
        refine ⟨R, rfl, List.Perm.refl _, fun _ _ _ => ?_⟩
        match R, hR with
        | [], _ => simp
        | [a], _ => simp
        | a :: b :: L, hL => simp at hL
    obtain ⟨R', r1, r2, r3⟩ := right
    rw [r1]
    refine ⟨L' ++ ref :: R', by simp, ?_, ?_⟩
    · have h1 : (L' ++ ref :: R').Perm (ref :: (L' ++ R')) := List.perm_middle
      exact h1.trans (((l2.append r2).trans g2).cons ref)
    · intro S tp hS
      have sL : ∀ x ∈ L, S x := fun x hx => hS x (List.mem_cons_of_mem _ (g2.mem_iff.1 (by simp [hx])))
      have sR : ∀ x ∈ R, S x := fun x hx => hS x (List.mem_cons_of_mem _ (g2.mem_iff.1 (by simp [hx])))
      have sr : S ref := hS ref (by simp)
      rw [List.pairwise_append]
      have hL : ∀ x ∈ L', cmp x ref ≤ 0 := by
        intro x hx
        have := g3 x (l2.mem_iff.1 hx)
        by_contra hc
        have := (tp.flip ref x sr (sL x (l2.mem_iff.1 hx))).2 (by omega)
        omega
      have hR : ∀ x ∈ R', cmp ref x ≤ 0 := fun x hx => g4 x (r2.mem_iff.1 hx)
      refine ⟨l3 S tp sL, List.pairwise_cons.2 ⟨hR, r3 S tp sR⟩, ?_⟩
      intro x hx y hy
      rcases List.mem_cons.1 hy with rfl | hy
      · exact hL x hx
      · exact tp.trans _ _ _ (sL x (l2.mem_iff.1 hx)) sr (sR y (r2.mem_iff.1 hy)) (hL x hx) (hR y hy)

end Ocr.Sort
