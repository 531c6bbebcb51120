import Verif.Proof.Synchronize

/-!
# Synchronizing copies of one text
-/

namespace Ocr.Sync
open Text Res

theorem longest_same {v : List Nat} (hne : v ≠ []) (hr : REJECT_CHARACTER ∉ v) :
    longest_match 0 v 0 (0 + (v.length : Int) - 1) v 0 ((v.length : Int) - 1) none = .ok ((v.length : Int), some (0, 0)) := by
  have hpos := List.length_pos_iff.2 hne
  obtain ⟨len, m, e, hge, hfound, hmax⟩ := longest_spec (maxlen0 := 0) (c1 := v) (c2 := v) (start1 := 0)
      (stop1 := 0 + (v.length : Int) - 1) (start2 := 0) (stop2 := (v.length : Int) - 1) (m0 := none)
      (le_refl _) (by omega) (by omega) (le_refl _) (le_refl _)
  rw [e]
  have h1 : (v.length : Int) ≤ len := by
    refine hmax 0 0 (le_refl _) (le_refl _) v.length (by omega) (by omega) ?_
    intro x x1 x2
    rw [mtAt_iff (by omega) (by omega) (by omega) (by omega)]
    refine ⟨rfl, ?_⟩
    intro h
    exact hr (List.mem_iff_getElem.2 ⟨_, _, h⟩)
  rcases hfound with ⟨h2, _⟩ | ⟨_, s1, s2, rfl, a1, a2, a3, a4, _⟩
  · omega
  · have : len = v.length := by omega
    subst this
    have e1 : s1 = 0 := by omega
    have e2 : s2 = 0 := by omega
    subst e1 e2
    rfl

theorem matchTexts_same {v : List Nat} (hne : v ≠ []) (hr : REJECT_CHARACTER ∉ v) : ∀ (k i : Nat),
    matchTexts v (List.replicate k (v, ⟨0, (v.length : Int) - 1, (v.length : Int)⟩)) (List.replicate (i + 1) 0) v.length =
      .ok (some (List.replicate (i + 1 + k) 0, (v.length : Int))) := by
  have hpos := List.length_pos_iff.2 hne
  intro k
  induction k with
  | zero => intro i; simp [matchTexts]
  | succ k ih =>
    intro i
    rw [List.replicate_succ]
    simp only [matchTexts]
    have e0 : rdI (List.replicate (i + 1) (0 : Int)) 0 = .ok 0 := by
      rw [rdI_eq (x := 0) (le_refl _)]; simp
    rw [e0]
    simp only [bind_ok]
    rw [longest_same hne hr]
    simp only [bind_ok]
    rw [if_neg (by omega)]
    rw [if_neg (show ¬ ((0 : Int) - 0 > 0) by omega)]
    rw [show List.replicate (i + 1) (0 : Int) ++ [0] = List.replicate (i + 1 + 1) 0 by
      rw [List.replicate_succ' (n := i + 1)], ih (i + 1)]
    congr 4
    omega

/-- Copies of one text without rejects are matched as a whole. -/
theorem synchronize_same {v : List Nat} (hne : v ≠ []) (hr : REJECT_CHARACTER ∉ v) {n : Nat} (h1 : MIN_STREAMS ≤ n)
    (h2 : n ≤ MAX_STREAMS) : ∃ r, synchronize (List.replicate n v) = .ok r ∧
      r.items = [midOf (List.replicate n 0) v.length 0] := by
  have hpos := List.length_pos_iff.2 hne
  obtain ⟨n, rfl⟩ : ∃ m, n = m + 1 := ⟨n - 1, by unfold MIN_STREAMS at h1; omega⟩
  unfold synchronize
  rw [if_neg (by simp only [List.length_replicate]; omega)]
  have hinit : initialize_synclist ((List.replicate (n + 1) v).map List.length) =
      [⟨List.replicate (n + 1) ⟨0, (v.length : Int) - 1, (v.length : Int)⟩, none⟩] := by
    unfold initialize_synclist
    simp only [List.map_replicate]
    rw [if_pos]
    simp only [valid_sync, List.any_eq_true, decide_eq_true_eq]
    exact ⟨⟨0, (v.length : Int) - 1, (v.length : Int)⟩, by simp, by simp only; omega⟩
  rw [hinit]
  simp only [ne_eq, List.cons_ne_self, not_false_eq_true, if_true]
  rw [List.replicate_succ]
  simp only [List.headD_cons]
  unfold recursive_sync
  simp only [List.getElem?_cons_zero]
  rw [if_neg (by
    simp only [List.any_eq_true, decide_eq_true_eq, not_exists, not_and]
    intro x hx
    rw [(List.mem_replicate.1 hx).2]
    simp only
    omega)]
  rw [List.replicate_succ (n := n)]
  simp only
  have hzip : (List.replicate n v).zip (List.replicate n (⟨0, (v.length : Int) - 1, (v.length : Int)⟩ : Substr)) =
      List.replicate n (v, ⟨0, (v.length : Int) - 1, (v.length : Int)⟩) := by
    simp
  have hm := matchTexts_same hne hr n 0
  simp only [Nat.zero_add, List.replicate_one] at hm
  rw [hzip, hm]
  simp only [bind_ok]
  rw [save_match_eq (sync := ⟨List.replicate (n + 1) ⟨0, (v.length : Int) - 1, (v.length : Int)⟩, none⟩) (by simp [List.replicate_succ]) (by simp; omega)]
  have hl : opt (leftOf ⟨List.replicate (n + 1) ⟨0, (v.length : Int) - 1, (v.length : Int)⟩, none⟩ (List.replicate (1 + n) 0)) = [] := by
    unfold opt
    rw [if_neg]
    simp only [leftOf, Nat.add_comm 1 n, List.zipWith_replicate, valid_sync, List.any_eq_true, decide_eq_true_eq, not_exists, not_and]
    intro x hx
    rw [(List.mem_replicate.1 hx).2]
    simp
  have hrr : opt (rightOf ⟨List.replicate (n + 1) ⟨0, (v.length : Int) - 1, (v.length : Int)⟩, none⟩ (List.replicate (1 + n) 0) v.length) = [] := by
    unfold opt
    rw [if_neg]
    simp only [rightOf, Nat.add_comm 1 n, List.zipWith_replicate, valid_sync, List.any_eq_true, decide_eq_true_eq, not_exists, not_and]
    intro x hx
    rw [(List.mem_replicate.1 hx).2]
    simp
  simp only [bind_ok, hl, hrr]
  simp only [List.take_zero, List.nil_append, List.append_nil, List.drop_succ_cons, List.drop_nil]
  have hf : List.findIdx (fun s : Sync => decide (s.mtch = some 0)) [midOf (List.replicate (1 + n) 0) (v.length : Int) 0] = 0 := by
    simp [List.findIdx_cons, midOf]
  rw [hf]
  simp only [gt_iff_lt, lt_self_iff_false, if_false, pure_eq, bind_ok, hf]
  rw [if_neg (by simp)]
  exact ⟨_, rfl, by rw [Nat.add_comm 1 n]⟩

end Ocr.Sync
