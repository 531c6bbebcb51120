import Verif.Model.SortCost
import Verif.Proof.Sort
import Mathlib.Tactic.Linarith
import Mathlib.Tactic.Ring
import Mathlib.Data.Nat.Log

/-!
# The work done by sort.c
-/

namespace Ocr.Sort
open Res

variable {α : Type} {cmp : α → α → Int}

/-! ## The counters do not change the results -/

theorem scanJW_fst (a : List α) (ref : α) (i : Nat) : ∀ j, (scanJW cmp a ref i j >>= fun r => .ok r.1) = scanJ cmp a ref i j := by
  intro j
  induction j with
  | zero => rfl
  | succ j ih =>
    rw [scanJW, scanJ]
    split
    · cases hr : rd a (j + 1) with
      | ok x =>
        simp only [bind_ok]
        split
        · rw [← ih]
          cases scanJW cmp a ref i j <;> rfl
        · rfl
      | err _ => rfl
      | ub => rfl
      | fuel => rfl
    · rfl

theorem scanIW_fst (a : List α) (ref : α) (j : Nat) : ∀ fl i, (scanIW cmp a ref j fl i >>= fun r => .ok r.1) = scanI cmp a ref j fl i := by
  intro fl
  induction fl with
  | zero =>
    intro i
    rw [scanIW.eq_def, scanI.eq_def]
    simp only
    split
    · cases hr : rd a i with
      | ok x => simp only [bind_ok]; split <;> rfl
      | err _ => rfl
      | ub => rfl
      | fuel => rfl
    · rfl
  | succ fl ih =>
    intro i
    rw [scanIW.eq_def, scanI.eq_def]
    simp only
    split
    · cases hr : rd a i with
      | ok x =>
        simp only [bind_ok]
        split
        · rw [← ih]
          cases scanIW cmp a ref j fl (i + 1) <;> rfl
        · rfl
      | err _ => rfl
      | ub => rfl
      | fuel => rfl
    · rfl

theorem lift_fst {β γ : Type} {x : Res (β × γ)} {y : Res β} (h : (x >>= fun r => .ok r.1) = y) {b : β} (e : y = .ok b) :
    ∃ c, x = .ok (b, c) := by
  subst h
  obtain ⟨⟨b', c⟩, e1, e2⟩ := bind_eq_ok.1 e
  simp only [Res.ok.injEq] at e2
  exact ⟨c, by rw [e1, ← e2]⟩

theorem partitionW_ok {ref : α} : ∀ (fl : Nat) (a : List α) (i j : Nat) (r : List α × Nat × Nat), partition cmp ref fl a i j = .ok r →
    ∃ c, partitionW cmp ref fl a i j = .ok (r, c) := by
  intro fl
  induction fl with
  | zero =>
    intro a i j r e
    rw [partition.eq_def] at e
    rw [partitionW.eq_def]
    simp only at e ⊢
    split at e
    · simp at e
    · rename_i h
      rw [if_neg h]
      simp only [Res.ok.injEq] at e
      exact ⟨0, by rw [← e]⟩
  | succ fl ih =>
    intro a i j r e
    rw [partition.eq_def] at e
    rw [partitionW.eq_def]
    simp only at e ⊢
    split at e
    · rename_i h
      rw [if_pos h]
      obtain ⟨j1, e1, e⟩ := bind_eq_ok.1 e
      obtain ⟨c1, f1⟩ := lift_fst (scanJW_fst a ref i j) e1
      obtain ⟨a1, i1, e2, e⟩ : ∃ a1 i1, (if i ≠ j1 then do
            let x ← rd a j1
            let a ← wr a i x
            pure (a, i + 1)
          else pure (a, i) : Res (List α × Nat)) = .ok (a1, i1) ∧
          (do
            let i ← scanI cmp a1 ref j1 a1.length i1
            if i ≠ j1 then do
              let x ← rd a1 i
              let a ← wr a1 j1 x
              partition cmp ref fl a i (j1 - 1)
            else partition cmp ref fl a1 i j1) = .ok r := by
        split at e
        · rename_i hne
          obtain ⟨x, h1, e⟩ := bind_eq_ok.1 e
          obtain ⟨b, h2, e⟩ := bind_eq_ok.1 e
          exact ⟨b, i + 1, by rw [if_pos hne, h1, bind_ok, h2]; rfl, e⟩
        · rename_i hne
          exact ⟨a, i, by rw [if_neg hne]; rfl, e⟩
      obtain ⟨i2, e3, e⟩ := bind_eq_ok.1 e
      obtain ⟨c2, f2⟩ := lift_fst (scanIW_fst a1 ref j1 _ i1) e3
      obtain ⟨a2, j2, e4, e⟩ : ∃ a2 j2, (if i2 ≠ j1 then do
            let x ← rd a1 i2
            let a ← wr a1 j1 x
            pure (a, j1 - 1)
          else pure (a1, j1) : Res (List α × Nat)) = .ok (a2, j2) ∧ partition cmp ref fl a2 i2 j2 = .ok r := by
        split at e
        · rename_i hne
          obtain ⟨x, h1, e⟩ := bind_eq_ok.1 e
          obtain ⟨b, h2, e⟩ := bind_eq_ok.1 e
          exact ⟨b, j1 - 1, by rw [if_pos hne, h1, bind_ok, h2]; rfl, e⟩
        · rename_i hne
          exact ⟨a1, j1, by rw [if_neg hne]; rfl, e⟩
      obtain ⟨c, f3⟩ := ih _ _ _ _ e
      refine ⟨c1 + c2 + c, ?_⟩
      rw [f1, bind_ok]
      simp only at e2 e4 ⊢
      rw [e2, bind_ok]
      simp only
      rw [f2, bind_ok]
      simp only
      rw [e4, bind_ok]
      simp only
      rw [f3]
      rfl
    · rename_i h
      rw [if_neg h]
      simp only [Res.ok.injEq] at e
      exact ⟨0, by rw [← e]⟩

theorem quicksortW_ok : ∀ (fl : Nat) (a : List α) (l r : Nat) (b : List α), quicksort cmp fl a l r = .ok b →
    ∃ c d, quicksortW cmp fl a l r = .ok (b, c, d) := by
  intro fl
  induction fl with
  | zero => intro a l r b e; simp [quicksort] at e
  | succ fl ih =>
    intro a l r b e
    simp only [quicksort] at e
    simp only [quicksortW]
    obtain ⟨ref, e1, e⟩ := bind_eq_ok.1 e
    obtain ⟨⟨a1, i, j⟩, e2, e⟩ := bind_eq_ok.1 e
    obtain ⟨c, f2⟩ := partitionW_ok _ _ _ _ _ e2
    obtain ⟨a2, e3, e⟩ := bind_eq_ok.1 e
    obtain ⟨a3, e4, e⟩ := bind_eq_ok.1 e
    simp only at e3 e4 e
    have h1 : ∃ c1 d1, (if (l : Int) < (j : Int) - 1 then quicksortW cmp fl a2 l (j - 1) else pure (a2, 0, 0)) = .ok (a3, c1, d1) := by
      split at e4
      · rename_i h; rw [if_pos h]; exact ih _ _ _ _ e4
      · rename_i h; rw [if_neg h]; simp only [pure_eq, Res.ok.injEq] at e4; exact ⟨0, 0, by rw [e4]; rfl⟩
    have h2 : ∃ c2 d2, (if i + 1 < r then quicksortW cmp fl a3 (i + 1) r else pure (a3, 0, 0)) = .ok (b, c2, d2) := by
      split at e
      · rename_i h; rw [if_pos h]; exact ih _ _ _ _ e
      · rename_i h; rw [if_neg h]; simp only [pure_eq, Res.ok.injEq] at e; exact ⟨0, 0, by rw [e]; rfl⟩
    obtain ⟨c1, d1, h1⟩ := h1
    obtain ⟨c2, d2, h2⟩ := h2
    refine ⟨c + c1 + c2, 1 + max d1 d2, ?_⟩
    rw [e1, bind_ok, f2, bind_ok]
    simp only
    rw [e3, bind_ok, h1, bind_ok]
    simp only
    rw [h2, bind_ok]
    rfl

/-! ## Every comparison shortens the part that is not yet divided -/

theorem scanJW_count {a : List α} {ref : α} {i : Nat} : ∀ {j j' c : Nat}, i ≤ j → scanJW cmp a ref i j = .ok (j', c) →
    i ≤ j' ∧ j' ≤ j ∧ c = (j - j') + (if i = j' then 0 else 1) := by
  intro j
  induction j with
  | zero =>
    intro j' c hi e
    simp only [scanJW, Res.ok.injEq, Prod.mk.injEq] at e
    obtain ⟨rfl, rfl⟩ := e
    have : i = 0 := by omega
    simp [this]
  | succ j ih =>
    intro j' c hi e
    rw [scanJW] at e
    split at e
    · rename_i hlt
      obtain ⟨x, _, e⟩ := bind_eq_ok.1 e
      split at e
      · obtain ⟨⟨j1, c1⟩, e1, e⟩ := bind_eq_ok.1 e
        simp only [pure_eq, Res.ok.injEq, Prod.mk.injEq] at e
        obtain ⟨rfl, rfl⟩ := e
        obtain ⟨h1, h2, h3⟩ := ih (by omega) e1
        refine ⟨h1, by omega, ?_⟩
        rw [h3]
        split <;> omega
      · simp only [Res.ok.injEq, Prod.mk.injEq] at e
        obtain ⟨rfl, rfl⟩ := e
        have : ¬ (i = j + 1) := by omega
        simp [this]
        omega
    · simp only [Res.ok.injEq, Prod.mk.injEq] at e
      obtain ⟨rfl, rfl⟩ := e
      have : i = j + 1 := by omega
      simp [this]

theorem scanIW_count {a : List α} {ref : α} {j : Nat} : ∀ {fl i i' c : Nat}, i ≤ j → scanIW cmp a ref j fl i = .ok (i', c) →
    i ≤ i' ∧ i' ≤ j ∧ c = (i' - i) + (if i' = j then 0 else 1) := by
  intro fl
  induction fl with
  | zero =>
    intro i i' c hi e
    rw [scanIW.eq_def] at e
    simp only at e
    split at e
    · obtain ⟨x, _, e⟩ := bind_eq_ok.1 e
      split at e
      · simp at e
      · simp only [Res.ok.injEq, Prod.mk.injEq] at e
        obtain ⟨rfl, rfl⟩ := e
        have : ¬ (i = j) := by omega
        simp [this, hi]
    · simp only [Res.ok.injEq, Prod.mk.injEq] at e
      obtain ⟨rfl, rfl⟩ := e
      have : i = j := by omega
      simp [this]
  | succ fl ih =>
    intro i i' c hi e
    rw [scanIW.eq_def] at e
    simp only at e
    split at e
    · obtain ⟨x, _, e⟩ := bind_eq_ok.1 e
      split at e
      · obtain ⟨⟨i1, c1⟩, e1, e⟩ := bind_eq_ok.1 e
        simp only [pure_eq, Res.ok.injEq, Prod.mk.injEq] at e
        obtain ⟨rfl, rfl⟩ := e
        obtain ⟨h1, h2, h3⟩ := ih (by omega) e1
        refine ⟨by omega, h2, ?_⟩
        rw [h3]
        split <;> omega
      · simp only [Res.ok.injEq, Prod.mk.injEq] at e
        obtain ⟨rfl, rfl⟩ := e
        have : ¬ (i = j) := by omega
        simp [this, hi]
    · simp only [Res.ok.injEq, Prod.mk.injEq] at e
      obtain ⟨rfl, rfl⟩ := e
      have : i = j := by omega
      simp [this]

theorem partitionW_count {ref : α} : ∀ {fl : Nat} {a a' : List α} {i j i' j' c : Nat}, i ≤ j →
    partitionW cmp ref fl a i j = .ok ((a', i', j'), c) → i' = j' ∧ i ≤ i' ∧ i' ≤ j ∧ c = j - i := by
  intro fl
  induction fl with
  | zero =>
    intro a a' i j i' j' c hi e
    rw [partitionW.eq_def] at e
    simp only at e
    split at e
    · simp at e
    · simp only [Res.ok.injEq, Prod.mk.injEq] at e
      obtain ⟨⟨rfl, rfl, rfl⟩, rfl⟩ := e
      omega
  | succ fl ih =>
    intro a a' i j i' j' c hi e
    rw [partitionW.eq_def] at e
    simp only at e
    split at e
    · obtain ⟨⟨j1, c1⟩, e1, e⟩ := bind_eq_ok.1 e
      obtain ⟨⟨a1, i1⟩, e2, e⟩ := bind_eq_ok.1 e
      obtain ⟨⟨i2, c2⟩, e3, e⟩ := bind_eq_ok.1 e
      obtain ⟨⟨a2, j2⟩, e4, e⟩ := bind_eq_ok.1 e
      obtain ⟨⟨r, c3⟩, e5, e⟩ := bind_eq_ok.1 e
      simp only [pure_eq, Res.ok.injEq, Prod.mk.injEq] at e
      obtain ⟨rfl, rfl⟩ := e
      simp only at e2 e3 e4 e5
      obtain ⟨h1, h2, h3⟩ := scanJW_count (by omega) e1
      have h4 : i1 = (if i = j1 then i else i + 1) := by
        split at e2
        · rename_i hne
          obtain ⟨x, _, e2⟩ := bind_eq_ok.1 e2
          obtain ⟨b, _, e2⟩ := bind_eq_ok.1 e2
          simp only [pure_eq, Res.ok.injEq, Prod.mk.injEq] at e2
          rw [if_neg hne]; exact e2.2.symm
        · rename_i hne
          simp only [pure_eq, Res.ok.injEq, Prod.mk.injEq] at e2
          rw [if_pos (by omega)]; exact e2.2.symm
      have h1' : i1 ≤ j1 := by split at h4 <;> omega
      obtain ⟨h5, h6, h7⟩ := scanIW_count h1' e3
      have h8 : j2 = (if i2 = j1 then j1 else j1 - 1) := by
        split at e4
        · rename_i hne
          obtain ⟨x, _, e4⟩ := bind_eq_ok.1 e4
          obtain ⟨b, _, e4⟩ := bind_eq_ok.1 e4
          simp only [pure_eq, Res.ok.injEq, Prod.mk.injEq] at e4
          rw [if_neg hne]; exact e4.2.symm
        · rename_i hne
          simp only [pure_eq, Res.ok.injEq, Prod.mk.injEq] at e4
          rw [if_pos (by omega)]; exact e4.2.symm
      have h9 : i2 ≤ j2 := by split at h8 <;> omega
      obtain ⟨g1, g2, g3, g4⟩ := ih h9 e5
      refine ⟨g1, ?_, ?_, ?_⟩
      · split at h4 <;> omega
      · split at h8 <;> omega
      · split at h3 <;> split at h4 <;> split at h7 <;> split at h8 <;> omega
    · simp only [Res.ok.injEq, Prod.mk.injEq] at e
      obtain ⟨⟨rfl, rfl, rfl⟩, rfl⟩ := e
      omega

/-! ## All comparisons -/

theorem quicksortW_bound : ∀ {fl : Nat} {a b : List α} {l r c d : Nat}, l < r → quicksortW cmp fl a l r = .ok (b, c, d) →
    2 * c ≤ (r - l + 1) * (r - l) ∧ d ≤ r - l ∧ r - l ≤ c := by
  intro fl
  induction fl with
  | zero => intro a b l r c d h e; simp [quicksortW] at e
  | succ fl ih =>
    intro a b l r c d h e
    simp only [quicksortW] at e
    obtain ⟨ref, e1, e⟩ := bind_eq_ok.1 e
    obtain ⟨⟨⟨a1, i, j⟩, c0⟩, e2, e⟩ := bind_eq_ok.1 e
    obtain ⟨a2, e3, e⟩ := bind_eq_ok.1 e
    obtain ⟨⟨a3, c1, d1⟩, e4, e⟩ := bind_eq_ok.1 e
    obtain ⟨⟨a4, c2, d2⟩, e5, e⟩ := bind_eq_ok.1 e
    simp only [pure_eq, Res.ok.injEq, Prod.mk.injEq] at e e4 e5
    obtain ⟨rfl, rfl, rfl⟩ := e
    obtain ⟨rfl, g2, g3, g4⟩ := partitionW_count (by omega) e2
    have h1 : 2 * c1 ≤ (i - l) * (i - l - 1) ∧ d1 ≤ i - l - 1 := by
      split at e4
      · have := ih (by omega) e4
        refine ⟨?_, by omega⟩
        have h0 := this.1
        rw [show i - 1 - l + 1 = i - l by omega, show i - 1 - l = i - l - 1 by omega] at h0
        exact h0
      · simp only [Res.ok.injEq, Prod.mk.injEq] at e4
        obtain ⟨_, rfl, rfl⟩ := e4
        simp
    have h2 : 2 * c2 ≤ (r - i) * (r - i - 1) ∧ d2 ≤ r - i - 1 := by
      split at e5
      · have := ih (by omega) e5
        refine ⟨?_, by omega⟩
        have h0 := this.1
        rw [show r - (i + 1) + 1 = r - i by omega, show r - (i + 1) = r - i - 1 by omega] at h0
        exact h0
      · simp only [Res.ok.injEq, Prod.mk.injEq] at e5
        obtain ⟨_, rfl, rfl⟩ := e5
        simp
    obtain ⟨x, hx⟩ : ∃ x, x = i - l := ⟨_, rfl⟩
    obtain ⟨y, hy⟩ : ∃ y, y = r - i := ⟨_, rfl⟩
    have hr : r - l = x + y := by omega
    rw [hr]
    rw [← hx] at h1
    rw [← hy] at h2
    refine ⟨?_, by omega, by omega⟩
    rw [g4, hr]
    have q1 : x * (x - 1) + x = x * x := by
      cases x with
      | zero => rfl
      | succ x => simp; ring
    have q2 : y * (y - 1) + y = y * y := by
      cases y with
      | zero => rfl
      | succ y => simp; ring
    nlinarith [h1.1, h2.1, Nat.zero_le (x * y)]

/-! ## An array that is already sorted -/

theorem scanJW_sorted {a : List α} {ref : α} {i : Nat} (hlt : ∀ k x, i < k → a[k]? = some x → cmp ref x < 0) : ∀ j, i ≤ j → j < a.length →
    scanJW cmp a ref i j = .ok (i, j - i) := by
  intro j
  induction j with
  | zero => intro h _; have : i = 0 := by omega
            subst this; rfl
  | succ j ih =>
    intro h hj
    rw [scanJW]
    by_cases hi : i < j + 1
    · rw [if_pos hi]
      have hx : a[j + 1]? = some a[j + 1] := List.getElem?_eq_getElem hj
      rw [show rd a (j + 1) = .ok a[j + 1] by simp [rd, hx], bind_ok, if_pos (hlt _ _ hi hx), ih (by omega) (by omega), bind_ok]
      simp only [pure_eq, Res.ok.injEq, Prod.mk.injEq, true_and]
      omega
    · rw [if_neg hi]
      have : i = j + 1 := by omega
      subst this
      simp

theorem quicksortW_sorted : ∀ {fl : Nat} {a : List α} {l r : Nat}, a.Pairwise (fun x y => cmp x y < 0) → l < r → r < a.length →
    r - l ≤ fl → ∃ c, quicksortW cmp fl a l r = .ok (a, c, r - l) ∧ 2 * c = (r - l + 1) * (r - l) := by
  intro fl
  induction fl with
  | zero => intro a l r _ h1 _ h2; omega
  | succ fl ih =>
    intro a l r hp hl hr hf
    simp only [quicksortW]
    have hla : l < a.length := by omega
    have hget : a[l]? = some a[l] := List.getElem?_eq_getElem hla
    rw [show rd a l = .ok a[l] by simp [rd, hget], bind_ok]
    have hlt : ∀ k x, l < k → a[k]? = some x → cmp a[l] x < 0 := by
      intro k x hk hx
      obtain ⟨hka, rfl⟩ := List.getElem?_eq_some_iff.1 hx
      exact List.pairwise_iff_getElem.1 hp l k hla hka hk
    have hpart : partitionW cmp a[l] a.length a l r = .ok ((a, l, l), r - l) := by
      obtain ⟨n, hn⟩ : ∃ n, a.length = n + 1 := ⟨a.length - 1, by omega⟩
      rw [hn, partitionW.eq_def]
      simp only
      rw [if_pos hl, scanJW_sorted hlt r (by omega) hr, bind_ok]
      simp only [ne_eq, not_true_eq_false, if_false, pure_eq, bind_ok]
      have h1 : scanIW cmp a a[l] l a.length l = .ok (l, 0) := by rw [scanIW.eq_def]; simp
      have h2 : partitionW cmp a[l] n a l l = .ok ((a, l, l), 0) := by rw [partitionW.eq_def]; simp
      rw [h1, bind_ok]
      simp only [not_true_eq_false, if_false, bind_ok]
      rw [h2, bind_ok]
      rfl
    rw [hpart, bind_ok]
    simp only
    have hwr : wr a l a[l] = .ok a := by simp [wr, hla]
    rw [hwr, bind_ok, if_neg (by omega), pure_eq, bind_ok]
    simp only
    by_cases h : l + 1 < r
    · obtain ⟨c, e, hc⟩ := ih (l := l + 1) (r := r) hp h hr (by omega)
      rw [if_pos h, e, bind_ok]
      refine ⟨r - l + 0 + c, ?_, ?_⟩
      · simp only [pure_eq, Res.ok.injEq, Prod.mk.injEq, true_and]
        omega
      · obtain ⟨x, hx⟩ : ∃ x, r - l = x + 1 := ⟨r - l - 1, by omega⟩
        rw [show r - (l + 1) = x by omega] at hc
        rw [hx]
        linarith [hc, show (x + 1 + 1) * (x + 1) = (x + 1) * x + 2 * (x + 1) by ring]
    · rw [if_neg h, pure_eq, bind_ok]
      have : r - l = 1 := by omega
      refine ⟨1, ?_, by rw [this]⟩
      rw [this]
      rfl

/-! ## An array of equal elements -/

theorem rd_some {a : List α} {i : Nat} (h : i < a.length) : ∃ x ∈ a, rd a i = .ok x :=
  ⟨a[i], List.getElem_mem h, by simp [rd, List.getElem?_eq_getElem h]⟩

theorem wr_some {a : List α} {i : Nat} (h : i < a.length) {x : α} (hx : x ∈ a) :
    ∃ b, wr a i x = .ok b ∧ b.length = a.length ∧ ∀ y ∈ b, y ∈ a := by
  refine ⟨a.set i x, by simp [wr, h], by simp, fun y hy => ?_⟩
  rcases List.mem_or_eq_of_mem_set hy with h | rfl
  · exact h
  · exact hx

theorem partitionW_equal {ref : α} : ∀ (fl : Nat) (a : List α) (i j : Nat), (∀ x ∈ a, cmp ref x = 0) → i ≤ j → j < a.length → j - i ≤ fl →
    ∃ a' c, partitionW cmp ref fl a i j = .ok ((a', i + (j - i + 1) / 2, i + (j - i + 1) / 2), c) ∧ a'.length = a.length ∧ ∀ y ∈ a', y ∈ a := by
  intro fl
  induction fl with
  | zero =>
    intro a i j _ h1 _ h2
    have : i = j := by omega
    subst this
    exact ⟨a, 0, by rw [partitionW.eq_def]; simp, rfl, fun y hy => hy⟩
  | succ fl ih =>
    intro a i j hz h1 hj h2
    by_cases hij : i = j
    · subst hij
      exact ⟨a, 0, by rw [partitionW.eq_def]; simp, rfl, fun y hy => hy⟩
    · have hlt : i < j := by omega
      rw [partitionW.eq_def]
      simp only
      rw [if_pos hlt]
      obtain ⟨x, hx, r1⟩ := rd_some hj
      have s1 : scanJW cmp a ref i j = .ok (j, 1) := by
        obtain ⟨j, rfl⟩ : ∃ k, j = k + 1 := ⟨j - 1, by omega⟩
        rw [scanJW, if_pos hlt, r1, bind_ok, if_neg (by rw [hz x hx]; omega)]
      obtain ⟨b, w1, lb, mb⟩ := wr_some (i := i) (by omega) hx
      rw [s1, bind_ok]
      simp only
      rw [if_pos hij, r1, bind_ok, w1, bind_ok, pure_eq, bind_ok]
      simp only
      by_cases h3 : i + 1 = j
      · have s2 : scanIW cmp b ref j b.length (i + 1) = .ok (i + 1, 0) := by
          rw [scanIW.eq_def]
          simp only
          rw [if_neg (by omega)]
        rw [s2, bind_ok]
        simp only
        rw [if_neg (by omega), pure_eq, bind_ok]
        simp only
        have s3 : partitionW cmp ref fl b (i + 1) j = .ok ((b, i + 1, j), 0) := by
          rw [partitionW.eq_def]
          simp only
          rw [if_neg (by omega)]
        rw [s3, bind_ok]
        refine ⟨b, 1, ?_, lb, mb⟩
        rw [show i + (j - i + 1) / 2 = i + 1 by omega]
        simp [pure_eq, ← h3]
      · obtain ⟨y, hy, r2⟩ := rd_some (a := b) (i := i + 1) (by omega)
        have s2 : scanIW cmp b ref j b.length (i + 1) = .ok (i + 1, 1) := by
          rw [scanIW.eq_def]
          simp only
          rw [if_pos (by omega), r2, bind_ok, if_neg (by rw [hz y (mb y hy)]; omega)]
        rw [s2, bind_ok]
        simp only
        obtain ⟨d, w2, ld, md⟩ := wr_some (a := b) (i := j) (by omega) hy
        rw [if_pos h3, r2, bind_ok, w2, bind_ok, pure_eq, bind_ok]
        simp only
        obtain ⟨a', c, s3, la, ma⟩ := ih d (i + 1) (j - 1) (fun z hz' => hz z (mb z (md z hz'))) (by omega) (by omega) (by omega)
        rw [s3, bind_ok]
        refine ⟨a', 1 + 1 + c, ?_, by omega, fun z hz' => mb z (md z (ma z hz'))⟩
        rw [show i + (j - i + 1) / 2 = i + 1 + (j - 1 - (i + 1) + 1) / 2 by omega]
        rfl

theorem log_half {n k : Nat} (hn : 2 ≤ n) (hk : k ≤ n / 2) : Nat.log 2 k + 1 ≤ Nat.log 2 n := by
  have h1 : Nat.log 2 k ≤ Nat.log 2 (n / 2) := Nat.log_mono_right hk
  have h2 : Nat.log 2 (n / 2) = Nat.log 2 n - 1 := Nat.log_div_base 2 n
  have h3 : 0 < Nat.log 2 n := Nat.log_pos (by omega) hn
  omega

theorem quicksortW_equal : ∀ (fl : Nat) (a : List α) (l r : Nat), (∀ x ∈ a, ∀ y ∈ a, cmp x y = 0) → l < r → r < a.length → r - l ≤ fl →
    ∃ b c d, quicksortW cmp fl a l r = .ok (b, c, d) ∧ b.length = a.length ∧ (∀ y ∈ b, y ∈ a) ∧
      c ≤ (r - l + 1) * Nat.log 2 (r - l + 1) ∧ d ≤ Nat.log 2 (r - l + 1) := by
  intro fl
  induction fl with
  | zero => intro a l r _ h1 _ h2; omega
  | succ fl ih =>
    intro a l r hz hl hr hf
    simp only [quicksortW]
    obtain ⟨ref, href, r1⟩ := rd_some (a := a) (i := l) (by omega)
    obtain ⟨a1, c0, s1, l1, m1⟩ := partitionW_equal (cmp := cmp) a.length a l r (fun x hx => hz ref href x hx) (by omega) hr (by omega)
    have hc0 := (partitionW_count (by omega) s1).2.2.2
    rw [r1, bind_ok, s1, bind_ok]
    simp only
    obtain ⟨q, hq⟩ : ∃ q, q = l + (r - l + 1) / 2 := ⟨_, rfl⟩
    rw [← hq]
    have hwr : ∃ a2, wr a1 q ref = .ok a2 ∧ a2.length = a1.length ∧ ∀ y ∈ a2, y ∈ a := by
      have hq1 : q < a1.length := by omega
      refine ⟨a1.set q ref, by simp [wr, hq1], by simp, fun y hy => ?_⟩
      rcases List.mem_or_eq_of_mem_set hy with h | rfl
      · exact m1 y h
      · exact href
    obtain ⟨a2, w2, l2, m2⟩ := hwr
    rw [w2, bind_ok]
    have hN : 2 ≤ r - l + 1 := by omega
    have h3 : ∃ a3 c1 d1, (if (l : Int) < (q : Int) - 1 then quicksortW cmp fl a2 l (q - 1) else pure (a2, 0, 0)) = .ok (a3, c1, d1) ∧
        a3.length = a2.length ∧ (∀ y ∈ a3, y ∈ a) ∧ c1 ≤ (q - l) * (Nat.log 2 (r - l + 1) - 1) ∧ d1 + 1 ≤ Nat.log 2 (r - l + 1) := by
      have hlog := log_half (k := q - l) hN (by omega)
      by_cases h : (l : Int) < (q : Int) - 1
      · rw [if_pos h]
        obtain ⟨b, c, d, e, lb, mb, hc, hd⟩ := ih a2 l (q - 1) (fun x hx y hy => hz x (m2 x hx) y (m2 y hy)) (by omega) (by omega) (by omega)
        rw [show q - 1 - l + 1 = q - l by omega] at hc hd
        exact ⟨b, c, d, e, lb, fun y hy => m2 y (mb y hy), hc.trans (Nat.mul_le_mul_left _ (by omega)), by omega⟩
      · rw [if_neg h]
        exact ⟨a2, 0, 0, rfl, rfl, m2, by omega, by omega⟩
    obtain ⟨a3, c1, d1, e3, l3, m3, hc1, hd1⟩ := h3
    rw [e3, bind_ok]
    simp only
    have h4 : ∃ a4 c2 d2, (if q + 1 < r then quicksortW cmp fl a3 (q + 1) r else pure (a3, 0, 0)) = .ok (a4, c2, d2) ∧
        a4.length = a3.length ∧ (∀ y ∈ a4, y ∈ a) ∧ c2 ≤ (r - q) * (Nat.log 2 (r - l + 1) - 1) ∧ d2 + 1 ≤ Nat.log 2 (r - l + 1) := by
      have hlog := log_half (k := r - q) hN (by omega)
      by_cases h : q + 1 < r
      · rw [if_pos h]
        obtain ⟨b, c, d, e, lb, mb, hc, hd⟩ := ih a3 (q + 1) r (fun x hx y hy => hz x (m3 x hx) y (m3 y hy)) (by omega) (by omega) (by omega)
        rw [show r - (q + 1) + 1 = r - q by omega] at hc hd
        exact ⟨b, c, d, e, lb, fun y hy => m3 y (mb y hy), hc.trans (Nat.mul_le_mul_left _ (by omega)), by omega⟩
      · rw [if_neg h]
        exact ⟨a3, 0, 0, rfl, rfl, m3, by omega, by omega⟩
    obtain ⟨a4, c2, d2, e4, l4, m4, hc2, hd2⟩ := h4
    rw [e4, bind_ok]
    refine ⟨a4, c0 + c1 + c2, 1 + max d1 d2, rfl, by omega, m4, ?_, by omega⟩
    obtain ⟨L, hL⟩ : ∃ L, Nat.log 2 (r - l + 1) = L + 1 := ⟨Nat.log 2 (r - l + 1) - 1, by omega⟩
    rw [hL] at hc1 hc2 ⊢
    simp only [Nat.add_sub_cancel] at hc1 hc2
    have hs : (q - l) * L + (r - q) * L = (r - l) * L := by rw [← Nat.add_mul]; congr 1; omega
    have : c0 + c1 + c2 ≤ (r - l) * (L + 1) := by
      rw [Nat.mul_succ]; omega
    exact this.trans (Nat.mul_le_mul_right _ (by omega))

end Ocr.Sort
