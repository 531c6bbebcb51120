import Verif.Model.Compare
import Verif.Proof.Sort

namespace Ocr

/-- No byte of a C string (before its terminator) is NUL. -/
def NulFree (s : List Nat) : Prop := ∀ c ∈ s, c ≠ 0

/-- First-difference comparison of lists. -/
def lexCmp : List Nat → List Nat → Int
  | [], [] => 0
  | [], _ :: _ => -1
  | _ :: _, [] => 1
  | a :: s, b :: t => if a = b then lexCmp s t else if a < b then -1 else 1

theorem byteAt_append (p s : List Nat) (k : Nat) (h : k = p.length) :
    byteAt (p ++ s) k = .ok (s.headD 0) := by
  subst h
  unfold byteAt
  cases s with
  | nil => simp
  | cons a s => simp

theorem ustrcmpLoop_spec (s : List Nat) : ∀ (t p : List Nat) (fuel : Nat), NulFree s → NulFree t →
    s.length ≤ fuel →
    ∃ i, ustrcmpLoop (p ++ s) (p ++ t) fuel p.length = .ok i ∧
      (do let c1 ← byteAt (p ++ s) i
          let c2 ← byteAt (p ++ t) i
          if c1 ≠ 0 ∨ c2 ≠ 0 then Res.ok (if c1 < c2 then (-1 : Int) else 1) else .ok 0) = .ok (lexCmp s t) := by
  induction s with
  | nil =>
    intro t p fuel _ ht _
    refine ⟨p.length, ?_, ?_⟩
    · unfold ustrcmpLoop; rw [byteAt_append p [] _ rfl]; simp
    · rw [byteAt_append p [] _ rfl, byteAt_append p t _ rfl]
      cases t with
      | nil => simp [lexCmp]
      | cons b t => have : b ≠ 0 := ht b (by simp); simp [lexCmp, this]
  | cons a s ih =>
    intro t p fuel hs ht hf
    obtain ⟨fuel, rfl⟩ : ∃ f, fuel = f + 1 := ⟨fuel - 1, by simp at hf; omega⟩
    have ha : a ≠ 0 := hs a (by simp)
    cases t with
    | nil =>
      refine ⟨p.length, ?_, ?_⟩
      · unfold ustrcmpLoop
        rw [byteAt_append p (a :: s) _ rfl, byteAt_append p [] _ rfl]; simp [ha]
      · rw [byteAt_append p (a :: s) _ rfl, byteAt_append p [] _ rfl]; simp [ha, lexCmp]
    | cons b t =>
      by_cases hab : a = b
      · subst hab
        obtain ⟨i, h1, h2⟩ := ih t (p ++ [a]) fuel (fun c hc => hs c (by simp [hc]))
          (fun c hc => ht c (by simp [hc])) (by simp at hf; omega)
        simp only [List.append_assoc, List.singleton_append] at h1 h2
        refine ⟨i, ?_, ?_⟩
        · unfold ustrcmpLoop
          rw [byteAt_append p (a :: s) _ rfl, byteAt_append p (a :: t) _ rfl]
          simpa [ha] using h1
        · rw [h2]; simp [lexCmp]
      · refine ⟨p.length, ?_, ?_⟩
        · unfold ustrcmpLoop
          rw [byteAt_append p (a :: s) _ rfl, byteAt_append p (b :: t) _ rfl]
          simp [ha, hab]
        · rw [byteAt_append p (a :: s) _ rfl, byteAt_append p (b :: t) _ rfl]
          simp [ha, hab, lexCmp]

theorem ustrcmpRes_eq (s t : List Nat) (hs : NulFree s) (ht : NulFree t) :
    ustrcmpRes s t = .ok (lexCmp s t) := by
  obtain ⟨i, h1, h2⟩ := ustrcmpLoop_spec s t [] s.length hs ht (Nat.le_refl _)
  simp only [List.nil_append, List.length_nil] at h1 h2
  unfold ustrcmpRes
  rw [h1]; exact h2

theorem ustrcmp_eq (s t : List Nat) (hs : NulFree s) (ht : NulFree t) : ustrcmp s t = lexCmp s t := by
  unfold ustrcmp; rw [ustrcmpRes_eq s t hs ht]

theorem lexCmp_cases (s t : List Nat) :
    (lexCmp s t = 0 ∧ s = t) ∨ (lexCmp s t = -1 ∧ s < t) ∨ (lexCmp s t = 1 ∧ t < s) := by
  induction s generalizing t with
  | nil => cases t <;> simp [lexCmp]
  | cons a s ih =>
    cases t with
    | nil => simp [lexCmp]
    | cons b t =>
      simp only [lexCmp]
      by_cases hab : a = b
      · subst hab
        rcases ih t with ⟨h, e⟩ | ⟨h, e⟩ | ⟨h, e⟩
        · left; subst e; simp [h]
        · right; left; simp [h, e, List.cons_lt_cons_iff]
        · right; right; simp [h, e, List.cons_lt_cons_iff]
      · rw [if_neg hab]
        by_cases hlt : a < b
        · right; left; simp [hlt, List.cons_lt_cons_iff]
        · right; right; have : b < a := by omega
          simp [hlt, List.cons_lt_cons_iff, this]

theorem lexCmp_zero {s t : List Nat} : lexCmp s t = 0 ↔ s = t := by
  constructor
  · intro h; rcases lexCmp_cases s t with ⟨_, e⟩ | ⟨h', _⟩ | ⟨h', _⟩
    · exact e
    · omega
    · omega
  · rintro rfl; induction s with
    | nil => rfl
    | cons a s ih => simp [lexCmp, ih]

theorem lexCmp_flip (s t : List Nat) : lexCmp t s = - lexCmp s t := by
  induction s generalizing t with
  | nil => cases t <;> simp [lexCmp]
  | cons a s ih =>
    cases t with
    | nil => simp [lexCmp]
    | cons b t =>
      simp only [lexCmp]
      by_cases hab : a = b
      · subst hab; simp [ih]
      · rw [if_neg hab, if_neg (Ne.symm hab)]
        split <;> split <;> omega

theorem lexCmp_trans {s t u : List Nat} (h1 : lexCmp s t ≤ 0) (h2 : lexCmp t u ≤ 0) : lexCmp s u ≤ 0 := by
  induction s generalizing t u with
  | nil => cases u <;> simp [lexCmp]
  | cons a s ih =>
    cases t with
    | nil => simp [lexCmp] at h1
    | cons b t =>
      cases u with
      | nil => simp [lexCmp] at h2
      | cons c u =>
        simp only [lexCmp] at *
        by_cases hab : a = b
        · subst hab
          by_cases hac : a = c
          · subst hac; simp at *; exact ih h1 h2
          · simp [hac] at *; exact h2
        · rw [if_neg hab] at h1
          by_cases hbc : b = c
          · subst hbc; rw [if_neg hab]; exact h1
          · rw [if_neg hbc] at h2
            have : a < b := by split at h1 <;> omega
            have : b < c := by split at h2 <;> omega
            rw [if_neg (by omega), if_pos (by omega)]; omega

/-- Comparators produced by lexicographic composition: first by a narrowed difference of `f`, then by `cmp`. -/
theorem narrow_eq {x : Int} (h : -(2^31) ≤ x) (h' : x < 2^31) : narrow x = x := by
  unfold narrow; omega

theorem then_preorder {α : Type} {S : α → Prop} (f : α → Int) (cmp : α → α → Int)
    (hf : ∀ x y, S x → S y → f x - f y < 2^31) (h : Sort.TotalPreorderOn S cmp) :
    Sort.TotalPreorderOn S (fun x y => if f x ≠ f y then narrow (f y - f x) else cmp x y) := by
  have hn : ∀ x y, S x → S y → narrow (f y - f x) = f y - f x := by
    intro x y hx hy
    have h1 := hf x y hx hy
    have h2 := hf y x hy hx
    exact narrow_eq (by omega) (by omega)
  constructor
  · intro x y hx hy
    by_cases he : f x = f y
    · simpa [he] using h.flip x y hx hy
    · simp only [ne_eq, he, not_false_eq_true, if_true, Ne.symm he]
      rw [hn x y hx hy, hn y x hy hx]; omega
  · intro x y z hx hy hz h1 h2
    simp only [hn x y hx hy, hn y z hy hz, hn x z hx hz] at *
    by_cases e1 : f x = f y
    · by_cases e2 : f y = f z
      · simp [e1, e2] at *; exact h.trans x y z hx hy hz h1 h2
      · rw [if_pos e2] at h2
        rw [if_pos (by omega)]; omega
    · rw [if_pos e1] at h1
      by_cases e2 : f y = f z
      · rw [if_pos (by omega)]; omega
      · rw [if_pos e2] at h2
        rw [if_pos (by omega)]; omega

theorem then_zero {α : Type} {S : α → Prop} (f : α → Int) (cmp : α → α → Int)
    (hf : ∀ x y, S x → S y → f x - f y < 2^31) (x y : α) (hx : S x) (hy : S y)
    (h : (if f x ≠ f y then narrow (f y - f x) else cmp x y) = 0) : f x = f y ∧ cmp x y = 0 := by
  by_cases he : f x = f y
  · simpa [he] using h
  · simp only [ne_eq, he, not_false_eq_true, if_true] at h
    have h1 := hf x y hx hy
    have h2 := hf y x hy hx
    rw [narrow_eq (by omega) (by omega)] at h; omega

theorem key_preorder {α : Type} {S : α → Prop} (key : α → List Nat) (hk : ∀ x, S x → NulFree (key x)) :
    Sort.TotalPreorderOn S (fun x y => ustrcmp (key x) (key y)) := by
  constructor
  · intro x y hx hy
    rw [ustrcmp_eq _ _ (hk x hx) (hk y hy), ustrcmp_eq _ _ (hk y hy) (hk x hx), lexCmp_flip (key x) (key y)]
    omega
  · intro x y z hx hy hz
    rw [ustrcmp_eq _ _ (hk x hx) (hk y hy), ustrcmp_eq _ _ (hk y hy) (hk z hz),
      ustrcmp_eq _ _ (hk x hx) (hk z hz)]
    exact lexCmp_trans

theorem compareValues_eq {v w : List Nat} (h : v.length = w.length) : compareValues v w = lexCmp v w := by
  induction v generalizing w with
  | nil => cases w <;> simp_all [compareValues, lexCmp]
  | cons a v ih =>
    cases w with
    | nil => simp at h
    | cons b w => simp at h; simp [compareValues, lexCmp, ih h]

theorem value_preorder {α : Type} {S : α → Prop} (value : α → List Nat) (n : Nat)
    (hk : ∀ x, S x → (value x).length = n) :
    Sort.TotalPreorderOn S (fun x y => compareValues (value x) (value y)) := by
  have e : ∀ x y, S x → S y → compareValues (value x) (value y) = lexCmp (value x) (value y) := by
    intro x y hx hy; exact compareValues_eq (by rw [hk x hx, hk y hy])
  constructor
  · intro x y hx hy
    simp only [e x y hx hy, e y x hy hx, lexCmp_flip (value x) (value y)]; omega
  · intro x y z hx hy hz
    simp only [e x y hx hy, e y z hy hz, e x z hx hz]
    exact lexCmp_trans

/-- Two arrays with the same elements sort to the same array if `cmp` never identifies different elements. -/
theorem sort_unique {α : Type} (cmp : α → α → Int) (a b : List α) (hp : a.Perm b)
    (hc : Sort.TotalPreorderOn (· ∈ a) cmp) (h0 : ∀ x ∈ a, ∀ y ∈ a, cmp x y = 0 → x = y)
    (fuel : Nat) (hf : a.length ≤ fuel) :
    ∃ s, Sort.sort fuel cmp a = .ok s ∧ Sort.sort fuel cmp b = .ok s ∧ s.Perm a ∧
      s.Pairwise (fun x y => cmp x y ≤ 0) := by
  have main : ∀ l : List α, l.Perm a → ∃ s, Sort.sort fuel cmp l = .ok s ∧ s.Perm l ∧
      s.Pairwise (fun x y => cmp x y ≤ 0) := by
    intro l hl
    unfold Sort.sort
    split
    · rename_i h
      refine ⟨l, rfl, List.Perm.refl _, ?_⟩
      match l, h with
      | [], _ => simp
      | [x], _ => simp
      | x :: y :: l, h => simp at h; omega
    · rename_i h
      obtain ⟨s, e, hp', hs⟩ := Sort.quicksort_spec cmp fuel l (by rintro rfl; simp at h)
        (by rw [hl.length_eq]; exact hf) [] []
      exact ⟨s, by simpa using e, hp', hs _ hc (fun x hx => hl.mem_iff.1 hx)⟩
  obtain ⟨s, e1, p1, s1⟩ := main a (List.Perm.refl _)
  obtain ⟨t, e2, p2, s2⟩ := main b hp.symm
  have : s = t := by
    have hst : s.Perm t := p1.trans (hp.trans p2.symm)
    refine List.Perm.eq_of_pairwise (le := fun x y => cmp x y ≤ 0) ?_ s1 s2 hst
    intro x y hx hy h1 h2
    have hxa := p1.mem_iff.1 hx
    have hya := hp.mem_iff.2 (p2.mem_iff.1 hy)
    apply h0 x hxa y hya
    by_contra hne
    have h3 : cmp x y < 0 := by omega
    have := (hc.flip x y hxa hya).1 h3
    omega
  subst this
  exact ⟨s, e1, e2, p1, s1⟩

end Ocr
