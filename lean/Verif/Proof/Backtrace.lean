import Verif.Proof.Fastukk

/-!
# The alignment read off the path list
-/

namespace Ocr.Sync
open Text Res

theorem run_eq {a b : List Nat} : ∀ (t i j : Nat), (∀ x, x < t → ∃ c, a[i + x]? = some c ∧ b[j + x]? = some c ∧ c ≠ 126) →
    (a.drop i).take t = (b.drop j).take t ∧ 126 ∉ (a.drop i).take t ∧ ((a.drop i).take t).length = t := by
  intro t
  induction t with
  | zero => intro i j _; simp
  | succ t ih =>
    intro i j h
    obtain ⟨c, h1, h2, h3⟩ := h 0 (by omega)
    obtain ⟨h1a, h1b⟩ := List.getElem?_eq_some_iff.1 h1
    obtain ⟨h2a, h2b⟩ := List.getElem?_eq_some_iff.1 h2
    simp only [Nat.add_zero] at h1a h2a h1b h2b
    obtain ⟨g1, g2, g3⟩ := ih (i + 1) (j + 1) (fun x hx => by
      obtain ⟨c, q⟩ := h (x + 1) (by omega)
      rw [show i + 1 + x = i + (x + 1) by omega, show j + 1 + x = j + (x + 1) by omega]
      exact ⟨c, q⟩)
    rw [List.drop_eq_getElem_cons h1a, List.drop_eq_getElem_cons h2a, List.take_succ_cons, List.take_succ_cons, h1b, h2b]
    refine ⟨by rw [g1], ?_, by simp [g3]⟩
    simp only [List.mem_cons, not_or]
    exact ⟨fun e => h3 e.symm, g2⟩

theorem nodup_split {pre post : List Sync} {s l r : Sync} {start : List Int} {len : Int} {q : Nat} (hs : s.mtch = none)
    (hl : l.mtch = none) (hr : r.mtch = none)
    (h : ((pre ++ s :: post).filterMap (·.mtch)).Nodup) (hq : ∀ x ∈ (pre ++ s :: post).filterMap (·.mtch), x < q) :
    ((pre ++ opt l ++ [midOf start len q] ++ opt r ++ post).filterMap (·.mtch)).Nodup ∧
    ∀ x ∈ (pre ++ opt l ++ [midOf start len q] ++ opt r ++ post).filterMap (·.mtch), x < q + 1 := by
  have ho : ∀ x : Sync, x.mtch = none → (opt x).filterMap (·.mtch) = [] := by
    intro x hx; unfold opt; split <;> simp [hx]
  simp only [List.filterMap_append, List.filterMap_cons, hs, List.filterMap_nil] at h hq
  simp only [List.filterMap_append, ho l hl, ho r hr, List.append_nil, List.filterMap_cons, midOf, List.filterMap_nil]
  constructor
  · rw [List.append_assoc, List.singleton_append, List.nodup_middle]
    refine List.nodup_cons.2 ⟨fun hm => ?_, h⟩
    have := hq q hm; omega
  · intro x hx
    simp only [List.mem_append, List.mem_singleton] at hx
    rcases hx with (hx | rfl) | hx
    · have := hq x (by simp only [List.mem_append]; exact Or.inl hx); omega
    · omega
    · have := hq x (by simp only [List.mem_append]; exact Or.inr hx); omega

theorem cost_opt (s : Sync) (h2 : s.substr.length = 2) (hs : s.mtch = none) (h0 : 0 ≤ (s.sub 0).length) (h1 : 0 ≤ (s.sub 1).length) :
    cost (opt s) = max (s.sub 0).length (s.sub 1).length := by
  unfold opt
  split
  · simp [cost, hs]
  · rename_i hv
    have a0 : ¬ 0 < (s.sub 0).length := fun h => hv ((valid_iff s).2 ⟨0, by omega, h⟩)
    have a1 : ¬ 0 < (s.sub 1).length := fun h => hv ((valid_iff s).2 ⟨1, by omega, h⟩)
    simp; omega

theorem cost_mid (start : List Int) (len : Int) (q : Nat) : cost [midOf start len q] = 0 := by simp [cost, midOf]

/-- The unmatched region at the beginning of both texts. -/
def front (e0 e1 : Int) : Sync := ⟨[⟨0, e0 - 1, e0⟩, ⟨0, e1 - 1, e1⟩], none⟩

theorem left_front (e0 e1 s0 s1 : Int) : leftOf (front e0 e1) [s0, s1] = front s0 s1 := by
  simp [leftOf, front]

theorem opt_front {s0 s1 : Int} (h : 0 < s0 ∨ 0 < s1) : opt (front s0 s1) = [front s0 s1] := by
  unfold opt; rw [if_pos]; simp [valid_sync, front]; exact h

theorem backtrace {a b : List Nat} : ∀ (rest : List Path) (P : Path) (k f : Int) (done : List Sync) (e0 e1 : Int) (next : Nat),
    ChainOK a b (P :: rest) → Cell P k f → IsAlignment [a, b] (front e0 e1 :: done) → f ≤ e0 → f + k ≤ e1 →
    cost done + max (e0 - f) (e1 - (f + k)) + rest.length ≤ lev a b →
    ((front e0 e1 :: done).filterMap (·.mtch)).Nodup → (∀ x ∈ (front e0 e1 :: done).filterMap (·.mtch), x < next) →
    ∃ l, obtain_matches (P :: rest) (some k) next (front e0 e1 :: done) = .ok l ∧ IsAlignment [a, b] l ∧ cost l ≤ lev a b ∧
      (l.filterMap (·.mtch)).Nodup := by
  intro rest
  induction rest with
  | nil =>
    intro P k f done e0 e1 next hch hc hal hf0 hf1 hcost hnd hlt
    have c := hch.1 k f hc
    obtain ⟨s, pk, e, hin, g1, g2, g3, g4⟩ := c.from_
    obtain ⟨hs0, hk0⟩ : s = 0 ∧ k = 0 := hin
    subst hs0
    subst hk0
    unfold obtain_matches
    rw [hc.rd]
    simp only [bind_ok]
    rw [e]
    simp only [bind_ok]
    by_cases hgt : f > 0
    · rw [if_pos hgt, save_match_eq (sync := front e0 e1) rfl rfl]
      simp only [bind_ok, obtain_matches]
      obtain ⟨w1, w2, w3⟩ := run_eq (a := a) (b := b) f.toNat 0 0 (fun x hx => by
        obtain ⟨c, _, _, q1, q2, q3⟩ := g4 x (by omega) (by omega)
        exact ⟨c, by simpa using q1, by simpa using q2, q3⟩)
      have hsplit := alignment_split (pre := []) (sync := front e0 e1) (post := done) hal (start := [0, 0 + 0])
        (length := f.toNat) (q := next) rfl (by omega) (by simp) (by
          intro t ht
          simp only [List.length_cons, List.length_nil] at ht
          rcases (by omega : t = 0 ∨ t = 1) with rfl | rfl
          · simp [Sync.sub, front]; omega
          · simp [Sync.sub, front]; omega)
        ((a.drop 0).take f.toNat) w2 w3 (by
          intro t ht ht'
          simp only [List.length_cons, List.length_nil] at ht
          rcases (by omega : t = 0 ∨ t = 1) with rfl | rfl
          · simp
          · simpa using w1.symm)
      have hnd' := nodup_split (pre := []) (post := done) (l := leftOf (front e0 e1) [0, 0 + 0])
        (r := rightOf (front e0 e1) [0, 0 + 0] (f - 0)) (start := [0, 0 + 0]) (len := f - 0) (s := front e0 e1) rfl rfl rfl hnd hlt
      rw [show ((f.toNat : Nat) : Int) = f - 0 by omega] at hsplit
      refine ⟨_, rfl, ?_, ?_, ?_⟩
      · simpa using hsplit
      · rw [left_front]
        have hv : opt (front 0 (0 + 0)) = [] := by simp [opt, valid_sync, front]
        rw [hv]
        simp only [List.take_zero, List.nil_append, List.drop_succ_cons, List.drop_zero, cost_append, cost_mid]
        rw [cost_opt _ rfl rfl]
        · simp [rightOf, front, Sync.sub]
          simp at hcost
          omega
        · simp [rightOf, front, Sync.sub]; omega
        · simp [rightOf, front, Sync.sub]; omega
      · simpa using hnd'.1
    · rw [if_neg hgt]
      simp only [obtain_matches]
      have hf : f = 0 := by omega
      subst hf
      refine ⟨_, rfl, hal, ?_, hnd⟩
      rw [cost_cons]
      simp [front, Sync.sub]
      simp at hcost
      omega
  | cons Q rest ih =>
    intro P k f done e0 e1 next hch hc hal hf0 hf1 hcost hnd hlt
    have c := hch.1 k f hc
    obtain ⟨s, pk, e, hin, g1, g2, g3, g4⟩ := c.from_
    obtain ⟨q, u, hpk, hcq, q1, q2, hsu, _⟩ : ∃ q u, pk = some q ∧ Cell Q q u ∧ k - 1 ≤ q ∧ q ≤ k + 1 ∧ s = u + bump q k ∧ _ := hin
    subst hpk
    have cu := hch.2.1 q u hcq
    have := cu.i0
    have := cu.j0
    have hstep : u ≤ s ∧ u + q ≤ s + k ∧ s ≤ u + 1 ∧ s + k ≤ u + q + 1 ∧ (0 < s ∨ 0 < s + k) := by
      unfold bump at hsu; split at hsu <;> omega
    unfold obtain_matches
    rw [hc.rd]
    simp only [bind_ok]
    rw [e]
    simp only [bind_ok]
    by_cases hgt : f > s
    · rw [if_pos hgt, save_match_eq (sync := front e0 e1) rfl rfl]
      simp only [bind_ok]
      obtain ⟨w1, w2, w3⟩ := run_eq (a := a) (b := b) (f - s).toNat s.toNat (s + k).toNat (fun x hx => by
        obtain ⟨c, _, _, q1, q2, q3⟩ := g4 (s + x) (by omega) (by omega)
        rw [show (s + (x : Int)).toNat = s.toNat + x by omega] at q1
        rw [show (s + (x : Int) + k).toNat = (s + k).toNat + x by omega] at q2
        exact ⟨c, q1, q2, q3⟩)
      have hsplit := alignment_split (pre := []) (sync := front e0 e1) (post := done) hal (start := [s, s + k])
        (length := (f - s).toNat) (q := next) rfl (by omega) (by simp) (by
          intro t ht
          simp only [List.length_cons, List.length_nil] at ht
          rcases (by omega : t = 0 ∨ t = 1) with rfl | rfl
          · simp [Sync.sub, front]; omega
          · simp [Sync.sub, front]; omega)
        ((a.drop s.toNat).take (f - s).toNat) w2 w3 (by
          intro t ht ht'
          simp only [List.length_cons, List.length_nil] at ht
          rcases (by omega : t = 0 ∨ t = 1) with rfl | rfl
          · simp
          · simpa using w1.symm)
      have hnd' := nodup_split (pre := []) (post := done) (l := leftOf (front e0 e1) [s, s + k])
        (r := rightOf (front e0 e1) [s, s + k] (f - s)) (start := [s, s + k]) (len := f - s) (s := front e0 e1) rfl rfl rfl hnd hlt
      rw [show (((f - s).toNat : Nat) : Int) = f - s by omega] at hsplit
      rw [left_front, opt_front hstep.2.2.2.2] at hsplit hnd' ⊢
      simp only [List.nil_append, List.take_zero, List.drop_succ_cons, List.drop_zero, List.cons_append] at hsplit hnd' ⊢
      refine ih Q q u _ s (s + k) (next + 1) hch.2 hcq hsplit hstep.1 hstep.2.1 ?_ hnd'.1 hnd'.2
      rw [cost_cons, cost_append, cost_opt _ rfl rfl]
      · simp only [midOf, reduceCtorEq, if_false]
        simp [rightOf, front, Sync.sub]
        simp at hcost
        omega
      · simp [rightOf, front, Sync.sub]; omega
      · simp [rightOf, front, Sync.sub]; omega
    · rw [if_neg hgt]
      refine ih Q q u done e0 e1 next hch.2 hcq hal (by omega) (by omega) ?_ hnd hlt
      simp at hcost ⊢
      omega

/-- `fastukk_sync` succeeds with an alignment whose cost is the edit distance. -/
theorem fastukk_spec (t0 t1 : List Ch) : ∃ r, fastukk_sync t0 t1 = .ok r ∧
    IsAlignment [t0.map Ch.value, t1.map Ch.value] r.items ∧ Numbered r.items r.cells ∧
    cost r.items = lev (t0.map Ch.value) (t1.map Ch.value) := by
  unfold fastukk_sync
  obtain ⟨a, ha⟩ : ∃ a, a = t0.map Ch.value := ⟨_, rfl⟩
  obtain ⟨b, hb⟩ : ∃ b, b = t1.map Ch.value := ⟨_, rfl⟩
  have la : t0.length = a.length := by simp [ha]
  have lb : t1.length = b.length := by simp [hb]
  simp only [← ha, ← hb, la, lb]
  obtain ⟨P, rest, e, hch, hcell, hlen⟩ := pathLoop_spec (a := a) (b := b) (a.length + b.length + 1) (-a.length) b.length []
    .start trivial (by have := lev_le_max a b; simp; omega)
  unfold compute_pathlist
  simp only [List.length_nil] at e
  rw [e]
  simp only [bind_ok]
  have hinit := initial_alignment [a, b]
  have hmain : ∃ l, obtain_matches (P :: rest) (some ((b.length : Int) - a.length)) 0 (initialize_synclist [a.length, b.length]) = .ok l ∧
      IsAlignment [a, b] l ∧ cost l ≤ lev a b ∧ (l.filterMap (·.mtch)).Nodup := by
    by_cases h0 : a = [] ∧ b = []
    · obtain ⟨rfl, rfl⟩ := h0
      have : rest = [] := by simpa using hlen
      subst this
      unfold obtain_matches
      rw [hcell.rd]
      simp only [bind_ok, List.length_nil, List.head?_nil, initial_f]
      rw [if_neg (by simp)]
      simp only [obtain_matches]
      refine ⟨_, rfl, by simpa using hinit, ?_, ?_⟩
      · simp [initialize_synclist, valid_sync]
      · simp [initialize_synclist, valid_sync]
    · have hv : initialize_synclist [a.length, b.length] = [front a.length b.length] := by
        unfold initialize_synclist front valid_sync
        simp only [List.map_cons, List.map_nil]
        rw [if_pos]
        simp only [List.any_cons, List.any_nil, Bool.or_false, Bool.or_eq_true, decide_eq_true_eq]
        by_contra hc
        simp only [not_or] at hc
        apply h0
        constructor
        · apply List.eq_nil_of_length_eq_zero; omega
        · apply List.eq_nil_of_length_eq_zero; omega
      have hinit' : IsAlignment [a, b] [front a.length b.length] := by
        rw [← hv]; simpa using hinit
      rw [hv]
      exact backtrace rest P _ _ [] a.length b.length 0 hch hcell hinit' (le_refl _) (by omega) (by
        simp only [cost_nil]; omega) (by simp [front]) (by simp [front])
  obtain ⟨l, e2, h1, h2, h3⟩ := hmain
  rw [e2]
  simp only [bind_ok]
  refine ⟨_, rfl, h1, numbering l _ h3, ?_⟩
  have := alignment_cost_ge h1
  simp only; omega

end Ocr.Sync
