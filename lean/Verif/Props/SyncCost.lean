import Verif.Proof.SyncCost
import Verif.Proof.Backtrace
import Verif.Props.Sync

/-!
# C86: the work done by fastukk_sync
-/

namespace Ocr.Sync
open Text Res

/-- C86.  Counting does not change what is computed. -/
theorem c86_same (a b : List Nat) : (do let r ← compute_pathlistW a b; pure r.1 : Res (List Path)) = compute_pathlist a b := by
  obtain ⟨r, w, u, g, e1, e2, _⟩ := compute_pathlistW_spec a b
  rw [e1, e2]
  rfl

/-- C86.  For texts of edit distance `d` there are `d + 1` levels, `compute_f` is called at most `(d + 1)²` times (as many times as
there are cells in the paths), the loop of `initial_f` has at most three iterations per call, and the condition of the while loop is
evaluated at most `(2 d + 1) (min m n + 1)` times. -/
theorem c86_work (a b : List Nat) (d : Nat) (hd : IsEditDistance a b d) : ∃ paths w u, compute_pathlistW a b = .ok (paths, w, u) ∧
    paths.length = d + 1 ∧ w.calls = (paths.map (·.f.length)).sum ∧ w.calls ≤ (d + 1) ^ 2 ∧ w.looks ≤ 3 * w.calls ∧
    w.tests ≤ (2 * d + 1) * (min a.length b.length + 1) := by
  obtain rfl := edit_distance_unique hd (lev_isEditDistance a b)
  obtain ⟨r, w, u, g, e1, e2, hl, ht⟩ := compute_pathlistW_spec a b
  refine ⟨r, w, u, e2, hl, ht.cells, by rw [← hl]; exact ht.square, ht.looks, ?_⟩
  have h1 := ht.tests
  have h2 : ∑ k ∈ Finset.Icc (-(lev a b : Int)) (lev a b), g k ≤
      (Finset.Icc (-(lev a b : Int)) (lev a b)).card • (min (a.length : Int) b.length + 1) :=
    Finset.sum_le_card_nsmul _ _ _ (fun k _ => (ht.range k).2)
  rw [Int.card_Icc, show ((lev a b : Int) + 1 - -(lev a b : Int)).toNat = 2 * lev a b + 1 by omega, nsmul_eq_mul] at h2
  have h3 : (w.tests : Int) ≤ ((2 * lev a b + 1 : Nat) : Int) * (min (a.length : Int) b.length + 1) := le_trans h1 h2
  have h4 : ((2 * lev a b + 1 : Nat) : Int) * (min (a.length : Int) b.length + 1) =
      (((2 * lev a b + 1) * (min a.length b.length + 1) : Nat) : Int) := by rw [show (min (a.length : Int) b.length) = ((min a.length b.length : Nat) : Int) by omega]; push_cast; rfl
  rw [h4] at h3
  exact_mod_cast h3

theorem ukkonenCount_card (m n p : Nat) : ukkonenCount m n p =
    (((Finset.Icc (-(m : Int)) (n : Int)).filter (fun k : Int => |k| ≤ p ∧ p - |k| ≤ min (m : Int) n)).card : Int) := by
  have e : (Finset.Icc (-(m : Int)) (n : Int)).filter (fun k : Int => |k| ≤ p ∧ p - |k| ≤ min (m : Int) n) =
      (Finset.Icc (max (-(m : Int)) (-p)) (min (-1) (-(p - min (m : Int) n)))) ∪
        (Finset.Icc (max 0 (p - min (m : Int) n)) (min (n : Int) p)) := by
    ext k
    simp only [Finset.mem_filter, Finset.mem_Icc, Finset.mem_union]
    rcases lt_or_ge k 0 with h | h
    · rw [abs_of_neg h]; omega
    · rw [abs_of_nonneg h]; omega
  rw [e, Finset.card_union_of_disjoint]
  · rw [Int.card_Icc, Int.card_Icc]
    unfold ukkonenCount
    dsimp only
    split <;> split <;> omega
  · rw [Finset.disjoint_left]
    intro k h1 h2
    rw [Finset.mem_Icc] at h1 h2
    omega

theorem pathLoopW_ukk (a b : List Nat) : ∀ (fl p : Nat) (min_k max_k : Int) (paths : List Path) (w : Work) (u : Int)
    (r : List Path × Work × Int), pathLoopW a b fl p min_k max_k paths w u = .ok r →
    paths.length ≤ r.1.length ∧ r.2.2 = u + ∑ i ∈ Finset.range (r.1.length - paths.length), ukkonenCount a.length b.length ((p + i : Nat) : Int) := by
  intro fl
  induction fl with
  | zero =>
    intro p min_k max_k paths w u r h
    rw [pathLoopW.eq_def] at h
    simp only at h
    split at h
    · simp at h
    · simp only [Res.ok.injEq] at h; subst h; simp
  | succ fl ih =>
    intro p min_k max_k paths w u r h
    rw [pathLoopW.eq_def] at h
    simp only at h
    split at h
    · obtain ⟨⟨s, w1⟩, _, h⟩ := bind_eq_ok.1 h
      obtain ⟨h1, h2⟩ := ih _ _ _ _ _ _ _ h
      rw [List.length_cons] at h1 h2
      refine ⟨by omega, ?_⟩
      rw [h2, show r.1.length - paths.length = (r.1.length - (paths.length + 1)) + 1 by omega, Finset.sum_range_succ']
      simp only [Nat.add_zero]
      rw [show ∑ i ∈ Finset.range (r.1.length - (paths.length + 1)), ukkonenCount a.length b.length ((p + 1 + i : Nat) : Int) =
        ∑ i ∈ Finset.range (r.1.length - (paths.length + 1)), ukkonenCount a.length b.length ((p + (i + 1) : Nat) : Int) from
        Finset.sum_congr rfl (fun i _ => by rw [show p + 1 + i = p + (i + 1) by omega])]
      omega
    · simp only [Res.ok.injEq] at h; subst h; simp

/-- C86.  The count for Ukkonen's algorithm: for texts of edit distance `d`, at each level `p ≤ d` the diagonals `k` that exist and that
can be reached with `p` edits, unless the end of one of the texts has been passed. -/
theorem c86_ukkonen (a b : List Nat) (d : Nat) (hd : IsEditDistance a b d) : ∃ paths w u, compute_pathlistW a b = .ok (paths, w, u) ∧
    u = ∑ p ∈ Finset.range (d + 1), (((Finset.Icc (-(a.length : Int)) (b.length : Int)).filter
      (fun k : Int => |k| ≤ p ∧ p - |k| ≤ min (a.length : Int) b.length)).card : Int) := by
  obtain rfl := edit_distance_unique hd (lev_isEditDistance a b)
  obtain ⟨r, w, u, g, e1, e2, hl, ht⟩ := compute_pathlistW_spec a b
  refine ⟨r, w, u, e2, ?_⟩
  obtain ⟨_, h⟩ := pathLoopW_ukk _ _ _ _ _ _ _ _ _ _ e2
  simp only [List.length_nil, Nat.sub_zero, Nat.zero_add, Int.zero_add] at h
  rw [h, hl]
  exact Finset.sum_congr rfl (fun p _ => ukkonenCount_card _ _ _)

/-- C86.  The calls of `compute_f` are never more than those counted for Ukkonen's algorithm, and that count is not zero: the reduction
shown by the code for `SHOW_FASTUKK_REDUCTION` is a percentage from 0 to 100. -/
theorem c86_reduction (a b : List Nat) : ∃ paths w u, compute_pathlistW a b = .ok (paths, w, u) ∧ 0 < w.calls ∧ (w.calls : Int) ≤ u := by
  obtain ⟨r, w, u, g, e1, e2, hl, ht⟩ := compute_pathlistW_spec a b
  obtain ⟨P, rest, e, hch, hcell, hlen⟩ := pathLoop_spec (a := a) (b := b) (a.length + b.length + 1) (-a.length) b.length []
    .start trivial (by have := lev_le_max a b; simp; omega)
  have hr : P :: rest = r := by
    unfold compute_pathlist at e1
    simp only [List.length_nil] at e
    rw [e] at e1
    simpa using e1
  refine ⟨r, w, u, e2, ?_, ht.ukk⟩
  have hpos : 0 < P.f.length := by
    have h := (List.getElem?_eq_some_iff.1 hcell.2).1
    omega
  rw [ht.cells, ← hr]
  simp only [List.map_cons, List.sum_cons]
  omega

theorem save_match_matched {l l' : List Sync} {pos : Nat} {start : List Int} {len : Int} {q : Nat}
    (h : save_match l pos start len q = .ok l') : (l'.filter (·.mtch.isSome)).length ≤ (l.filter (·.mtch.isSome)).length + 1 := by
  unfold save_match at h
  split at h
  · simp at h
  · rename_i sync hs
    split at h
    · simp at h
    · simp only [Res.ok.injEq] at h
      subst h
      obtain ⟨hp, hsy⟩ := List.getElem?_eq_some_iff.1 hs
      have hl : l = l.take pos ++ sync :: l.drop (pos + 1) := by
        rw [← hsy, List.getElem_cons_drop, List.take_append_drop]
      have : (l.filter (·.mtch.isSome)).length =
          ((l.take pos).filter (·.mtch.isSome)).length + ((sync :: l.drop (pos + 1)).filter (·.mtch.isSome)).length := by
        conv_lhs => rw [hl]
        rw [List.filter_append, List.length_append]
      have h2 : ((l.drop (pos + 1)).filter (·.mtch.isSome)).length ≤ ((sync :: l.drop (pos + 1)).filter (·.mtch.isSome)).length := by
        rw [List.filter_cons]; split <;> simp
      have hopt : ∀ s : Sync, s.mtch = none → ((if valid_sync s then [s] else []).filter (·.mtch.isSome)) = [] := by
        intro s hs; split <;> simp [hs]
      simp only [List.filter_append, List.length_append]
      rw [hopt _ rfl, hopt _ rfl]
      simp
      omega

theorem obtain_matched : ∀ (paths : List Path) (k : Option Int) (next : Nat) (l l' : List Sync),
    obtain_matches paths k next l = .ok l' → (l'.filter (·.mtch.isSome)).length ≤ (l.filter (·.mtch.isSome)).length + paths.length := by
  intro paths
  induction paths with
  | nil => intro k next l l' h; simp only [obtain_matches, Res.ok.injEq] at h; subst h; simp
  | cons P rest ih =>
    intro k next l l' h
    cases k with
    | none => simp [obtain_matches] at h
    | some k =>
      unfold obtain_matches at h
      obtain ⟨f, _, h⟩ := bind_eq_ok.1 h
      obtain ⟨⟨s0, pk⟩, _, h⟩ := bind_eq_ok.1 h
      simp only at h
      split at h
      · obtain ⟨l1, h1, h⟩ := bind_eq_ok.1 h
        have := save_match_matched h1
        have := ih _ _ _ _ h
        simp only [List.length_cons]
        omega
      · have := ih _ _ _ _ h
        simp only [List.length_cons]
        omega

theorem gaps_le_cost {a b : List Nat} {items : List Sync} (h : IsAlignment [a, b] items) :
    ((items.filter (fun s => ¬ s.mtch.isSome)).length : Int) ≤ cost items := by
  have key : ∀ l : List Sync, (∀ s ∈ l, s ∈ items) → ((l.filter (fun s => ¬ s.mtch.isSome)).length : Int) ≤ cost l := by
    intro l
    induction l with
    | nil => intro _; simp [cost]
    | cons s l ih =>
      intro hm
      have h1 := ih (fun x hx => hm x (by simp [hx]))
      have hs := hm s (by simp)
      unfold cost at h1 ⊢
      rw [List.filter_cons]
      simp only [List.map_cons, List.sum_cons]
      cases hmt : s.mtch with
      | none =>
        obtain ⟨t, ht, hpos⟩ := h.nonempty s hs
        have : 1 ≤ max (s.sub 0).length (s.sub 1).length := by
          have : t = 0 ∨ t = 1 := by simp at ht; omega
          rcases this with rfl | rfl <;> omega
        simp only [Option.isSome_none, Bool.false_eq_true, not_false_eq_true, decide_true, if_true, List.length_cons]
        push_cast
        omega
      | some q =>
        simp only [Option.isSome_some, not_true_eq_false, decide_false, Bool.false_eq_true, if_false, reduceCtorEq]
        omega
  exact key items (fun _ h => h)

/-- C86.  The list that results has at most `2 d + 1` items, at most `d + 1` of them matches. -/
theorem c86_items (t0 t1 : List Ch) (d : Nat) (hd : IsEditDistance (values t0) (values t1) d) : ∃ r, fastukk_sync t0 t1 = .ok r ∧
    (r.items.filter (·.mtch.isSome)).length ≤ d + 1 ∧ r.items.length ≤ 2 * d + 1 := by
  obtain rfl := edit_distance_unique hd (lev_isEditDistance _ _)
  obtain ⟨r, h1, h2, _, h4⟩ := fastukk_spec t0 t1
  have hg := gaps_le_cost h2
  rw [h4] at hg
  change _ ≤ ((lev (values t0) (values t1) : Nat) : Int) at hg
  have hm : (r.items.filter (·.mtch.isSome)).length ≤ lev (values t0) (values t1) + 1 := by
    unfold fastukk_sync at h1
    obtain ⟨paths, e, h1⟩ := bind_eq_ok.1 h1
    obtain ⟨l, el, h1⟩ := bind_eq_ok.1 h1
    simp only [pure_eq, Res.ok.injEq] at h1
    subst h1
    obtain ⟨r', w, u, g, e1, _, hl, _⟩ := compute_pathlistW_spec (t0.map Ch.value) (t1.map Ch.value)
    rw [e] at e1
    obtain rfl : paths = r' := by simpa using e1
    have := obtain_matched _ _ _ _ _ el
    have h0 : ((initialize_synclist [t0.length, t1.length]).filter (·.mtch.isSome)).length = 0 := by
      unfold initialize_synclist
      simp only
      split <;> simp
    rw [h0, hl] at this
    simpa [values] using this
  refine ⟨r, h1, hm, ?_⟩
  have key : ∀ l : List Sync, l.length = (l.filter (·.mtch.isSome)).length + (l.filter (fun s => ¬ s.mtch.isSome)).length := by
    intro l
    induction l with
    | nil => rfl
    | cons s l ih =>
      rw [List.filter_cons, List.filter_cons, List.length_cons]
      cases hs : s.mtch.isSome <;> simp at ih ⊢ <;> omega
  have := key r.items
  omega

/-! ## Non-vacuity -/

example : (do let r ← compute_pathlistW (ascii "kitten") (ascii "sitting"); pure (r.1.length, r.2) : Res _) =
    .ok (4, ⟨8, 12, 12⟩, 16) := by decide +kernel
/-- Nothing in common: 53 of the 81 cells, 53 ≤ 17 * 9 tests. -/
example : (do let r ← compute_pathlistW (ascii "abcdefgh") (ascii "12345678"); pure (r.1.length, r.2) : Res _) =
    .ok (9, ⟨53, 53, 126⟩, 81) := by decide +kernel
/-- The bound on the tests is met by equal texts. -/
example : (do let r ← compute_pathlistW (ascii "aaaa") (ascii "aaaa"); pure (r.1.length, r.2) : Res _) = .ok (1, ⟨1, 5, 0⟩, 1) := by
  decide +kernel
/-- A reject character ends a match: here the bound on the number of items is met. -/
example : (do let r ← fastukk_sync (sampleText "a~b") (sampleText "a~b"); pure r.items.length : Res _) = .ok 3 := by decide +kernel
example : IsEditDistance (ascii "aaaa") (ascii "aaaa") 0 :=
  ⟨.keep _ (by decide) (.keep _ (by decide) (.keep _ (by decide) (.keep _ (by decide) .nil))), fun _ _ => Nat.zero_le _⟩

/-- Two levels: on diagonal 0 one cell, then on diagonal -1 (text 2 is empty, so that there is no diagonal 1 and diagonal 0 is passed). -/
example : ∃ paths w u, compute_pathlistW (ascii "a") [] = .ok (paths, w, u) ∧
    u = ∑ p ∈ Finset.range (1 + 1), (((Finset.Icc (-((ascii "a").length : Int)) (([] : List Nat).length : Int)).filter
      (fun k : Int => |k| ≤ p ∧ p - |k| ≤ min ((ascii "a").length : Int) ([] : List Nat).length)).card : Int) :=
  c86_ukkonen _ _ 1 (by have := lev_isEditDistance (ascii "a") []; rwa [show lev (ascii "a") [] = 1 by decide +kernel] at this)

end Ocr.Sync
