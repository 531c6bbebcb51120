import Verif.Spec.Table
import Verif.Model.Store
import Verif.Proof.CList
import Mathlib.Data.List.Perm.Basic

namespace Ocr.Table

open Ocr.CList

variable {τ : Type} [DecidableEq τ]

/-- The bucket contents denoted by the live entries. -/
def buckets (keyOf : Addr → List Nat) (s : Live τ) : Abs (τ × Fin TABLE_SIZE) :=
  fun p => (s p.1).filter (fun e => table_index (keyOf e) = p.2)

structure TInv (keyOf : Addr → List Nat) (M : TMem τ) (s : Live τ) : Prop where
  inv   : Inv M.mem (buckets keyOf s)
  nodup : ∀ t, (s t).Nodup
  disj  : ∀ t u, t ≠ u → ∀ a ∈ s t, a ∉ s u
  count : ∀ t, M.count t = (s t).length
  array : ∀ t, M.array t = none ∨ M.array t = some ((Store.in_array keyOf (s t)).map some)

theorem mem_bucket {keyOf : Addr → List Nat} {s : Live τ} {t : τ} {i e} :
    e ∈ buckets keyOf s (t, i) ↔ e ∈ s t ∧ table_index (keyOf e) = i := by
  simp [buckets]

theorem buckets_insert (keyOf : Addr → List Nat) (s : Live τ) (t : τ) (e : Addr) :
    buckets keyOf (specStep s (.insert t e)) =
      CList.specStep (buckets keyOf s) (.insertFirst (t, table_index (keyOf e)) e) := by
  funext ⟨u, i⟩
  simp only [buckets, specStep, CList.specStep, upd, Prod.mk.injEq]
  by_cases hu : u = t
  · subst hu
    by_cases hi : i = table_index (keyOf e)
    · subst hi; simp
    · simp [hi, Ne.symm hi]
  · simp [hu]

theorem buckets_remove (keyOf : Addr → List Nat) (s : Live τ) (t : τ) (e : Addr) :
    buckets keyOf (specStep s (.remove t e)) =
      CList.specStep (buckets keyOf s) (.remove (t, table_index (keyOf e)) e) := by
  funext ⟨u, i⟩
  simp only [buckets, specStep, CList.specStep, upd, Prod.mk.injEq]
  by_cases hu : u = t
  · subst hu
    by_cases hi : i = table_index (keyOf e)
    · subst hi
      simp only [if_true, List.filter_filter, and_self]
      congr 1; funext x; exact Bool.and_comm _ _
    · simp only [if_true, hi, and_false, if_false, List.filter_filter]
      apply List.filter_congr
      intro x _
      by_cases hx : table_index (keyOf x) = i
      · have : x ≠ e := by rintro rfl; exact hi hx.symm
        simp [hx, this]
      · simp [hx]
  · simp [hu]

theorem tfree_mem (M : TMem τ) (t : τ) : (tfree_array M t).mem = M.mem := by
  unfold tfree_array; split <;> rfl
theorem tfree_count (M : TMem τ) (t : τ) : (tfree_array M t).count = M.count := by
  unfold tfree_array; split <;> rfl
theorem tfree_array_eq (M : TMem τ) (t : τ) :
    (tfree_array M t).array = fun x => if x = t then none else M.array x := by
  unfold tfree_array
  split
  · rfl
  · rename_i h; funext x; by_cases hx : x = t <;> simp_all

theorem searchChain_seg {m : Mem (τ × Fin TABLE_SIZE)} (keyOf : Addr → List Nat) (key : List Nat) {xs p}
    (h : Seg m.cell p xs none) (fuel : Nat) (hf : xs.length ≤ fuel) :
    searchChain m keyOf key fuel xs.head? = .ok (xs.find? (fun e => key = keyOf e)) := by
  induction xs generalizing p fuel with
  | nil => cases fuel <;> simp [searchChain]
  | cons x xs ih =>
    obtain ⟨fuel, rfl⟩ : ∃ f, fuel = f + 1 := ⟨fuel - 1, by simp at hf; omega⟩
    simp only [List.head?_cons, searchChain, List.find?_cons]
    by_cases hk : key = keyOf x
    · simp [hk]
    · simp only [hk, if_false, decide_false]
      rw [h.1, Option.or_none]; exact ih h.2 fuel (by simp at hf; omega)

theorem lookup_spec {keyOf : Addr → List Nat} {M : TMem τ} {s : Live τ} (h : TInv keyOf M s)
    (t : τ) (key : List Nat) (fuel : Nat) (hf : (s t).length ≤ fuel) :
    table_lookup fuel keyOf M t key = .ok ((s t).find? (fun e => keyOf e = key)) := by
  have hr := h.inv.rep (t, table_index key)
  unfold table_lookup
  rw [hr.first, searchChain_seg keyOf key hr.seg fuel
    (Nat.le_trans (List.length_filter_le _ _) hf)]
  congr 1
  simp only [buckets, List.find?_filter]
  congr 1
  funext e
  by_cases hk : keyOf e = key
  · subst hk; simp
  · simp [hk, Ne.symm hk]

theorem fillChain_seg {c : Addr → Cell} {p xs} (h : Seg c p xs none) (k : Nat) :
    fillChain c (xs.length + k) xs.head? = .ok (xs.map some, k) := by
  induction xs generalizing p with
  | nil => simp [fillChain]
  | cons x xs ih =>
    have := ih h.2
    rw [List.length_cons, Nat.add_right_comm, List.head?_cons]
    simp only [fillChain]
    rw [h.1, Option.or_none, this]; simp

theorem fillBuckets_spec {m : Mem (τ × Fin TABLE_SIZE)} {s : Abs (τ × Fin TABLE_SIZE)} (h : Inv m s) (t : τ)
    (is : List (Fin TABLE_SIZE)) :
    ∀ k, fillBuckets m t is ((is.flatMap (fun j => s (t, j))).length + k) =
      .ok ((is.flatMap (fun j => s (t, j))).map some ++ List.replicate k none) := by
  induction is with
  | nil => intro k; simp [fillBuckets]
  | cons i is ih =>
    intro k
    have hr := h.rep (t, i)
    simp only [List.flatMap_cons, List.length_append, List.map_append, fillBuckets]
    rw [hr.first, Nat.add_assoc, fillChain_seg hr.seg]
    simp only [Res.bind_ok, ih, Res.pure_eq, List.append_assoc]

theorem flatMap_perm {κ : Type} [DecidableEq κ] (f : Addr → κ) (xs : List Addr) (is : List κ) (hnd : is.Nodup)
    (h : ∀ a ∈ xs, f a ∈ is) :
    (is.flatMap (fun j => xs.filter (fun e => f e = j))).Perm xs := by
  rw [List.perm_iff_count]
  intro a
  rw [List.count_flatMap]
  by_cases ha : a ∈ xs
  · have hn := h a ha
    have e : ∀ j, (xs.filter (fun e => f e = j)).count a = if j = f a then xs.count a else 0 := by
      intro j
      by_cases hj : j = f a
      · subst hj; rw [if_pos rfl, List.count_filter]; simp
      · rw [if_neg hj, List.count_eq_zero]; simp [Ne.symm hj]
    simp only [Function.comp_def, e]
    have : ∀ (is : List κ), is.Nodup → ∀ (c : Nat), (is.map (fun j => if j = f a then c else 0)).sum =
        if f a ∈ is then c else 0 := by
      intro is
      induction is with
      | nil => intro _ c; simp
      | cons i is ih =>
        intro hnd c
        rw [List.nodup_cons] at hnd
        rw [List.map_cons, List.sum_cons, ih hnd.2]
        by_cases hi : i = f a
        · subst hi; simp [hnd.1]
        · simp [hi, Ne.symm hi]
    rw [this _ hnd, if_pos hn]
  · rw [List.count_eq_zero.2 ha]
    have : ∀ j, (xs.filter (fun e => f e = j)).count a = 0 := by
      intro j; rw [List.count_eq_zero]; simp [ha]
    simp [Function.comp_def, this]

theorem bucket_perm (keyOf : Addr → List Nat) (s : Live τ) (t : τ) :
    ((List.finRange TABLE_SIZE).flatMap (fun j => buckets keyOf s (t, j))).Perm (s t) :=
  flatMap_perm (fun e => table_index (keyOf e)) (s t) _ (List.nodup_finRange _) (fun _ _ => List.mem_finRange _)

theorem in_array_perm (keyOf : Addr → List Nat) (xs : List Addr) : (Store.in_array keyOf xs).Perm xs :=
  flatMap_perm (fun e => table_index (keyOf e)) xs _ (List.nodup_finRange _) (fun _ _ => List.mem_finRange _)

theorem in_array_spec {keyOf : Addr → List Nat} {M : TMem τ} {s : Live τ} (h : TInv keyOf M s) (t : τ) :
    ∃ M', table_in_array M t = .ok M' ∧ TInv keyOf M' s ∧
      (s t ≠ [] → M'.array t = some ((Store.in_array keyOf (s t)).map some)) := by
  unfold table_in_array
  by_cases hc : (M.array t).isSome ∨ M.count t = 0
  · refine ⟨M, by rw [if_pos hc], h, ?_⟩
    intro hne
    rcases hc with hc | hc
    · rcases h.array t with ha | ha
      · simp [ha] at hc
      · exact ha
    · rw [h.count] at hc; simp at hc; exact absurd hc hne
  · rw [if_neg hc]
    let ys := (List.finRange TABLE_SIZE).flatMap (fun j => buckets keyOf s (t, j))
    have hp : ys.Perm (s t) := bucket_perm keyOf s t
    have := fillBuckets_spec h.inv t (List.finRange TABLE_SIZE) 0
    simp only [Nat.add_zero, List.replicate_zero, List.append_nil] at this
    change fillBuckets M.mem t (List.finRange TABLE_SIZE) ys.length = .ok (ys.map some) at this
    rw [hp.length_eq] at this
    rw [h.count t, Int.toNat_natCast, this]
    refine ⟨_, rfl, ⟨h.inv, h.nodup, h.disj, h.count, ?_⟩, ?_⟩
    · intro u
      by_cases hu : u = t
      · subst hu; right; simp only [setArray, if_true]; rfl
      · simpa [setArray, hu] using h.array u
    · intro _; simp only [setArray, if_true]; rfl

theorem emptyBuckets_spec (junk : Addr → Cell) (fuel : Nat) (t : τ) (is : List (Fin TABLE_SIZE)) :
    is.Nodup →
    ∀ (m : Mem (τ × Fin TABLE_SIZE)) (s : Abs (τ × Fin TABLE_SIZE)), (∀ l, (s l).length ≤ fuel) → Inv m s →
      ∃ m', emptyBuckets junk fuel t is m = .ok (m', is.flatMap (fun j => s (t, j))) ∧
        Inv m' (fun p => if p.1 = t ∧ p.2 ∈ is then [] else s p) := by
  induction is with
  | nil =>
    intro _ m s hf h
    exact ⟨m, by simp [emptyBuckets], by simpa using h⟩
  | cons i is ih =>
    intro hnd m s hf h
    rw [List.nodup_cons] at hnd
    obtain ⟨m1, e1, h1⟩ := list_empty_spec junk (s (t, i)) fuel m s (t, i) (hf _) rfl h
    obtain ⟨m2, e2, h2⟩ := ih hnd.2 m1 (upd s (t, i) []) (by
      intro l; simp only [upd]; split
      · simp
      · exact hf l) h1
    refine ⟨m2, ?_, ?_⟩
    · simp only [emptyBuckets, e1, e2, Res.bind_ok, Res.pure_eq, List.flatMap_cons]
      congr 3
      apply List.flatMap_congr
      intro j hj
      rw [upd_ne]; simp; rintro rfl; exact hnd.1 hj
    · have : (fun p : τ × Fin TABLE_SIZE => if p.1 = t ∧ p.2 ∈ is then [] else upd s (t, i) [] p)
        = (fun p : τ × Fin TABLE_SIZE => if p.1 = t ∧ p.2 ∈ i :: is then [] else s p) := by
        funext ⟨u, j⟩
        simp only [upd, Prod.mk.injEq]
        by_cases hu : u = t
        · subst hu
          by_cases hj : j = i
          · subst hj; simp
          · simp [hj]
        · simp [hu]
      rwa [this] at h2

theorem table_empty_spec {keyOf : Addr → List Nat} {M : TMem τ} {s : Live τ} (h : TInv keyOf M s)
    (t : τ) (junk : Addr → Cell) (fuel : Nat) (hf : ∀ t, (s t).length ≤ fuel) :
    ∃ M' xs, table_empty junk fuel M t = .ok (M', xs) ∧ xs.Perm (s t) ∧
      TInv keyOf M' (specStep s (.empty t junk)) := by
  obtain ⟨m', e, h'⟩ := emptyBuckets_spec junk fuel t _ (List.nodup_finRange TABLE_SIZE) M.mem (buckets keyOf s)
    (fun l => Nat.le_trans (List.length_filter_le _ _) (hf l.1)) h.inv
  have hp := bucket_perm keyOf s t
  refine ⟨setCount (tfree_array { M with mem := m' } t) t 0, _, by
    unfold table_empty; rw [e]; simp only [Res.bind_ok, Res.pure_eq], hp, ?_⟩
  refine ⟨?_, ?_, ?_, ?_, ?_⟩
  · simp only [setCount, tfree_mem]
    have : (fun p : τ × Fin TABLE_SIZE => if p.1 = t ∧ p.2 ∈ List.finRange TABLE_SIZE then [] else buckets keyOf s p)
        = buckets keyOf (specStep s (.empty t junk)) := by
      funext ⟨u, j⟩
      simp only [buckets, specStep, List.mem_finRange, and_true]
      by_cases hu : u = t <;> simp [hu]
    rwa [this] at h'
  · intro u; simp only [specStep]; split
    · simp
    · exact h.nodup u
  · intro u v huv a ha
    simp only [specStep] at ha ⊢
    split at ha
    · simp at ha
    · split
      · simp
      · exact h.disj u v huv a ha
  · intro u
    simp only [setCount, tfree_count, specStep]
    split
    · simp
    · exact h.count u
  · intro u
    simp only [setCount, tfree_array_eq, specStep]
    split
    · simp
    · exact h.array u

theorem exec_spec {keyOf : Addr → List Nat} {M : TMem τ} {s : Live τ} (h : TInv keyOf M s)
    (op : Op τ) (hl : legal s op) (fuel : Nat) (hf : ∀ t, (s t).length ≤ fuel) :
    ∃ M', exec keyOf fuel M op = .ok M' ∧ TInv keyOf M' (specStep s op) := by
  cases op with
  | insert t e =>
    refine ⟨_, rfl, ?_, ?_, ?_, ?_, ?_⟩
    · rw [buckets_insert]
      obtain ⟨m', e', h'⟩ := CList.exec_spec h.inv (.insertFirst (t, table_index (keyOf e)) e)
        (fun k hk => hl k.1 (mem_bucket.1 hk).1) fuel
        (fun l => Nat.le_trans (List.length_filter_le _ _) (hf l.1))
      simp only [CList.exec, Res.ok.injEq] at e'
      simp only [table_insert, setCount, tfree_mem, e']
      exact h'
    · intro u; simp only [specStep]; split
      · exact List.nodup_cons.2 ⟨hl t, h.nodup t⟩
      · exact h.nodup u
    · intro u v huv a ha
      simp only [specStep] at ha ⊢
      by_cases hu : u = t
      · subst hu
        rw [if_neg (Ne.symm huv)]
        rw [if_pos rfl] at ha
        rcases List.mem_cons.1 ha with rfl | ha
        · exact hl v
        · exact h.disj u v huv a ha
      · rw [if_neg hu] at ha
        by_cases hv : v = t
        · subst hv
          rw [if_pos rfl]
          simp only [List.mem_cons, not_or]
          refine ⟨?_, h.disj u v huv a ha⟩
          rintro rfl; exact hl u ha
        · rw [if_neg hv]; exact h.disj u v huv a ha
    · intro u
      simp only [table_insert, setCount, tfree_count, specStep]
      by_cases hu : u = t
      · subst hu; simp [h.count]
      · simp [hu, h.count]
    · intro u
      simp only [table_insert, setCount, tfree_array_eq, specStep]
      by_cases hu : u = t
      · simp [hu]
      · simpa [hu] using h.array u
  | remove t e =>
    have hl : e ∈ s t := hl
    refine ⟨_, rfl, ?_, ?_, ?_, ?_, ?_⟩
    · rw [buckets_remove]
      obtain ⟨m', e', h'⟩ := CList.exec_spec h.inv (.remove (t, table_index (keyOf e)) e)
        (mem_bucket.2 ⟨hl, rfl⟩) fuel
        (fun l => Nat.le_trans (List.length_filter_le _ _) (hf l.1))
      simp only [CList.exec, Res.ok.injEq] at e'
      simp only [table_remove, setCount, tfree_mem, e']
      exact h'
    · intro u; simp only [specStep]; split
      · exact (h.nodup t).filter _
      · exact h.nodup u
    · intro u v huv a ha
      have sub : ∀ w, a ∈ specStep s (.remove t e) w → a ∈ s w := by
        intro w hw; simp only [specStep] at hw; split at hw
        · rename_i hw'; subst hw'; exact (List.mem_filter.1 hw).1
        · exact hw
      exact fun hv => h.disj u v huv a (sub u ha) (sub v hv)
    · intro u
      simp only [table_remove, setCount, tfree_count, specStep]
      by_cases hu : u = t
      · subst hu
        simp only [if_true, h.count]
        obtain ⟨ys, zs, e1⟩ := List.append_of_mem hl
        have := h.nodup u
        rw [e1] at this
        rw [e1, filter_ne_append this]; simp; omega
      · simp [hu, h.count]
    · intro u
      simp only [table_remove, setCount, tfree_array_eq, specStep]
      by_cases hu : u = t
      · simp [hu]
      · simpa [hu] using h.array u
  | inArray t =>
    obtain ⟨M', e, h', _⟩ := in_array_spec h t
    exact ⟨M', e, h'⟩
  | empty t junk =>
    obtain ⟨M', xs, e, _, h'⟩ := table_empty_spec h t junk fuel hf
    exact ⟨M', by simp [exec, e], h'⟩

theorem specStep_length (s : Live τ) (op : Op τ) (k : τ) :
    (specStep s op k).length ≤ (s k).length + 1 := by
  cases op with
  | insert t e => simp only [specStep]; split
                  · rename_i h; subst h; simp
                  · omega
  | remove t e => simp only [specStep]; split
                  · rename_i h; subst h; exact Nat.le_succ_of_le (List.length_filter_le _ _)
                  · omega
  | inArray t => simp [specStep]
  | empty t j => simp only [specStep]; split <;> simp

theorem execAll_spec {keyOf : Addr → List Nat} (ops : List (Op τ)) : ∀ {M : TMem τ} {s : Live τ},
    TInv keyOf M s → legalAll s ops → ∀ (fuel : Nat), (∀ l, (s l).length + ops.length ≤ fuel) →
    ∃ M', execAll keyOf fuel M ops = .ok M' ∧ TInv keyOf M' (specAll s ops) ∧
      ∀ t, (specAll s ops t).length ≤ fuel := by
  induction ops with
  | nil => intro m s h _ fuel hf; exact ⟨m, rfl, h, fun t => by simpa [specAll] using hf t⟩
  | cons op ops ih =>
    intro m s h hl fuel hfu
    obtain ⟨m1, e1, h1⟩ := exec_spec h op hl.1 fuel (fun l => by have := hfu l; simp at this; omega)
    obtain ⟨m2, e2, h2⟩ := ih h1 hl.2 fuel (fun l => by
      have := hfu l; have := specStep_length s op l; simp at *; omega)
    exact ⟨m2, by simp [execAll, e1, e2], h2⟩

theorem initBuckets_hdr (t : τ) (is : List (Fin TABLE_SIZE)) : ∀ (m : Mem (τ × Fin TABLE_SIZE))
    (p : τ × Fin TABLE_SIZE),
    (initBuckets t is m).hdr p = if p.1 = t ∧ p.2 ∈ is then ⟨none, none, none, 0⟩ else m.hdr p := by
  induction is with
  | nil => intro m p; simp [initBuckets]
  | cons i is ih =>
    rintro m ⟨u, j⟩
    simp only [initBuckets, ih, list_initialize, setHdr, Prod.mk.injEq, List.mem_cons]
    by_cases hu : u = t
    · by_cases hi : j = i
      · simp [hu, hi]
      · simp [hu, hi]
    · simp [hu]

theorem tinv_init (keyOf : Addr → List Nat) (M : TMem τ)
    (hm : ∀ t, M.count t = (table_initialize M t).count t ∧ M.array t = (table_initialize M t).array t ∧
      ∀ i, M.mem.hdr (t, i) = (table_initialize M t).mem.hdr (t, i)) :
    TInv keyOf M (fun _ => []) := by
  refine ⟨?_, by simp, by simp, ?_, ?_⟩
  · have : (buckets keyOf (fun _ : τ => [])) = fun _ => [] := by funext p; simp [buckets]
    rw [this]
    refine inv_init _ ?_
    rintro ⟨t, i⟩
    rw [(hm t).2.2 i]
    simp [table_initialize, setArray, setCount, initBuckets_hdr]
  · intro t; rw [(hm t).1]; simp [table_initialize, setCount]
  · intro t; rw [(hm t).2.1]; simp [table_initialize, setCount, setArray]

end Ocr.Table
