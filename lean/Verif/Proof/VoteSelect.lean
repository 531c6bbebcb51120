import Verif.Spec.Vote
import Verif.Proof.VoteKeys
import Verif.Proof.Store
import Verif.Props.Sort
import Verif.Proof.Compare

/-!
# select_voters keeps the voters closest to the median
-/

namespace Ocr.Vote
open Text Res

/-- The values are code points. -/
def Valid (text : List Ch) : Prop := ∀ c ∈ text, c.value < 0x110000

theorem digrams_cons2 (c1 c2 : Ch) (rest : List Ch) :
    digrams (c1 :: c2 :: rest) = (c1.value, c2.value) :: digrams (c2 :: rest) := by
  simp [digrams]

theorem digrams_valid {text : List Ch} (h : Valid text) : ∀ d ∈ digrams text, d.1 < 0x110000 ∧ d.2 < 0x110000 := by
  intro d hd
  unfold digrams at hd
  have h1 := List.of_mem_zip (a := d.1) (b := d.2) hd
  have h2 := List.mem_of_mem_tail h1.2
  obtain ⟨c, hc, e⟩ := List.mem_map.1 h1.1
  obtain ⟨c', hc', e'⟩ := List.mem_map.1 h2
  exact ⟨e ▸ h c hc, e' ▸ h c' hc'⟩

/-- The entry of a digram after the events `L` (voter and digram). -/
noncomputable def entry (U : Unicode) (L : List (Nat × (Nat × Nat))) (d : Nat × Nat) : Seq :=
  ⟨dkey U d, fun i => (L.count (i, d) : Int), if d.1 = REJECT_CHARACTER ∨ d.2 = REJECT_CHARACTER then 0 else 2⟩

/-- The table after the events `L`. -/
def TI (U : Unicode) (L : List (Nat × (Nat × Nat))) (t : List Seq) : Prop :=
  ∃ ds : List (Nat × Nat), ds.Nodup ∧ (∀ d, d ∈ ds ↔ ∃ i, (i, d) ∈ L) ∧ t = ds.map (entry U L)

def VL (L : List (Nat × (Nat × Nat))) : Prop := ∀ e ∈ L, e.2.1 < 0x110000 ∧ e.2.2 < 0x110000

theorem entry_other {U L i} {d d' : Nat × Nat} (h : d' ≠ d) : entry U (L ++ [(i, d)]) d' = entry U L d' := by
  unfold entry
  congr 1
  funext j
  rw [List.count_append, List.count_singleton, if_neg]
  · simp
  · simp only [beq_iff_eq, Prod.mk.injEq, not_and]; intro _ e; exact h e.symm

theorem add_spec {U} (F : UnicodeFacts U) {L t} (h : TI U L t) (hL : VL L) {i : Nat} {d : Nat × Nat} (hi : i < MAX_VOTERS)
    (hd : d.1 < 0x110000 ∧ d.2 < 0x110000) :
    ∃ t', add_sequence (dkey U d) (decide (d.1 = REJECT_CHARACTER ∨ d.2 = REJECT_CHARACTER)) i t = .ok t' ∧
      TI U (L ++ [(i, d)]) t' := by
  obtain ⟨ds, hnd, hmem, rfl⟩ := h
  unfold add_sequence
  rw [if_pos hi]
  refine ⟨_, rfl, ?_⟩
  have hval : ∀ d' ∈ ds, d'.1 < 0x110000 ∧ d'.2 < 0x110000 := by
    intro d' hd'
    obtain ⟨j, hj⟩ := (hmem d').1 hd'
    exact hL _ hj
  rcases Store.add_cases Seq.key (dkey U d)
    (fun s => { s with count := fun j => if j = i then s.count j + 1 else s.count j })
    ⟨dkey U d, fun j => if j = i then 1 else 0, if decide (d.1 = REJECT_CHARACTER ∨ d.2 = REJECT_CHARACTER) = true then 0 else 2⟩
    (ds.map (entry U L)) with ⟨e, hne⟩ | ⟨p, x, q, e0, e, hx, hp⟩
  · rw [e]
    have hdn : d ∉ ds := by
      intro hd'
      exact hne _ (List.mem_map.2 ⟨d, hd', rfl⟩) rfl
    refine ⟨d :: ds, List.nodup_cons.2 ⟨hdn, hnd⟩, ?_, ?_⟩
    · intro d'
      rw [List.mem_cons, hmem]
      simp only [List.mem_append, List.mem_singleton, Prod.mk.injEq]
      constructor
      · rintro (rfl | ⟨j, hj⟩)
        · exact ⟨i, .inr ⟨rfl, rfl⟩⟩
        · exact ⟨j, .inl hj⟩
      · rintro ⟨j, hj | ⟨_, rfl⟩⟩
        · exact .inr ⟨j, hj⟩
        · exact .inl rfl
    · rw [List.map_cons]
      congr 1
      · unfold entry
        congr 1
        · funext j
          have h0 : L.count (j, d) = 0 := by
            rw [List.count_eq_zero]
            intro hj
            exact hdn ((hmem d).2 ⟨j, hj⟩)
          rw [List.count_append, List.count_singleton, h0]
          by_cases hj : j = i
          · subst hj; simp
          · rw [if_neg hj, if_neg]
            · simp
            · simp only [beq_iff_eq, Prod.mk.injEq, not_and]; intro e; exact absurd e.symm hj
        · simp
      · apply List.map_congr_left
        intro d' hd'
        exact (entry_other (fun (e : d' = d) => hdn (e ▸ hd'))).symm
  · rw [e]
    obtain ⟨dp, dxq, rfl, rfl, hxq⟩ := List.map_eq_append_iff.1 e0
    obtain ⟨dx, dq, rfl, rfl, rfl⟩ := List.map_eq_cons_iff.1 hxq
    have hdx : dx = d := dkey_inj F (hval dx (by simp)) hd hx
    subst hdx
    refine ⟨dp ++ dx :: dq, hnd, ?_, ?_⟩
    · intro d'
      rw [hmem]
      simp only [List.mem_append, List.mem_singleton, Prod.mk.injEq]
      constructor
      · rintro ⟨j, hj⟩; exact ⟨j, .inl hj⟩
      · rintro ⟨j, hj | ⟨_, rfl⟩⟩
        · exact ⟨j, hj⟩
        · exact (hmem d').1 (by simp)
    · have hn := List.nodup_append.1 hnd
      rw [List.map_append, List.map_cons]
      congr 1
      · apply List.map_congr_left
        intro d' hd'
        exact (entry_other (fun e => hn.2.2 d' hd' dx (by simp) e)).symm
      congr 1
      · unfold entry
        congr 1
        funext j
        rw [List.count_append, List.count_singleton]
        by_cases hj : j = i
        · subst hj; simp
        · simp only
          rw [if_neg hj, if_neg]
          · simp
          · simp only [beq_iff_eq, Prod.mk.injEq, not_and]; intro e; exact absurd e.symm hj
      · apply List.map_congr_left
        intro d' hd'
        refine (entry_other (fun e => ?_)).symm
        have := (List.nodup_cons.1 hn.2.1).1
        exact this (e ▸ hd')

theorem count_spec {U} (F : UnicodeFacts U) {i : Nat} (hi : i < MAX_VOTERS) : ∀ (text : List Ch) (L : List (Nat × (Nat × Nat))) (t : List Seq),
    Valid text → TI U L t → VL L → ∃ t', count_sequences U i text t = .ok t' ∧
      TI U (L ++ (digrams text).map (fun d => (i, d))) t' := by
  intro text
  induction text with
  | nil => intro L t _ h _; exact ⟨t, by simp [count_sequences], by simpa [digrams] using h⟩
  | cons c1 rest ih =>
    intro L t hv h hL
    cases rest with
    | nil =>
      obtain ⟨k, hk⟩ := single_key F (hv c1 (by simp))
      unfold count_sequences
      rw [hk]
      exact ⟨t, rfl, by simpa [digrams] using h⟩
    | cons c2 rest =>
      have v1 := hv c1 (by simp)
      have v2 := hv c2 (by simp)
      unfold count_sequences
      rw [digram_key F v1 v2]
      simp only [bind_ok]
      obtain ⟨t1, e1, h1⟩ := add_spec F h hL (i := i) (d := (c1.value, c2.value)) hi ⟨v1, v2⟩
      simp only at e1
      rw [e1]
      simp only [bind_ok]
      obtain ⟨t2, e2, h2⟩ := ih _ t1 (fun c hc => hv c (by simp [hc])) h1 (by
        intro e he
        rcases List.mem_append.1 he with he | he
        · exact hL e he
        · simp at he; subst he; exact ⟨v1, v2⟩)
      refine ⟨t2, e2, ?_⟩
      rw [digrams_cons2, List.map_cons]
      simpa using h2

/-- The events of the texts numbered from `i`. -/
def events (i : Nat) (texts : List (List Ch)) : List (Nat × (Nat × Nat)) :=
  (texts.zipIdx i).flatMap (fun p => (digrams p.1).map (fun d => (p.2, d)))

theorem countAll_spec {U} (F : UnicodeFacts U) : ∀ (texts : List (List Ch)) (i : Nat) (L : List (Nat × (Nat × Nat))) (t : List Seq),
    (∀ x ∈ texts, Valid x) → i + texts.length ≤ MAX_VOTERS → TI U L t → VL L →
    ∃ t', countAll U i texts t = .ok t' ∧ TI U (L ++ events i texts) t' := by
  intro texts
  induction texts with
  | nil => intro i L t _ _ h _; exact ⟨t, by simp [countAll], by simpa [events] using h⟩
  | cons text texts ih =>
    intro i L t hv hi h hL
    simp only [List.length_cons] at hi
    obtain ⟨t1, e1, h1⟩ := count_spec F (i := i) (by omega) text L t (hv text (by simp)) h hL
    unfold countAll
    rw [e1]
    simp only [bind_ok]
    obtain ⟨t2, e2, h2⟩ := ih (i + 1) _ t1 (fun x hx => hv x (by simp [hx])) (by omega) h1 (by
      intro e he
      rcases List.mem_append.1 he with he | he
      · exact hL e he
      · obtain ⟨d, hd, rfl⟩ := List.mem_map.1 he
        exact digrams_valid (hv text (by simp)) d hd)
    refine ⟨t2, e2, ?_⟩
    simpa [events] using h2

theorem count_events (i : Nat) (d : Nat × Nat) : ∀ (texts : List (List Ch)) (k : Nat),
    (events k texts).count (i, d) = if k ≤ i then (digrams (texts.getD (i - k) [])).count d else 0 := by
  intro texts
  induction texts with
  | nil => intro k; simp [events, digrams]
  | cons text texts ih =>
    intro k
    have hh : events k (text :: texts) = (digrams text).map (fun d => (k, d)) ++ events (k + 1) texts := by simp [events]
    rw [hh, List.count_append, ih]
    by_cases hk : i = k
    · subst hk
      rw [if_neg (by omega), if_pos (Nat.le_refl _)]
      have hinj : ∀ l : List (Nat × Nat), (l.map (fun d => (i, d))).count (i, d) = l.count d := by
        intro l
        induction l with
        | nil => rfl
        | cons a l ih => rw [List.map_cons, List.count_cons, List.count_cons, ih]; simp
      rw [hinj]
      simp
    · have h0 : ((digrams text).map (fun d => (k, d))).count (i, d) = 0 := by
        rw [List.count_eq_zero]
        intro hm
        obtain ⟨_, _, e⟩ := List.mem_map.1 hm
        simp at e; omega
      rw [h0, Nat.zero_add]
      by_cases hki : k ≤ i
      · rw [if_pos (by omega), if_pos hki]
        rw [show i - k = (i - (k + 1)) + 1 by omega]
        simp
      · rw [if_neg (by omega), if_neg hki]

theorem mem_events (d : Nat × Nat) : ∀ (texts : List (List Ch)) (k : Nat),
    (∃ i, (i, d) ∈ events k texts) ↔ d ∈ texts.flatMap digrams := by
  intro texts
  induction texts with
  | nil => intro k; simp [events]
  | cons text texts ih =>
    intro k
    have hh : events k (text :: texts) = (digrams text).map (fun d => (k, d)) ++ events (k + 1) texts := by simp [events]
    rw [hh, List.flatMap_cons, List.mem_append, ← ih (k + 1)]
    simp only [List.mem_append, List.mem_map, Prod.mk.injEq]
    constructor
    · rintro ⟨i, ⟨d', h, _, rfl⟩ | h⟩
      · exact .inl h
      · exact .inr ⟨i, h⟩
    · rintro (h | ⟨i, h⟩)
      · exact ⟨k, .inl ⟨d, h, rfl, rfl⟩⟩
      · exact ⟨i, .inr h⟩

/-! ## Medians -/

theorem sort_counts {l : List Int} (hb : ∀ x ∈ l, 0 ≤ x ∧ x < 2 ^ 31) :
    Sort.sort l.length compare_counts l = .ok (l.insertionSort (· ≤ ·)) := by
  have hn : ∀ x y, x ∈ l → y ∈ l → compare_counts x y = x - y := by
    intro x y hx hy
    have h1 := hb x hx
    have h2 := hb y hy
    exact narrow_eq (by omega) (by omega)
  have hc : Sort.TotalPreorderOn (· ∈ l) compare_counts := by
    refine ⟨?_, ?_⟩
    · intro x y hx hy; rw [hn x y hx hy, hn y x hy hx]; omega
    · intro x y z hx hy hz; rw [hn x y hx hy, hn y z hy hz, hn x z hx hz]; omega
  obtain ⟨l', e, hp, hs⟩ := Sort.c03_sort_sorts compare_counts l hc l.length (Nat.le_refl _)
  rw [e]
  congr 1
  have hs' : l'.Pairwise (fun x y => x ≤ y) := by
    refine List.Pairwise.imp_of_mem ?_ hs
    intro a b ha hb h
    rw [hn a b (hp.mem_iff.1 ha) (hp.mem_iff.1 hb)] at h
    omega
  have hm : (l.insertionSort (· ≤ ·)).Pairwise (fun x y => x ≤ y) := List.pairwise_insertionSort (· ≤ ·) l
  exact List.Perm.eq_of_pairwise (fun a b _ _ h1 h2 => by omega) hs' hm (hp.trans (List.perm_insertionSort (· ≤ ·) l).symm)

/-- `compute_median` as a function. -/
def med (n : Nat) (s : Seq) : Seq :=
  { s with median2 := if s.median2 = 0 then 0 else median2 ((List.range n).map s.count) }

theorem compute_median_eq {n : Nat} (hn : 0 < n) {s : Seq} (hb : ∀ i, i < n → 0 ≤ s.count i ∧ s.count i < 2 ^ 31) :
    compute_median n s = .ok (med n s) := by
  unfold compute_median med
  by_cases h0 : s.median2 = 0
  · rw [if_pos h0, if_pos h0]
    cases s; simp only at h0; subst h0; rfl
  · rw [if_neg h0, if_neg h0]
    have hs := sort_counts (l := (List.range n).map s.count) (by
      intro x hx
      obtain ⟨i, hi, rfl⟩ := List.mem_map.1 hx
      exact hb i (List.mem_range.1 hi))
    rw [List.length_map, List.length_range] at hs
    rw [hs]
    simp only [bind_ok]
    have hlen : (((List.range n).map s.count).insertionSort (· ≤ ·)).length = n := by simp
    unfold median2
    simp only [List.length_map, List.length_range]
    generalize ((List.range n).map s.count).insertionSort (· ≤ ·) = l at hlen
    by_cases hodd : n % 2 = 1
    · rw [if_pos hodd]
      have h1 : n / 2 < l.length := by omega
      have e : rd l (n / 2) = .ok l[n / 2] := by unfold rd; rw [List.getElem?_eq_getElem h1]
      rw [e]
      simp only [bind_ok, pure_eq, show (n - 1) / 2 = n / 2 by omega]
      rw [List.getD_eq_getElem?_getD, List.getElem?_eq_getElem h1]
      simp only [Option.getD_some]
      congr 2; omega
    · rw [if_neg hodd]
      have h1 : n / 2 < l.length := by omega
      have h2 : (n - 1) / 2 < l.length := by omega
      have e : rd l (n / 2) = .ok l[n / 2] := by unfold rd; rw [List.getElem?_eq_getElem h1]
      have e2 : Sync.rdI l (((n / 2 : Nat) : Int) - 1) = .ok l[(n - 1) / 2] := by
        unfold Sync.rdI
        rw [if_neg (by omega), show (((n / 2 : Nat) : Int) - 1).toNat = (n - 1) / 2 by omega]
        unfold rd; rw [List.getElem?_eq_getElem h2]
      rw [e2, e]
      simp only [bind_ok, pure_eq]
      rw [List.getD_eq_getElem?_getD, List.getElem?_eq_getElem h2, List.getD_eq_getElem?_getD, List.getElem?_eq_getElem h1]
      simp only [Option.getD_some]

theorem medianAll_eq {n : Nat} (hn : 0 < n) : ∀ (l : List Seq), (∀ s ∈ l, ∀ i, i < n → 0 ≤ s.count i ∧ s.count i < 2 ^ 31) →
    medianAll n l = .ok (l.map (med n)) := by
  intro l
  induction l with
  | nil => intro _; rfl
  | cons s l ih =>
    intro h
    unfold medianAll
    rw [compute_median_eq hn (h s (by simp)), bind_ok, ih (fun s hs => h s (by simp [hs]))]
    rfl

theorem distance_sum (i : Nat) (array : List Seq) :
    compute_distance i array = (array.map (fun s => ((2 * s.count i - s.median2).natAbs : Int))).sum := by
  have : ∀ (l : List Seq) (d : Int), l.foldl (fun d s => d + absI (2 * s.count i - s.median2)) d =
      d + (l.map (fun s => ((2 * s.count i - s.median2).natAbs : Int))).sum := by
    intro l
    induction l with
    | nil => intro d; simp
    | cons s l ih =>
      intro d
      rw [List.foldl_cons, ih, List.map_cons, List.sum_cons]
      have : absI (2 * s.count i - s.median2) = ((2 * s.count i - s.median2).natAbs : Int) := by
        unfold absI; split <;> omega
      omega
  have := this array 0
  rw [Int.zero_add] at this
  exact this

theorem distances_eq {U} (F : UnicodeFacts U) {texts : List (List Ch)} (hv : ∀ x ∈ texts, Valid x) (hl : ∀ x ∈ texts, x.length < 2 ^ 31)
    (h16 : texts.length ≤ MAX_VOTERS) (hpos : 0 < texts.length) :
    ∃ t array, countAll U 0 texts [] = .ok t ∧ medianAll texts.length (Store.in_array Seq.key t) = .ok array ∧
      ∀ i, compute_distance i array = distance2 texts (texts.getD i []) := by
  obtain ⟨t, e1, ds, hnd, hmem, rfl⟩ := countAll_spec F texts 0 [] [] hv (by omega) ⟨[], by simp, by simp, rfl⟩ (by intro e he; simp at he)
  simp only [List.nil_append] at hmem
  have hcount : ∀ i d, (entry U ([] ++ events 0 texts) d).count i = ((digrams (texts.getD i [])).count d : Int) := by
    intro i d
    unfold entry
    simp only [List.nil_append, count_events, Nat.zero_le, if_true, Nat.sub_zero]
  have hperm := Store.in_array_perm Seq.key (ds.map (entry U ([] ++ events 0 texts)))
  refine ⟨_, _, e1, medianAll_eq hpos _ ?_, ?_⟩
  · intro s hs i hi
    obtain ⟨d, hd, rfl⟩ := List.mem_map.1 (hperm.mem_iff.1 hs)
    rw [hcount]
    have h1 : (digrams (texts.getD i [])).count d ≤ (digrams (texts.getD i [])).length := List.count_le_length
    have h2 : (digrams (texts.getD i [])).length ≤ (texts.getD i []).length := by simp [digrams]
    have h3 : (texts.getD i []).length < 2 ^ 31 := by
      rw [List.getD_eq_getElem?_getD, List.getElem?_eq_getElem hi]
      exact hl _ (List.getElem_mem hi)
    omega
  · intro i
    rw [distance_sum, List.map_map]
    have h1 := ((hperm.map ((fun s : Seq => ((2 * s.count i - s.median2).natAbs : Int)) ∘ med texts.length)).sum_eq)
    rw [h1, List.map_map]
    unfold distance2
    have hp2 : ds.Perm (texts.flatMap digrams).dedup := by
      rw [List.perm_ext_iff_of_nodup hnd (List.nodup_dedup _)]
      intro d
      rw [hmem, mem_events, List.mem_dedup]
    rw [(hp2.map _).sum_eq]
    refine congrArg List.sum (List.map_congr_left ?_)
    intro d hd
    simp only [Function.comp]
    have hm : (med texts.length (entry U ([] ++ events 0 texts) d)).median2 = expected2 texts d := by
      unfold med expected2
      simp only
      by_cases hr : d.1 = 126 ∨ d.2 = 126
      · rw [if_pos hr, if_pos]
        unfold entry; simp only; exact if_pos hr
      · rw [if_neg hr, if_neg]
        · refine congrArg median2 ?_
          apply List.ext_getElem (by simp)
          intro k k1 k2
          simp only [List.getElem_map, List.getElem_range, hcount]
          have hk : k < texts.length := by simpa using k2
          rw [List.getD_eq_getElem?_getD, List.getElem?_eq_getElem hk, Option.getD_some]
        · unfold entry; simp only
          rw [if_neg (show ¬ (d.1 = REJECT_CHARACTER ∨ d.2 = REJECT_CHARACTER) from hr)]
          omega
    have hc : (med texts.length (entry U ([] ++ events 0 texts) d)).count i = ((digrams (texts.getD i [])).count d : Int) := by
      rw [← hcount]; rfl
    rw [hm, hc]

/-! ## The selection -/

theorem compare_preorder : Sort.TotalPreorderOn (fun _ : Voter => True) compare_distances := by
  refine ⟨?_, ?_⟩
  · intro x y _ _
    unfold compare_distances
    split <;> split <;> (try split) <;> (try split) <;> omega
  · intro x y z _ _ _
    unfold compare_distances
    split <;> split <;> split <;> (try split) <;> (try split) <;> (try split) <;> omega

/-- The voters sorted by distance. -/
theorem rank_spec {U} (F : UnicodeFacts U) {texts : List (List Ch)} (hv : ∀ x ∈ texts, Valid x) (hl : ∀ x ∈ texts, x.length < 2 ^ 31)
    (h16 : texts.length ≤ MAX_VOTERS) (hpos : 0 < texts.length) :
    ∃ t array l, countAll U 0 texts [] = .ok t ∧ medianAll texts.length (Store.in_array Seq.key t) = .ok array ∧
      Sort.sort texts.length compare_distances
        (texts.zipIdx.map (fun (p : List Ch × Nat) => (⟨p.2, p.1, compute_distance p.2 array⟩ : Voter))) = .ok l ∧
      (∀ v ∈ l, v.argnum < texts.length ∧ v.text = texts.getD v.argnum [] ∧ v.distance2 = distance2 texts (texts.getD v.argnum [])) ∧
      (l.map Voter.argnum).Perm (List.range texts.length) ∧ (l.map Voter.argnum).Pairwise (Closer texts) := by
  obtain ⟨t, array, e1, e2, hd⟩ := distances_eq F hv hl h16 hpos
  obtain ⟨vs, hvs⟩ : ∃ vs, vs = texts.zipIdx.map (fun (p : List Ch × Nat) => (⟨p.2, p.1, compute_distance p.2 array⟩ : Voter)) := ⟨_, rfl⟩
  have hlen : vs.length = texts.length := by rw [hvs]; simp
  obtain ⟨l, e3, hp, hs⟩ := Sort.c03_sort_sorts compare_distances vs
    ⟨fun x y _ _ => compare_preorder.flip x y trivial trivial, fun x y z _ _ _ => compare_preorder.trans x y z trivial trivial trivial⟩
    texts.length (by omega)
  have hmemv : ∀ v ∈ l, v.argnum < texts.length ∧ v.text = texts.getD v.argnum [] ∧ v.distance2 = distance2 texts (texts.getD v.argnum []) := by
    intro v hvm
    have := hp.mem_iff.1 hvm
    rw [hvs] at this
    obtain ⟨p, hpm, rfl⟩ := List.mem_map.1 this
    obtain ⟨p1, p2⟩ := p
    have := List.mem_zipIdx' hpm
    simp only at this ⊢
    refine ⟨this.1, ?_, ?_⟩
    · rw [List.getD_eq_getElem?_getD, List.getElem?_eq_getElem this.1]; exact this.2
    · rw [hd]
  have hnum : vs.map Voter.argnum = List.range texts.length := by
    rw [hvs, List.map_map]
    apply List.ext_getElem (by simp)
    intro i h1 h2
    simp
  have hperm : (l.map Voter.argnum).Perm (List.range texts.length) := by rw [← hnum]; exact hp.map _
  have hnd : (l.map Voter.argnum).Nodup := hperm.nodup_iff.2 List.nodup_range
  refine ⟨t, array, l, e1, e2, hvs ▸ e3, hmemv, hperm, ?_⟩
  rw [List.pairwise_map]
  have hne : l.Pairwise (fun a b => a.argnum ≠ b.argnum) := List.pairwise_map.1 hnd
  refine List.Pairwise.imp_of_mem ?_ (hs.and hne)
  rintro a b ha' hb' ⟨h1, h2⟩
  unfold Closer
  rw [← (hmemv a ha').2.2, ← (hmemv b hb').2.2]
  unfold compare_distances at h1
  split at h1
  · split at h1
    · left; assumption
    · omega
  · right; omega

theorem select_spec {U} (F : UnicodeFacts U) {texts : List (List Ch)} (hv : ∀ x ∈ texts, Valid x) (hl : ∀ x ∈ texts, x.length < 2 ^ 31)
    (h16 : texts.length ≤ MAX_VOTERS) (hpos : 0 < texts.length) {actual : Nat} (ha : actual ≤ texts.length) :
    ∃ order : List Nat, order.Perm (List.range texts.length) ∧ order.Pairwise (Closer texts) ∧
      select_voters U true actual texts = .ok ((order.take actual).map (fun i => texts.getD i [])) := by
  obtain ⟨t, array, l, e1, e2, e3, hmemv, hperm, hcl⟩ := rank_spec F hv hl h16 hpos
  unfold select_voters
  simp only [if_true]
  rw [e1]
  simp only [bind_ok]
  rw [e2]
  simp only [bind_ok]
  rw [e3]
  simp only [bind_ok]
  refine ⟨l.map Voter.argnum, hperm, hcl, ?_⟩
  have hlen : l.length = texts.length := by have := hperm.length_eq; simpa using this
  rw [if_pos (by omega)]
  simp only [pure_eq]
  refine congrArg Res.ok ?_
  rw [← List.map_take, List.map_map]
  apply List.map_congr_left
  intro v hvm
  exact (hmemv v (List.mem_of_mem_take hvm)).2.1

end Ocr.Vote
