import Verif.Model.FloatVote
import Verif.Proof.Float
import Verif.Proof.VoteSelect

/-!
# The selection of voters in floating point is exact for texts of fewer than 2^23 characters
-/

namespace Ocr.Sort
open Res

variable {α β : Type} {cmp : α → α → Int} {cmp' : β → β → Int} {f : α → β}

/-- Apply a function to the result. -/
def mapRes (f : α → β) (r : Res α) : Res β := r >>= fun x => .ok (f x)

theorem rd_map (a : List α) (i : Nat) : rd (a.map f) i = mapRes f (rd a i) := by
  unfold rd mapRes
  rw [List.getElem?_map]
  cases a[i]? <;> rfl

theorem wr_map (a : List α) (i : Nat) (x : α) : wr (a.map f) i (f x) = mapRes (List.map f) (wr a i x) := by
  unfold wr mapRes
  rw [List.length_map]
  split
  · rw [bind_ok, List.map_set]
  · rfl

section
variable (h : ∀ x y, cmp' (f x) (f y) = cmp x y)
include h

theorem scanJ_map (a : List α) (ref : α) (i : Nat) : ∀ j, scanJ cmp' (a.map f) (f ref) i j = scanJ cmp a ref i j
  | 0 => rfl
  | j + 1 => by
    unfold scanJ
    rw [rd_map, scanJ_map a ref i j]
    unfold mapRes
    split
    · cases rd a (j + 1) with
      | ok x => simp only [bind_ok, h]
      | err | ub | fuel => rfl
    · rfl

theorem scanI_map (a : List α) (ref : α) (j : Nat) : ∀ fuel i, scanI cmp' (a.map f) (f ref) j fuel i = scanI cmp a ref j fuel i := by
  intro fuel
  induction fuel with
  | zero =>
    intro i
    unfold scanI
    rw [rd_map]
    unfold mapRes
    split
    · cases rd a i with
      | ok x => simp only [bind_ok, h]
      | err | ub | fuel => rfl
    · rfl
  | succ fuel ih =>
    intro i
    unfold scanI
    rw [rd_map]
    unfold mapRes
    split
    · cases rd a i with
      | ok x => simp only [bind_ok, h, ih]
      | err | ub | fuel => rfl
    · rfl

theorem partition_map (ref : α) : ∀ (fuel : Nat) (a : List α) (i j : Nat), partition cmp' (f ref) fuel (a.map f) i j =
    mapRes (fun p => (p.1.map f, p.2)) (partition cmp ref fuel a i j) := by
  intro fuel
  induction fuel with
  | zero =>
    intro a i j
    unfold partition
    split <;> rfl
  | succ fuel ih =>
    intro a i j
    rw [partition, partition]
    by_cases hij : i < j
    · rw [if_pos hij, if_pos hij]
      simp only
      rw [scanJ_map h]
      cases scanJ cmp a ref i j with
      | err | ub | fuel => rfl
      | ok j1 =>
        simp only [bind_ok]
        -- the second half, for the array and index after the first
        have half : ∀ (a : List α) (i : Nat), (scanI cmp' (a.map f) (f ref) j1 (a.map f).length i >>= fun i =>
            if i ≠ j1 then rd (a.map f) i >>= fun x => wr (a.map f) j1 x >>= fun a => partition cmp' (f ref) fuel a i (j1 - 1)
            else partition cmp' (f ref) fuel (a.map f) i j1) =
            mapRes (fun p => (p.1.map f, p.2)) (scanI cmp a ref j1 a.length i >>= fun i =>
            if i ≠ j1 then rd a i >>= fun x => wr a j1 x >>= fun a => partition cmp ref fuel a i (j1 - 1)
            else partition cmp ref fuel a i j1) := by
          intro a i
          rw [scanI_map h, List.length_map]
          cases scanI cmp a ref j1 a.length i with
          | err | ub | fuel => rfl
          | ok i1 =>
            simp only [bind_ok]
            by_cases hne : i1 ≠ j1
            · rw [if_pos hne, if_pos hne, rd_map]
              unfold mapRes
              cases rd a i1 with
              | err | ub | fuel => rfl
              | ok x =>
                simp only [bind_ok]
                rw [wr_map]
                unfold mapRes
                cases wr a j1 x with
                | err | ub | fuel => rfl
                | ok a2 =>
                  simp only [bind_ok]
                  exact ih a2 i1 (j1 - 1)
            · rw [if_neg hne, if_neg hne]
              exact ih a i1 j1
        by_cases hne : i ≠ j1
        · rw [if_pos hne, if_pos hne, rd_map]
          unfold mapRes
          cases rd a j1 with
          | err | ub | fuel => rfl
          | ok x =>
            simp only [bind_ok]
            rw [wr_map]
            unfold mapRes
            cases wr a i x with
            | err | ub | fuel => rfl
            | ok a2 =>
              simp only [bind_ok, pure_eq]
              exact half a2 (i + 1)
        · rw [if_neg hne, if_neg hne]
          simp only [pure_eq, bind_ok]
          exact half a i
    · rw [if_neg hij, if_neg hij]; rfl

theorem quicksort_map : ∀ (fuel : Nat) (a : List α) (l r : Nat), quicksort cmp' fuel (a.map f) l r =
    mapRes (List.map f) (quicksort cmp fuel a l r) := by
  intro fuel
  induction fuel with
  | zero => intro a l r; rfl
  | succ fuel ih =>
    intro a l r
    rw [quicksort, quicksort, rd_map]
    unfold mapRes
    cases rd a l with
    | err | ub | fuel => rfl
    | ok ref =>
      simp only [bind_ok]
      rw [partition_map h, List.length_map]
      unfold mapRes
      cases partition cmp ref a.length a l r with
      | err | ub | fuel => rfl
      | ok p =>
        obtain ⟨a1, i, j⟩ := p
        simp only [bind_ok]
        rw [wr_map]
        unfold mapRes
        cases wr a1 j ref with
        | err | ub | fuel => rfl
        | ok a2 =>
          simp only [bind_ok]
          have last : ∀ a3 : List α, (if i + 1 < r then quicksort cmp' fuel (a3.map f) (i + 1) r else pure (a3.map f)) =
              ((if i + 1 < r then quicksort cmp fuel a3 (i + 1) r else pure a3) >>= fun x => .ok (x.map f)) := by
            intro a3
            split
            · exact ih a3 _ _
            · rfl
          by_cases hl : (l : Int) < (j : Int) - 1
          · rw [if_pos hl, if_pos hl, ih]
            unfold mapRes
            cases quicksort cmp fuel a2 l (j - 1) with
            | err | ub | fuel => rfl
            | ok a3 => simp only [bind_ok]; exact last a3
          · rw [if_neg hl, if_neg hl]
            simp only [pure_eq, bind_ok]
            exact last a2

/-- Sorting the images of the elements. -/
theorem sort_map (fuel : Nat) (a : List α) : sort fuel cmp' (a.map f) = mapRes (List.map f) (sort fuel cmp a) := by
  unfold sort
  rw [List.length_map]
  split
  · rfl
  · exact quicksort_map h _ _ _ _

end

end Ocr.Sort

namespace Ocr.Vote
open Text Res Fp

theorem rnd_half {p : Nat} {n : ℤ} (h : |n| < 2 ^ p) : rnd p ((n : ℚ) / 2) = n / 2 :=
  rnd_exact n (-1) (by rw [zpow_neg_one]; ring) h

/-- The sequence with its median as a number. -/
def seqF (s : Seq) : SeqF := ⟨s.count, (s.median2 : ℚ) / 2⟩

def voterF (v : Voter) : VoterF := ⟨v.argnum, v.text, (v.distance2 : ℚ) / 2⟩

theorem compare_voterF (x y : Voter) : compare_distancesF (voterF x) (voterF y) = compare_distances x y := by
  unfold compare_distancesF compare_distances voterF
  simp only
  have h1 : ((x.distance2 : ℚ) / 2 = y.distance2 / 2) ↔ x.distance2 = y.distance2 := by
    constructor
    · intro h; have : (x.distance2 : ℚ) = y.distance2 := by linarith
      exact_mod_cast this
    · intro h; rw [h]
  have h2 : ((x.distance2 : ℚ) / 2 < y.distance2 / 2) ↔ x.distance2 < y.distance2 := by
    constructor
    · intro h; have : (x.distance2 : ℚ) < y.distance2 := by linarith
      exact_mod_cast this
    · intro h; have : (x.distance2 : ℚ) < y.distance2 := by exact_mod_cast h
      linarith
  simp only [ne_eq, h1, h2]

theorem rd_mem {α : Type} {l : List α} {i : Nat} {x : α} (h : rd l i = .ok x) : x ∈ l := by
  unfold rd at h
  cases e : l[i]? with
  | none => rw [e] at h; cases h
  | some y => rw [e] at h; cases h; exact List.mem_of_getElem? e

/-- The bound on the counts: below it, `float` is exact for halves of sums of two counts. -/
def Small (n : Nat) (s : Seq) : Prop := ∀ i, i < n → 0 ≤ s.count i ∧ s.count i < 2 ^ 23

theorem compute_medianF_eq {n : Nat} {s : Seq} (hb : Small n s) : compute_medianF n s = Sort.mapRes seqF (compute_median n s) := by
  unfold compute_medianF compute_median Sort.mapRes
  by_cases h0 : s.median2 = 0
  · rw [if_pos h0, if_pos h0]
    simp [seqF, h0]
  · rw [if_neg h0, if_neg h0]
    have hs := sort_counts (l := (List.range n).map s.count) (by
      intro x hx
      obtain ⟨i, hi, rfl⟩ := List.mem_map.1 hx
      have := hb i (List.mem_range.1 hi)
      omega)
    rw [List.length_map, List.length_range] at hs
    rw [hs]
    simp only [bind_ok]
    have hm : ∀ x ∈ ((List.range n).map s.count).insertionSort (· ≤ ·), 0 ≤ x ∧ x < 2 ^ 23 := by
      intro x hx
      obtain ⟨i, hi, rfl⟩ := List.mem_map.1 ((List.perm_insertionSort (· ≤ ·) _).mem_iff.1 hx)
      exact hb i (List.mem_range.1 hi)
    generalize ((List.range n).map s.count).insertionSort (· ≤ ·) = l at hm
    split
    · cases e : rd l (n / 2) with
      | err | ub | fuel => rfl
      | ok c =>
        simp only [bind_ok, pure_eq]
        have := hm c (rd_mem e)
        rw [ofLong_exact (by rw [abs_of_nonneg this.1]; omega), rnd_int (by rw [abs_of_nonneg this.1]; omega)]
        unfold seqF
        simp
    · cases e1 : Sync.rdI l ((n / 2 : Nat) - 1) with
      | err | ub | fuel => rfl
      | ok c1 =>
        cases e2 : rd l (n / 2) with
        | err | ub | fuel => rfl
        | ok c2 =>
          simp only [bind_ok, pure_eq]
          have h2 := hm c2 (rd_mem e2)
          have h1 : 0 ≤ c1 ∧ c1 < 2 ^ 23 := by
            unfold Sync.rdI at e1
            split at e1
            · cases e1
            · exact hm c1 (rd_mem e1)
          have ha : |c1 + c2| < 2 ^ 24 := by rw [abs_of_nonneg (by omega)]; omega
          rw [ofLong_exact (lt_trans ha (by norm_num)), rnd_half (lt_trans ha (by norm_num)), rnd_half ha]
          rfl

theorem medianAllF_eq {n : Nat} : ∀ (l : List Seq), (∀ s ∈ l, Small n s) → medianAllF n l = Sort.mapRes (List.map seqF) (medianAll n l)
  | [], _ => rfl
  | s :: l, h => by
    unfold medianAllF medianAll
    rw [compute_medianF_eq (h s (by simp)), medianAllF_eq l (fun s hs => h s (by simp [hs]))]
    unfold Sort.mapRes
    cases compute_median n s with
    | err | ub | fuel => rfl
    | ok s' =>
      simp only [bind_ok]
      cases medianAll n l <;> rfl

theorem differenceF_eq {i : Nat} {s : Seq} (h1 : 0 ≤ s.count i ∧ s.count i < 2 ^ 23) (h2 : 0 ≤ s.median2 ∧ s.median2 < 2 ^ 24) :
    differenceF i (seqF s) = (absI (2 * s.count i - s.median2) : ℚ) / 2 := by
  have h3 : |2 * s.count i - s.median2| < 2 ^ 24 := by rw [abs_lt]; constructor <;> omega
  have e : rnd 24 (rnd 24 (toLong (s.count i) : ℚ) - (s.median2 : ℚ) / 2) = ((2 * s.count i - s.median2 : ℤ) : ℚ) / 2 := by
    rw [toLong_id (by rw [abs_of_nonneg h1.1]; omega), rnd_int (by rw [abs_of_nonneg h1.1]; omega), ← rnd_half h3]
    congr 1; push_cast; ring
  unfold differenceF seqF
  simp only [e]
  unfold absI
  by_cases hn : 2 * s.count i - s.median2 < 0
  · have : ((2 * s.count i - s.median2 : ℤ) : ℚ) < 0 := by exact_mod_cast hn
    rw [if_pos (by linarith), if_pos hn]
    push_cast; ring
  · have : (0 : ℚ) ≤ ((2 * s.count i - s.median2 : ℤ) : ℚ) := by exact_mod_cast not_lt.1 hn
    rw [if_neg (by linarith), if_neg hn]

theorem compute_distanceF_eq {i : Nat} (array : List Seq) (hl : array.length < 2 ^ 28)
    (h : ∀ s ∈ array, (0 ≤ s.count i ∧ s.count i < 2 ^ 23) ∧ 0 ≤ s.median2 ∧ s.median2 < 2 ^ 24) :
    compute_distanceF i (array.map seqF) = (compute_distance i array : ℚ) / 2 := by
  have main : ∀ (l : List Seq) (d : ℤ), (∀ s ∈ l, (0 ≤ s.count i ∧ s.count i < 2 ^ 23) ∧ 0 ≤ s.median2 ∧ s.median2 < 2 ^ 24) →
      0 ≤ d → d + 2 ^ 24 * l.length < 2 ^ 53 →
      (l.map seqF).foldl (fun d s => rnd 53 (d + differenceF i s)) ((d : ℚ) / 2) =
        ((l.foldl (fun d s => d + absI (2 * s.count i - s.median2)) d : ℤ) : ℚ) / 2 := by
    intro l
    induction l with
    | nil => intro d _ _ _; rfl
    | cons s l ih =>
      intro d hm h0 hd
      rw [List.map_cons, List.foldl_cons, List.foldl_cons]
      obtain ⟨h1, h2⟩ := hm s (by simp)
      rw [List.length_cons] at hd
      have ha : 0 ≤ absI (2 * s.count i - s.median2) ∧ absI (2 * s.count i - s.median2) ≤ 2 ^ 24 := by
        unfold absI; split <;> constructor <;> omega
      rw [differenceF_eq h1 h2, ← add_div, ← Int.cast_add, rnd_half (by rw [abs_of_nonneg (by omega)]; omega)]
      exact ih _ (fun s hs => hm s (by simp [hs])) (by omega) (by omega)
  have := main array 0 h (by omega) (by omega)
  simpa [compute_distanceF, compute_distance] using this

theorem events_length {m : Nat} : ∀ (texts : List (List Ch)) (k : Nat), (∀ x ∈ texts, x.length < m) →
    (events k texts).length ≤ texts.length * m
  | [], _, _ => by simp [events]
  | x :: texts, k, h => by
    have ih := events_length texts (k + 1) (fun y hy => h y (by simp [hy]))
    have h1 := h x (by simp)
    have h2 : (digrams x).length ≤ x.length := by simp [digrams]
    have e : (events k (x :: texts)).length = (digrams x).length + (events (k + 1) texts).length := by simp [events]
    rw [e, List.length_cons, Nat.succ_mul]
    omega

/-- What is counted in texts of fewer than 2^23 characters. -/
theorem small_counts {U} (F : UnicodeFacts U) {texts : List (List Ch)} (hv : ∀ x ∈ texts, Valid x) (hl : ∀ x ∈ texts, x.length < 2 ^ 23)
    (h16 : texts.length ≤ MAX_VOTERS) :
    ∃ t, countAll U 0 texts [] = .ok t ∧ (∀ s ∈ Store.in_array Seq.key t, Small texts.length s) ∧
      (Store.in_array Seq.key t).length < 2 ^ 28 := by
  obtain ⟨t, e1, ds, hnd, hmem, rfl⟩ := countAll_spec F texts 0 [] [] hv (by omega) ⟨[], by simp, by simp, rfl⟩ (by intro e he; simp at he)
  simp only [List.nil_append] at hmem
  have hperm := Store.in_array_perm Seq.key (ds.map (entry U ([] ++ events 0 texts)))
  refine ⟨_, e1, ?_, ?_⟩
  · intro s hs i hi
    obtain ⟨d, hd, rfl⟩ := List.mem_map.1 (hperm.mem_iff.1 hs)
    have hcount : (entry U ([] ++ events 0 texts) d).count i = ((digrams (texts.getD i [])).count d : Int) := by
      unfold entry
      simp only [List.nil_append, count_events, Nat.zero_le, if_true, Nat.sub_zero]
    rw [hcount]
    have h1 : (digrams (texts.getD i [])).count d ≤ (digrams (texts.getD i [])).length := List.count_le_length
    have h2 : (digrams (texts.getD i [])).length ≤ (texts.getD i []).length := by simp [digrams]
    have h3 : (texts.getD i []).length < 2 ^ 23 := by
      rw [List.getD_eq_getElem?_getD, List.getElem?_eq_getElem hi]
      exact hl _ (List.getElem_mem hi)
    omega
  · rw [hperm.length_eq, List.length_map]
    have h1 : ds.length ≤ ((events 0 texts).map Prod.snd).length := by
      apply (List.subperm_of_subset hnd _).length_le
      intro d hd
      obtain ⟨i, hi⟩ := (hmem d).1 hd
      exact List.mem_map.2 ⟨_, hi, rfl⟩
    rw [List.length_map] at h1
    have h2 := events_length texts 0 hl
    unfold MAX_VOTERS at h16
    omega

theorem med_bound {n : Nat} (hn : 0 < n) {s : Seq} (hb : Small n s) : 0 ≤ (med n s).median2 ∧ (med n s).median2 < 2 ^ 24 := by
  unfold med
  simp only
  split
  · omega
  · have hm : ∀ x ∈ ((List.range n).map s.count).insertionSort (· ≤ ·), 0 ≤ x ∧ x < 2 ^ 23 := by
      intro x hx
      obtain ⟨i, hi, rfl⟩ := List.mem_map.1 ((List.perm_insertionSort (· ≤ ·) _).mem_iff.1 hx)
      exact hb i (List.mem_range.1 hi)
    have hlen : (((List.range n).map s.count).insertionSort (· ≤ ·)).length = n := by simp
    unfold median2
    simp only [List.length_map, List.length_range]
    generalize ((List.range n).map s.count).insertionSort (· ≤ ·) = l at hm hlen
    have g : ∀ k, k < n → 0 ≤ l.getD k 0 ∧ l.getD k 0 < 2 ^ 23 := by
      intro k hk
      rw [List.getD_eq_getElem?_getD, List.getElem?_eq_getElem (by omega)]
      exact hm _ (List.getElem_mem _)
    have g1 := g ((n - 1) / 2) (by omega)
    have g2 := g (n / 2) (by omega)
    omega

theorem fmt_half (d : ℤ) (h : 0 ≤ d) : fmtFixed 11 1 ((d : ℚ) / 2) = fmtHalf d := by
  have hq : (0 : ℚ) ≤ (d : ℚ) / 2 := by have : (0 : ℚ) ≤ d := by exact_mod_cast h
                                        linarith
  obtain ⟨n, rfl⟩ := Int.eq_ofNat_of_zero_le h
  have e : nearest (|((n : ℤ) : ℚ) / 2| * 10 ^ 1) = ((5 * n : ℕ) : ℤ) := by
    rw [abs_of_nonneg hq, ← nearest_int ((5 * n : ℕ) : ℤ)]
    congr 1; push_cast; ring
  unfold fmtFixed fmtHalf
  simp only [e, if_neg (not_lt.2 hq), Int.toNat_natCast, List.nil_append]
  have e1 : 5 * n / 10 ^ 1 = n / 2 := by omega
  have e2 : fmtInt ((n : ℤ) / 2) = decDigits (n / 2) := by
    rw [show ((n : ℤ) / 2) = ((n / 2 : ℕ) : ℤ) by omega]
    unfold fmtInt
    rw [if_neg (by omega), Int.natAbs_natCast]
  rw [e1, e2]
  rcases Nat.mod_two_eq_zero_or_one n with h2 | h2
  · rw [show 5 * n % 10 ^ 1 = 0 by omega, if_pos (by omega)]
    have : (46 :: (List.replicate (1 - (decDigits 0).length) 48 ++ decDigits 0) : List Nat) = ascii ".0" := by decide +kernel
    simp only [List.append_assoc, List.cons_append, List.nil_append, this]
  · rw [show 5 * n % 10 ^ 1 = 5 by omega, if_neg (by omega)]
    have : (46 :: (List.replicate (1 - (decDigits 5).length) 48 ++ decDigits 5) : List Nat) = ascii ".5" := by decide +kernel
    simp only [List.append_assoc, List.cons_append, List.nil_append, this]

theorem rankLinesF_eq (names : List (List Nat)) : ∀ (l : List Voter), (∀ v ∈ l, 0 ≤ v.distance2) →
    rankLinesF names (l.map voterF) = rankLines names l
  | [], _ => rfl
  | v :: l, h => by
    rw [List.map_cons, rankLinesF, rankLines, rankLinesF_eq names l (fun v hv => h v (by simp [hv]))]
    have : fmtFixed 11 1 (voterF v).distance = fmtHalf v.distance2 := fmt_half _ (h v (by simp))
    rw [this]
    rfl

/-- The selection. -/
theorem selectF_eq {U} (F : UnicodeFacts U) (debug optimize : Bool) (actual : Nat) (names : List (List Nat)) {texts : List (List Ch)}
    (hv : ∀ x ∈ texts, Valid x) (hl : ∀ x ∈ texts, x.length < 2 ^ 23) (h16 : texts.length ≤ MAX_VOTERS) (hpos : 0 < texts.length) :
    select_votersF U debug optimize actual names texts = select_votersD U debug optimize actual names texts := by
  have fin : ∀ (v : List Voter) (out : List Nat),
      (if actual ≤ (v.map voterF).length then pure (((v.map voterF).take actual).map VoterF.text, out) else .ub : Res (List (List Ch) × List Nat)) =
      (if actual ≤ v.length then pure ((v.take actual).map Voter.text, out) else .ub) := by
    intro v out
    rw [List.length_map, ← List.map_take, List.map_map]
    rfl
  unfold select_votersF select_votersD
  cases optimize with
  | false =>
    simp only [Bool.false_eq_true, if_false, pure_eq, bind_ok]
    have := fin (texts.zipIdx.map (fun (p : List Ch × Nat) => (⟨p.2, p.1, 0⟩ : Voter))) []
    rw [List.map_map, show (voterF ∘ fun (p : List Ch × Nat) => (⟨p.2, p.1, 0⟩ : Voter)) =
      (fun (p : List Ch × Nat) => (⟨p.2, p.1, 0⟩ : VoterF)) by funext p; simp [voterF]] at this
    exact this
  | true =>
    obtain ⟨t, e1, hs, hlen⟩ := small_counts F hv hl h16
    have em := medianAll_eq hpos (Store.in_array Seq.key t) (fun s hx i hi => by have := hs s hx i hi; omega)
    have emF := medianAllF_eq (n := texts.length) (Store.in_array Seq.key t) hs
    rw [em] at emF
    simp only [if_true, e1, bind_ok]
    rw [em, emF]
    unfold Sort.mapRes
    simp only [bind_ok]
    have hdist : ∀ i, i < texts.length → compute_distanceF i (((Store.in_array Seq.key t).map (med texts.length)).map seqF) =
        (compute_distance i ((Store.in_array Seq.key t).map (med texts.length)) : ℚ) / 2 := by
      intro i hi
      apply compute_distanceF_eq _ (by rw [List.length_map]; exact hlen)
      intro s hx
      obtain ⟨s', hs', rfl⟩ := List.mem_map.1 hx
      exact ⟨hs s' hs' i hi, med_bound hpos (hs s' hs')⟩
    generalize (Store.in_array Seq.key t).map (med texts.length) = array at hdist
    have hvs : texts.zipIdx.map (fun (p : List Ch × Nat) => (⟨p.2, p.1, compute_distanceF p.2 (array.map seqF)⟩ : VoterF)) =
        (texts.zipIdx.map (fun (p : List Ch × Nat) => (⟨p.2, p.1, compute_distance p.2 array⟩ : Voter))).map voterF := by
      rw [List.map_map]
      apply List.map_congr_left
      intro p hp
      have := List.mem_zipIdx' hp
      simp only [Function.comp, voterF]
      rw [hdist p.2 this.1]
    rw [hvs, Sort.sort_map compare_voterF]
    obtain ⟨vs, hvs⟩ : ∃ vs, vs = texts.zipIdx.map (fun (p : List Ch × Nat) => (⟨p.2, p.1, compute_distance p.2 array⟩ : Voter)) := ⟨_, rfl⟩
    rw [← hvs]
    obtain ⟨l, e3, hp⟩ := Sort.c03_sort_permutes compare_distances vs texts.length (by rw [hvs]; simp)
    rw [e3]
    unfold Sort.mapRes
    simp only [bind_ok]
    have hnn : ∀ v ∈ l, 0 ≤ v.distance2 := by
      intro v hv
      have := hp.mem_iff.1 hv
      rw [hvs] at this
      obtain ⟨p, _, rfl⟩ := List.mem_map.1 this
      simp only
      rw [distance_sum]
      apply List.sum_nonneg
      intro x hx
      obtain ⟨s, _, rfl⟩ := List.mem_map.1 hx
      omega
    cases debug with
    | false =>
      simp only [Bool.false_eq_true, if_false, pure_eq, bind_ok]
      exact fin l []
    | true =>
      simp only [if_true]
      rw [rankLinesF_eq names l hnn]
      cases rankLines names l with
      | err | ub | fuel => rfl
      | ok out =>
        simp only [bind_ok, pure_eq]
        exact fin l out

end Ocr.Vote
