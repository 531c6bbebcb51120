import Verif.Proof.FloatCi
import Verif.Spec.FloatCi
import Verif.Props.FloatDist

/-!
# C85: confidence intervals, computed in floating point
-/

namespace Ocr.Ci
open Text Res Fp

theorem sqrtF_nonneg (x : ℚ) : 0 ≤ Fp.sqrt x := by
  unfold Fp.sqrt
  split
  · exact le_refl _
  · simp only
    exact mul_nonneg (by positivity) (zpow_pos (by norm_num) _).le

theorem clampQ {x y : ℚ} (h : x ≤ y) : 0 ≤ max 0 (min 100 x) ∧ max 0 (min 100 x) ≤ max 0 (min 100 y) ∧ max 0 (min 100 y) ≤ 100 :=
  ⟨le_max_left _ _, max_le_max (le_refl _) (min_le_min (le_refl _) h), max_le (by norm_num) (min_le_left _ _)⟩

/-- C85 (range).  Whenever `compute_ci` succeeds, `0 <= lower <= upper <= 100`, in spite of rounding. -/
theorem c85_range (l : Obslist) (lower upper : ℚ) (h : compute_ciF l = .ok (lower, upper)) : 0 ≤ lower ∧ lower ≤ upper ∧ upper ≤ 100 := by
  unfold compute_ciF at h
  split at h
  · cases h
  · obtain ⟨t, _, h⟩ := bind_eq_ok.1 h
    obtain ⟨ts, _, h⟩ := bind_eq_ok.1 h
    obtain ⟨q1, _, h⟩ := bind_eq_ok.1 h
    obtain ⟨q2, _, h⟩ := bind_eq_ok.1 h
    obtain ⟨q3, _, h⟩ := bind_eq_ok.1 h
    have h := Prod.mk.inj (Res.ok.inj h)
    rw [← h.1, ← h.2]
    have hw : 0 ≤ Fp.rnd 53 (Fp.rnd 53 1.96 * Fp.sqrt q3) :=
      Fp.rnd_nonneg (mul_nonneg (Fp.rnd_nonneg (by norm_num)) (sqrtF_nonneg _))
    exact clampQ (Fp.rnd_mono (by norm_num) (by linarith))

/-! ## Outcomes -/

theorem thetasF_spec (total : Obs) : ∀ (items : List Obs), (∀ o ∈ items, total.count - o.count ≠ 0) →
    thetasF total items = .ok (items.map (fun o => Fp.percent (total.count - o.count - (total.missed - o.missed)) (total.count - o.count))) := by
  intro items
  induction items with
  | nil => intro _; rfl
  | cons o items ih =>
    intro h
    rw [thetasF, ih (fun x hx => h x (by simp [hx]))]
    unfold accuracyF
    rw [if_neg (h o (by simp)), bind_ok, bind_ok]
    rfl

theorem thetasF_ub (total : Obs) : ∀ (items : List Obs), (∃ o ∈ items, total.count - o.count = 0) → thetasF total items = .ub := by
  intro items
  induction items with
  | nil => rintro ⟨o, h, _⟩; simp at h
  | cons o items ih =>
    rintro ⟨x, hx, e⟩
    rw [thetasF]
    unfold accuracyF
    by_cases ho : total.count - o.count = 0
    · rw [if_pos ho]; rfl
    · rw [if_neg ho, bind_ok, ih ⟨x, by
        rcases List.mem_cons.1 hx with rfl | hx
        · exact absurd e ho
        · exact hx, e⟩]
      rfl

theorem thetas_ub (total : Obs) : ∀ (items : List Obs), (∃ o ∈ items, total.count - o.count = 0) → thetas total items = .ub := by
  intro items
  induction items with
  | nil => rintro ⟨o, h, _⟩; simp at h
  | cons o items ih =>
    rintro ⟨x, hx, e⟩
    rw [thetas]
    unfold accuracy fdiv
    by_cases ho : total.count - o.count = 0
    · rw [if_pos (by exact_mod_cast ho)]; rfl
    · rw [if_neg (by exact_mod_cast ho), bind_ok, ih ⟨x, by
        rcases List.mem_cons.1 hx with rfl | hx
        · exact absurd e ho
        · exact hx, e⟩]
      rfl

theorem valid_le : ∀ (items : List Obs) (n : Nat), items.foldl (fun n obs => if obs.count > 0 then n + 1 else n) n ≤ n + items.length
  | [], n => by simp
  | o :: items, n => by
    rw [List.foldl_cons, List.length_cons]
    refine le_trans (valid_le items _) ?_
    split <;> omega

theorem valid_two {l : Obslist} (h : ¬ valid_obslist l = false) : 2 ≤ l.items.length := by
  unfold valid_obslist at h
  simp only [decide_eq_false_iff_not, not_not] at h
  have := valid_le l.items 0
  omega

theorem fdivF_ok {a b : ℚ} (h : b ≠ 0) : fdivF a b = .ok (Fp.rnd 53 (a / b)) := by unfold fdivF; rw [if_neg h]

/-- All that `compute_ci` computes. -/
theorem compute_ciF_ok {l : Obslist} (hv : ¬ valid_obslist l = false) (hlen : l.items.length < 2 ^ 53) (ht : l.total.count ≠ 0)
    (hz : ∀ o ∈ l.items, l.total.count - o.count ≠ 0) :
    ∃ (t' : ℚ) (ts' : List ℚ) (nt' J' w' : ℚ), t' = Fp.percent (l.total.count - l.total.missed) l.total.count ∧
      ts' = l.items.map (fun o => Fp.percent (l.total.count - o.count - (l.total.missed - o.missed)) (l.total.count - o.count)) ∧
      nt' = Fp.rnd 53 ((l.items.length : ℚ) * t') ∧
      J' = Fp.rnd 53 (nt' - Fp.rnd 53 (Fp.rnd 53 (((l.items.length - 1 : ℕ) : ℚ) * ts'.foldl (fun s t => Fp.rnd 53 (s + t)) 0) / (l.items.length : ℚ))) ∧
      w' = Fp.rnd 53 (Fp.rnd 53 1.96 * Fp.sqrt (Fp.rnd 53 (Fp.rnd 53 (
        (ts'.map (fun x => Fp.rnd 53 (nt' - Fp.rnd 53 (((l.items.length - 1 : ℕ) : ℚ) * x)))).foldl
          (fun s j => Fp.rnd 53 (s + Fp.rnd 53 (Fp.rnd 53 (j - J') * Fp.rnd 53 (j - J')))) 0 / ((l.items.length - 1 : ℕ) : ℚ)) / (l.items.length : ℚ)))) ∧
      compute_ciF l = .ok (max 0 (min 100 (Fp.rnd 53 (J' - w'))), max 0 (min 100 (Fp.rnd 53 (J' + w')))) := by
  have h2 := valid_two hv
  refine ⟨_, _, _, _, _, rfl, rfl, rfl, rfl, rfl, ?_⟩
  unfold compute_ciF
  rw [if_neg hv]
  simp only
  unfold accuracyF
  rw [if_neg ht, bind_ok, thetasF_spec _ _ hz, bind_ok]
  have e1 : ofLong (l.items.length : Int) = (l.items.length : ℚ) := by
    rw [ofLong_exact (by rw [abs_of_nonneg (by omega)]; exact_mod_cast hlen)]
    push_cast
    rfl
  have e2 : ofLong ((l.items.length : Int) - 1) = ((l.items.length - 1 : ℕ) : ℚ) := by
    rw [show (l.items.length : Int) - 1 = ((l.items.length - 1 : ℕ) : Int) by omega, ofLong_exact (by rw [abs_of_nonneg (by omega)]; omega)]
    push_cast
    rfl
  have n1 : (l.items.length : ℚ) ≠ 0 := by
    have : l.items.length ≠ 0 := by omega
    exact_mod_cast this
  have n2 : ((l.items.length - 1 : ℕ) : ℚ) ≠ 0 := by
    have : l.items.length - 1 ≠ 0 := by omega
    exact_mod_cast this
  rw [e1, e2, fdivF_ok n1, bind_ok, fdivF_ok n2, bind_ok, fdivF_ok n1, bind_ok]
  rfl

theorem compute_ci_ok {l : Obslist} (hv : ¬ valid_obslist l = false) (ht : l.total.count ≠ 0)
    (hz : ∀ o ∈ l.items, l.total.count - o.count ≠ 0) : ∃ r, compute_ci l = .ok r := by
  have h2 := valid_two hv
  have hn : (2 : ℝ) ≤ (l.items.length : ℝ) := by exact_mod_cast h2
  unfold compute_ci
  rw [if_neg hv]
  simp only
  unfold accuracy
  rw [fdiv_ok (by exact_mod_cast ht), bind_ok, thetas_spec _ _ hz, bind_ok, fdiv_ok (by intro e; linarith), bind_ok, fdiv_ok (by intro e; linarith), bind_ok,
    fdiv_ok (by intro e; linarith), bind_ok]
  exact ⟨_, rfl⟩

/-- The three ways in which both computations end. -/
theorem both (l : Obslist) (hlen : l.items.length < 2 ^ 53) :
    (compute_ciF l = .err "not enough observations" ∧ compute_ci l = .err "not enough observations") ∨
    (compute_ciF l = .ub ∧ compute_ci l = .ub) ∨ ((∃ r, compute_ciF l = .ok r) ∧ ∃ r, compute_ci l = .ok r) := by
  by_cases hv : valid_obslist l = false
  · left
    unfold compute_ciF compute_ci
    rw [if_pos hv, if_pos hv]
    exact ⟨rfl, rfl⟩
  right
  by_cases ht : l.total.count = 0
  · left
    unfold compute_ciF compute_ci
    rw [if_neg hv, if_neg hv]
    unfold accuracyF accuracy fdiv
    rw [if_pos ht, if_pos (by exact_mod_cast ht)]
    exact ⟨rfl, rfl⟩
  by_cases hz : ∃ o ∈ l.items, l.total.count - o.count = 0
  · left
    unfold compute_ciF compute_ci
    rw [if_neg hv, if_neg hv]
    simp only
    unfold accuracyF accuracy
    rw [if_neg ht, fdiv_ok (by exact_mod_cast ht), bind_ok, bind_ok, thetas_ub _ _ hz, thetasF_ub _ _ hz]
    exact ⟨rfl, rfl⟩
  right
  have hz' : ∀ o ∈ l.items, l.total.count - o.count ≠ 0 := fun o ho e => hz ⟨o, ho, e⟩
  obtain ⟨_, _, _, _, _, _, _, _, _, _, e⟩ := compute_ciF_ok hv hlen ht hz'
  exact ⟨⟨_, e⟩, compute_ci_ok hv ht hz'⟩

/-- C85 (outcomes).  Rounding does not affect whether the interval is computed, there is a message, or something is divided by zero. -/
theorem c85_outcome (l : Obslist) (hlen : l.items.length < 2 ^ 53) :
    ((∃ r, compute_ciF l = .ok r) ↔ ∃ r, compute_ci l = .ok r) ∧ (∀ msg, compute_ciF l = .err msg ↔ compute_ci l = .err msg) ∧
    (compute_ciF l = .ub ↔ compute_ci l = .ub) := by
  rcases both l hlen with ⟨a, b⟩ | ⟨a, b⟩ | ⟨⟨r, a⟩, s, b⟩ <;> rw [a, b] <;> simp

/-! ## Errors -/

theorem accuracy_within {T : ℕ} (hT : 100 ≤ T) {c m : Int} (h : 100 * |c - m| ≤ T * c) (hc : 0 < c) (hs : T * c ≤ 2 ^ 52) :
    Within (T * u) T (Fp.percent (c - m) c) (100 * ((c - m : Int) : ℝ) / (c : ℝ)) ∧ |100 * ((c - m : Int) : ℝ) / (c : ℝ)| ≤ T := by
  have hT53 : T < 2 ^ 53 := by
    have : (T : Int) * 1 ≤ T * c := mul_le_mul_of_nonneg_left (by omega) (by omega)
    omega
  have hc' : c < 2 ^ 53 := by
    have : 100 * c ≤ T * c := mul_le_mul_of_nonneg_right (by exact_mod_cast hT) hc.le
    omega
  have hp : (0 : ℝ) < c := by exact_mod_cast hc
  have hb : |100 * ((c - m : Int) : ℝ) / (c : ℝ)| ≤ T := by
    rw [abs_div, abs_of_pos hp, div_le_iff₀ hp, abs_mul, abs_of_nonneg (by norm_num : (0 : ℝ) ≤ 100)]
    exact_mod_cast h
  refine ⟨?_, hb⟩
  rw [percent_eq (by norm_num; omega) (by rw [abs_of_pos hc]; exact hc')]
  have e : ((100 * ((c - m : Int) : ℚ) / (c : ℚ) : ℚ) : ℝ) = 100 * ((c - m : Int) : ℝ) / (c : ℝ) := by push_cast; rfl
  have h0 : Within 0 (T : ℕ) (100 * ((c - m : Int) : ℚ) / (c : ℚ)) (100 * ((c - m : Int) : ℝ) / (c : ℝ)) := by
    unfold Within
    rw [e, sub_self, abs_zero]
    exact ⟨le_refl _, hb⟩
  exact (h0.rnd hT53).mono (by rw [zero_add]) (le_refl _)

theorem tame_sum {T : ℕ} : ∀ obs : List (Int × Int), (∀ o ∈ obs, 100 * |o.1 - o.2| ≤ T * o.1) →
    100 * |(obs.map (fun o => o.1)).sum - (obs.map (fun o => o.2)).sum| ≤ T * (obs.map (fun o => o.1)).sum
  | [], _ => by simp
  | o :: obs, h => by
    have h1 := tame_sum obs (fun o ho => h o (by simp [ho]))
    have h2 := h o (by simp)
    simp only [List.map_cons, List.sum_cons]
    have h3 := abs_add_le (o.1 - o.2) ((obs.map (fun o => o.1)).sum - (obs.map (fun o => o.2)).sum)
    rw [show o.1 - o.2 + ((obs.map (fun o => o.1)).sum - (obs.map (fun o => o.2)).sum) =
      o.1 + (obs.map (fun o => o.1)).sum - (o.2 + (obs.map (fun o => o.2)).sum) by ring] at h3
    rw [mul_add]
    omega

theorem clamp_lip (x y : ℝ) : |clamp x - clamp y| ≤ |x - y| := by
  unfold clamp
  refine le_trans (abs_max_sub_max_le_max _ _ _ _) ?_
  rw [sub_self, abs_zero]
  refine max_le (abs_nonneg _) (le_trans (abs_min_sub_min_le_max _ _ _ _) ?_)
  rw [sub_self, abs_zero]
  exact max_le (abs_nonneg _) (le_refl _)

theorem clamp_cast (x : ℚ) : ((max 0 (min 100 x) : ℚ) : ℝ) = clamp x := by
  unfold clamp
  push_cast
  rfl

/-- C85 (errors).  If no count is negative and at least two are positive, each accuracy is within `T` percent, and there are not too many
observations, both ends of the interval differ from those of the jackknife interval by at most `T n² / 2^46`, where `n` is the number of
observations. -/
theorem c85_error (obs : List (Int × Int)) (h : Enough obs) (T : ℕ) (ht : Tame T obs) : ∃ lower upper : ℚ,
    compute_ciF (appended obs) = .ok (lower, upper) ∧ |(lower : ℝ) - clamp (estimate obs - halfWidth obs)| ≤ slack T obs ∧
    |(upper : ℝ) - clamp (estimate obs + halfWidth obs)| ≤ slack T obs := by
  obtain ⟨hT, hacc, hn, hsum⟩ := ht
  have hlen : 2 ≤ obs.length := le_trans h.2 (List.length_filter_le _ _)
  have hpos : 0 < (obs.map (fun o => o.1)).sum := by have := positive_sum h.1; have := h.2; omega
  have hz : ∀ o ∈ obs, 0 < (obs.map (fun o => o.1)).sum - o.1 := by
    intro o ho
    obtain ⟨i, hi, rfl⟩ := List.mem_iff_getElem.1 ho
    exact h.erase hi
  have hlt : obs.length < 2 ^ 53 := by
    have h1 : 1 * obs.length ≤ obs.length * obs.length := Nat.mul_le_mul_right _ (by omega)
    have h2 : 1 * (obs.length * obs.length) ≤ T * (obs.length * obs.length) := Nat.mul_le_mul_right _ (by omega)
    omega
  have hv : ¬ valid_obslist (appended obs) = false := by
    rw [valid_eq]
    have := h.2
    simp
    omega
  obtain ⟨t', ts', nt', J', w', e1, e2, e3, e4, e5, e6⟩ := compute_ciF_ok hv (by rw [appended_eq]; simpa using hlt)
    (by rw [appended_eq]; exact hpos.ne') (by
      rw [appended_eq]
      intro o ho
      obtain ⟨x, hx, rfl⟩ := List.mem_map.1 ho
      exact (hz x hx).ne')
  simp only [appended_eq, List.length_map, List.map_map] at e1 e2 e3 e4 e5
  have w1 := accuracy_within hT (tame_sum obs hacc) hpos hsum
  rw [← e1] at w1
  have hitem : ∀ o ∈ obs, Within (T * u) T (Fp.percent ((obs.map (fun o => o.1)).sum - o.1 - ((obs.map (fun o => o.2)).sum - o.2)) ((obs.map (fun o => o.1)).sum - o.1))
      (100 * (((obs.map (fun o => o.1)).sum - o.1 - ((obs.map (fun o => o.2)).sum - o.2) : Int) : ℝ) / (((obs.map (fun o => o.1)).sum - o.1 : Int) : ℝ)) ∧
      |100 * (((obs.map (fun o => o.1)).sum - o.1 - ((obs.map (fun o => o.2)).sum - o.2) : Int) : ℝ) / (((obs.map (fun o => o.1)).sum - o.1 : Int) : ℝ)| ≤ T := by
    intro o ho
    obtain ⟨i, hi, rfl⟩ := List.mem_iff_getElem.1 ho
    refine accuracy_within hT ?_ (hz _ ho) ?_
    · rw [← erase_sum (fun o => o.1) obs i hi, ← erase_sum (fun o => o.2) obs i hi]
      exact tame_sum _ (fun o ho => hacc o ((List.eraseIdx_sublist obs i).mem ho))
    · have := h.1 _ ho
      have h0 : (T : Int) * ((obs.map (fun o => o.1)).sum - obs[i].1) ≤ T * (obs.map (fun o => o.1)).sum := mul_le_mul_of_nonneg_left (by omega) (by omega)
      omega
  have w2 : List.Forall₂ (Within (T * u) T) ts' (leaveOneOut obs) := by
    rw [e2, loo_eq, List.forall₂_map_left_iff, List.forall₂_map_right_iff, List.forall₂_same]
    exact fun o ho => (hitem o ho).1
  have w3 : ∀ x ∈ leaveOneOut obs, |x| ≤ T := by
    rw [loo_eq]
    intro x hx
    obtain ⟨o, ho, rfl⟩ := List.mem_map.1 hx
    exact (hitem o ho).2
  have hn2 : (2 : ℝ) ≤ (obs.length : ℝ) := by exact_mod_cast hlen
  have hn1 : (obs.length : ℝ) - 1 ≠ 0 := by intro e; linarith
  have hn0 : (obs.length : ℝ) ≠ 0 := by intro e; linarith
  have hJ : estimate obs = (obs.length : ℝ) * theta obs - ((obs.length : ℝ) - 1) * (leaveOneOut obs).sum / obs.length := by
    unfold estimate mean; ring
  have hw : halfWidth obs = 1.96 * Real.sqrt ((((leaveOneOut obs).map (fun x => (obs.length : ℝ) * theta obs - ((obs.length : ℝ) - 1) * x)).map
      (fun j => (j - estimate obs) * (j - estimate obs))).sum / ((obs.length : ℝ) - 1) / obs.length) := by
    have f2 : (((leaveOneOut obs).map (fun t => (obs.length : ℝ) * theta obs - ((obs.length : ℝ) - 1) * t)).map
        (fun j => (j - estimate obs) * (j - estimate obs))).sum =
        ((obs.length : ℝ) - 1) * ((obs.length : ℝ) - 1) * ((leaveOneOut obs).map (fun t => (t - mean obs) ^ 2)).sum := by
      rw [List.map_map, ← sum_scale]
      refine congrArg List.sum (List.map_congr_left ?_)
      intro t _
      simp only [Function.comp]
      unfold estimate
      ring
    unfold halfWidth
    rw [f2]
    congr 2
    field_simp
  have key := interval_within hlen hn (by omega) t' (theta obs) w1.1 ts' (leaveOneOut obs) w2 w3 (by simp [leaveOneOut]) nt' J' w' (estimate obs) (halfWidth obs) e3 e4 e5 hJ hw
  have hsl : 75 * ((obs.length : ℝ) * obs.length) * (T * u) ≤ slack T obs := by
    unfold slack u
    have : (0 : ℝ) ≤ T * (obs.length * obs.length) := by positivity
    linarith [show 75 * ((obs.length : ℝ) * obs.length) * (T * (1 / 2 ^ 53)) = 75 / 2 ^ 53 * (T * (obs.length * obs.length)) by ring,
      show (T : ℝ) * (obs.length * obs.length) / 2 ^ 46 = 1 / 2 ^ 46 * (T * (obs.length * obs.length)) by ring]
  refine ⟨_, _, e6, ?_, ?_⟩
  · rw [clamp_cast]
    exact le_trans (clamp_lip _ _) (le_trans key.1 hsl)
  · rw [clamp_cast]
    exact le_trans (clamp_lip _ _) (le_trans key.2 hsl)

theorem shows_of {x : ℚ} {y e : ℝ} (h0 : 0 ≤ x) (h1 : x ≤ 100) (h : |(x : ℝ) - y| ≤ e) : Shows e y (Fp.fmtFixed 6 2 x) := by
  have hf := fmt_hundredths 6 x
  rw [decide_eq_false (not_lt.2 h0), abs_of_nonneg h0] at hf
  refine ⟨_, hf, ?_, ?_⟩
  · have := nearest_mono (show x * 10 ^ 2 ≤ ((10000 : ℤ) : ℚ) by push_cast; linarith)
    rw [nearest_int] at this
    omega
  · have h2 := nearest_err (x * 10 ^ 2)
    have h3 : ((nearest (x * 10 ^ 2)).toNat : ℤ) = nearest (x * 10 ^ 2) := Int.toNat_of_nonneg (nearest_nonneg (by positivity))
    have h4 : (((nearest (x * 10 ^ 2)).toNat : ℕ) : ℚ) = nearest (x * 10 ^ 2) := by exact_mod_cast h3
    rw [← h4] at h2
    generalize (nearest (x * 10 ^ 2)).toNat = r at *
    have h5 : |(r : ℝ) - (x : ℝ) * 10 ^ 2| ≤ 1 / 2 := by
      have : ((|(r : ℚ) - x * 10 ^ 2| : ℚ) : ℝ) ≤ ((1 / 2 : ℚ) : ℝ) := Rat.cast_le.2 h2
      push_cast at this
      exact this
    rw [abs_le] at h5 h ⊢
    constructor <;> linarith [h5.1, h5.2, h.1, h.2]

/-- C85 (report).  What is written: the totals, and the ends of the interval to the nearest hundredths, up to the error above. -/
theorem c85_report (negative : Bool) (what wrong : List Nat) (obs : List (Int × Int)) (h : Enough obs) (T : ℕ) (ht : Tame T obs) : ∃ out,
    write_resultsF negative what wrong (appended obs) (obs.map (fun o => o.1)).sum (obs.map (fun o => o.2)).sum = .ok out ∧
    Reported (Fp.pctText negative 14) what wrong obs (slack T obs) out := by
  obtain ⟨lower, upper, e, h1, h2⟩ := c85_error obs h T ht
  obtain ⟨r1, r2, r3⟩ := c85_range _ _ _ e
  unfold write_resultsF
  rw [e, bind_ok]
  refine ⟨_, rfl, _, _, shows_of r1 (by linarith) h1, shows_of (by linarith) r3 h2, ?_⟩
  simp only [appended_eq, List.length_map]

end Ocr.Ci

namespace Ocr.Ending
open Text Res Prog Spec AnyReport

theorem accci_reads {fs : Fs} (hfs : ∀ name file, fs name = some file → Bytes file) : ∀ (names : List (List Nat)) (os : List (Int × Int)) (D : Acc.Accdata) (l : Ci.Obslist),
    AllRead fs ReadsAccuracy names os → ∃ E, forFiles fs accciFile names (D, l) = .ok (E, os.foldl (fun l o => Ci.append_obs l o.1 o.2) l) ∧
      E.characters = D.characters + (os.map (fun o => o.1)).sum ∧ E.errors = D.errors + (os.map (fun o => o.2)).sum := by
  intro names os D l h
  induction h generalizing D l with
  | nil => exact ⟨D, rfl, by simp, by simp⟩
  | @cons name o names os hn _ ih =>
    obtain ⟨file, hf, hr⟩ := hn
    obtain ⟨p, vs, E, e, hA, hc, hm⟩ := accuracy_reads D file (hfs name file hf) o hr
    obtain ⟨E', i1, i2, i3⟩ := ih E (Ci.append_obs l o.1 o.2)
    refine ⟨E', ?_, ?_, ?_⟩
    · unfold forFiles open_file
      rw [hf]
      simp only [bind_ok]
      unfold accciFile
      simp only [e, bind_ok, hA.characters, hA.errors, hc, hm]
      rw [show D.characters + o.1 - D.characters = o.1 by omega, show D.errors + o.2 - D.errors = o.2 by omega]
      exact i1
    · rw [i2, hA.characters, hc]; simp; omega
    · rw [i3, hA.errors, hm]; simp; omega

theorem wordaccci_reads {fs : Fs} : ∀ (names : List (List Nat)) (os : List (Int × Int)) (D : Wac.Wacdata) (l : Ci.Obslist),
    AllRead fs ReadsWordacc names os → ∃ E, forFiles fs wordaccciFile names (D, l) = .ok (E, os.foldl (fun l o => Ci.append_obs l o.1 o.2) l) ∧
      E.total.count = D.total.count + (os.map (fun o => o.1)).sum ∧ E.total.missed = D.total.missed + (os.map (fun o => o.2)).sum := by
  intro names os D l h
  induction h generalizing D l with
  | nil => exact ⟨D, rfl, by simp, by simp⟩
  | @cons name o names os hn _ ih =>
    obtain ⟨file, hf, hr⟩ := hn
    obtain ⟨E, e, hA⟩ := wordacc_reads D file o hr
    obtain ⟨E', i1, i2, i3⟩ := ih E (Ci.append_obs l o.1 o.2)
    refine ⟨E', ?_, ?_, ?_⟩
    · unfold forFiles open_file
      rw [hf]
      simp only [bind_ok]
      unfold wordaccciFile
      simp only [e, bind_ok, hA]
      rw [show D.total.count + o.1 - D.total.count = o.1 by omega, show D.total.missed + o.2 - D.total.missed = o.2 by omega]
      exact i1
    · rw [i2, hA]; simp; omega
    · rw [i3, hA]; simp; omega

/-- C85 (accci).  For reports with the figures `os`, `accci` writes the totals and the interval, up to the error above. -/
theorem c85_accci (negative : Bool) (fs : Fs) (hfs : ∀ name file, fs name = some file → Bytes file) (prog : List Nat) (args names : List (List Nat))
    (ss : List Args.Setting) (hc : CommandLine [] prog args names ss) (os : List (Int × Int)) (hr : AllRead fs ReadsAccuracy names os)
    (h : Ci.Enough os) (T : ℕ) (ht : Ci.Tame T os) : ∃ out, accciProgramF negative fs (prog :: args) = .ok ⟨none, out⟩ ∧
      Ci.Reported (Fp.pctText negative 14) (ascii "Characters") (ascii "Errors") os (Ci.slack T os) out := by
  obtain ⟨b, V, e⟩ := init_none hc
  have hlen : 2 ≤ os.length := le_trans h.2 (List.length_filter_le _ _)
  obtain ⟨E, e1, e2, e3⟩ := accci_reads hfs names os Acc.Accdata.zero Ci.Obslist.empty hr
  obtain ⟨out, e4, e5⟩ := Ci.c85_report negative (ascii "Characters") (ascii "Errors") os h T ht
  refine ⟨out, ?_, e5⟩
  unfold accciProgramF
  rw [e, bind_ok]
  simp only
  rw [if_neg (by rw [hr.length_eq]; omega), e1, bind_ok]
  simp only
  rw [e2, e3]
  simp only [Acc.Accdata.zero, Int.zero_add]
  rw [show os.foldl (fun l o => Ci.append_obs l o.1 o.2) Ci.Obslist.empty = Ci.appended os from rfl, e4]
  rfl

/-- C85 (wordaccci).  The same for `wordaccci`. -/
theorem c85_wordaccci (negative : Bool) (fs : Fs) (prog : List Nat) (args names : List (List Nat))
    (ss : List Args.Setting) (hc : CommandLine [] prog args names ss) (os : List (Int × Int)) (hr : AllRead fs ReadsWordacc names os)
    (h : Ci.Enough os) (T : ℕ) (ht : Ci.Tame T os) : ∃ out, wordaccciProgramF negative fs (prog :: args) = .ok ⟨none, out⟩ ∧
      Ci.Reported (Fp.pctText negative 14) (ascii "Words") (ascii "Misrecognized") os (Ci.slack T os) out := by
  obtain ⟨b, V, e⟩ := init_none hc
  have hlen : 2 ≤ os.length := le_trans h.2 (List.length_filter_le _ _)
  obtain ⟨E, e1, e2, e3⟩ := wordaccci_reads names os Wac.Wacdata.zero Ci.Obslist.empty hr
  obtain ⟨out, e4, e5⟩ := Ci.c85_report negative (ascii "Words") (ascii "Misrecognized") os h T ht
  refine ⟨out, ?_, e5⟩
  unfold wordaccciProgramF
  rw [e, bind_ok]
  simp only
  rw [if_neg (by rw [hr.length_eq]; omega), e1, bind_ok]
  simp only
  rw [e2, e3]
  simp only [Wac.Wacdata.zero, Int.zero_add]
  rw [show os.foldl (fun l o => Ci.append_obs l o.1 o.2) Ci.Obslist.empty = Ci.appended os from rfl, e4]
  rfl

theorem results_same (negative : Bool) (pct : Int → Int → List Nat) (fmt : ℝ → List Nat) (what wrong : List Nat) (l : Ci.Obslist) (hlen : l.items.length < 2 ^ 53)
    (missed : Int) : SameEnd (Ci.write_resultsF negative what wrong l l.total.count missed >>= fun b => .ok (⟨none, b⟩ : Output))
      (Ci.write_results pct fmt what wrong l l.total.count missed >>= fun b => .ok (⟨none, b⟩ : Output)) := by
  unfold Ci.write_resultsF Ci.write_results
  rcases Ci.both l hlen with ⟨a, b⟩ | ⟨a, b⟩ | ⟨⟨r, a⟩, s, b⟩
  · rw [a, b]; unfold SameEnd; simp [bind_err]
  · rw [a, b]; unfold SameEnd; simp [bind_ub]
  · have hc : l.total.count ≠ 0 := by
      intro hc
      unfold Ci.compute_ciF at a
      split at a
      · cases a
      · unfold Ci.accuracyF at a
        rw [if_pos hc] at a
        cases a
    rw [a, b]
    simp only [bind_ok]
    rw [if_neg hc, bind_ok]
    unfold SameEnd
    simp [bind_ok, pure_eq]

theorem forFiles_inv {α : Type} {fs : Fs} {step : α → List Nat → Res α} (P : Nat → α → Prop) (h : ∀ k a file b, P k a → step a file = .ok b → P (k + 1) b) :
    ∀ (names : List (List Nat)) (k : Nat) (a b : α), P k a → forFiles fs step names a = .ok b → P (k + names.length) b
  | [], k, a, b, ha, e => by
    cases e
    exact ha
  | name :: names, k, a, b, ha, e => by
    unfold forFiles at e
    obtain ⟨file, _, e⟩ := bind_eq_ok.1 e
    obtain ⟨a', e1, e⟩ := bind_eq_ok.1 e
    have := forFiles_inv P h names (k + 1) a' b (h k a file a' ha e1) e
    rw [List.length_cons, show k + (names.length + 1) = k + 1 + names.length by omega]
    exact this

theorem parse_length {T : List (Nat × Args.Kind)} {args ops : List (List Nat)} {ss : List Args.Setting} (h : Args.Parse T args ops ss) : ops.length ≤ args.length := by
  induction h with
  | nil => simp
  | operand _ _ ih => simpa using ih
  | flag _ _ _ ih => simp; omega
  | attached _ _ _ ih => simp; omega
  | separate _ _ _ ih => simp; omega

theorem SameEnd.refl {α : Type} (r : Res α) : SameEnd r r := ⟨Iff.rfl, fun _ => Iff.rfl, Iff.rfl⟩

theorem SameEnd.files {α : Type} {x : Res α} {f g : α → Res Output} (h : ∀ a, x = .ok a → SameEnd (f a) (g a)) : SameEnd (x >>= f) (x >>= g) := by
  cases x with
  | ok a => exact h a rfl
  | err | ub | fuel => exact SameEnd.refl _

/-- C85 (endings of accci).  Rounding does not affect how `accci` ends, on any files. -/
theorem c85_accci_ends (negative : Bool) (pct : Int → Int → List Nat) (fmt : ℝ → List Nat) (fs : Fs) (prog : List Nat) (args : List (List Nat))
    (hp : prog.length ≤ 32768) (hl : args.length < 32768) (h0 : ∀ a ∈ args, 0 ∉ a) :
    SameEnd (accciProgramF negative fs (prog :: args)) (accciProgram pct fmt fs (prog :: args)) := by
  unfold accciProgramF accciProgram
  rcases line_or_refused (T := []) ⟨by decide, by decide, by decide⟩ hp hl h0 with ⟨names, ss, hc⟩ | ⟨msg, e⟩
  · obtain ⟨b, V, e⟩ := init_none hc
    have hn := parse_length hc.parse
    rw [e, bind_ok, bind_ok]
    simp only
    split
    · exact SameEnd.refl _
    · refine SameEnd.files ?_
      rintro ⟨D, l⟩ ha
      have := forFiles_inv (fun k (a : Acc.Accdata × Ci.Obslist) => a.1.characters = a.2.total.count ∧ a.2.items.length = k) (by
        rintro k ⟨D, l⟩ file b ⟨h1, h2⟩ e
        unfold accciFile at e
        simp only at e h1 h2
        obtain ⟨E, _, e⟩ := bind_eq_ok.1 e
        cases e
        simp only [Ci.append_obs, List.length_append, List.length_cons, List.length_nil]
        omega) names 0 _ _ ⟨rfl, rfl⟩ ha
      simp only at this
      simp only
      rw [this.1]
      exact results_same negative pct fmt _ _ l (by omega) _
  · have e : Args.initialize_ none true (prog :: args) start = .err msg := by rw [Args.c52_null]; exact e
    rw [e, bind_err, bind_err]
    exact SameEnd.refl _

/-- C85 (endings of wordaccci).  Nor how `wordaccci` ends. -/
theorem c85_wordaccci_ends (negative : Bool) (pct : Int → Int → List Nat) (fmt : ℝ → List Nat) (fs : Fs) (prog : List Nat) (args : List (List Nat))
    (hp : prog.length ≤ 32768) (hl : args.length < 32768) (h0 : ∀ a ∈ args, 0 ∉ a) :
    SameEnd (wordaccciProgramF negative fs (prog :: args)) (wordaccciProgram pct fmt fs (prog :: args)) := by
  unfold wordaccciProgramF wordaccciProgram
  rcases line_or_refused (T := []) ⟨by decide, by decide, by decide⟩ hp hl h0 with ⟨names, ss, hc⟩ | ⟨msg, e⟩
  · obtain ⟨b, V, e⟩ := init_none hc
    have hn := parse_length hc.parse
    rw [e, bind_ok, bind_ok]
    simp only
    split
    · exact SameEnd.refl _
    · refine SameEnd.files ?_
      rintro ⟨D, l⟩ ha
      have := forFiles_inv (fun k (a : Wac.Wacdata × Ci.Obslist) => a.1.total.count = a.2.total.count ∧ a.2.items.length = k) (by
        rintro k ⟨D, l⟩ file b ⟨h1, h2⟩ e
        unfold wordaccciFile at e
        simp only at e h1 h2
        obtain ⟨E, _, e⟩ := bind_eq_ok.1 e
        cases e
        simp only [Ci.append_obs, List.length_append, List.length_cons, List.length_nil]
        omega) names 0 _ _ ⟨rfl, rfl⟩ ha
      simp only at this
      simp only
      rw [this.1]
      exact results_same negative pct fmt _ _ l (by omega) _
  · have e : Args.initialize_ none true (prog :: args) start = .err msg := by rw [Args.c52_null]; exact e
    rw [e, bind_err, bind_err]
    exact SameEnd.refl _

/-! ## Non-vacuity -/

theorem sample_tame : Ci.Enough [(100, 3), (200, 10), (50, 0)] ∧ Ci.Tame 100 [(100, 3), (200, 10), (50, 0)] := by
  unfold Ci.Enough Ci.Tame
  decide

/-- Three pages: the report, which is correct up to 0.005 and an error of less than 10^-10. -/
example : Ci.write_resultsF false (ascii "Characters") (ascii "Errors") (Ci.appended [(100, 3), (200, 10), (50, 0)]) 350 13 = .ok (ascii
      "             3   Observations\n           350   Characters\n            13   Errors\n         96.29%  Accuracy\n 92.89%, 98.60%  Approximate 95% Confidence Interval for Accuracy\n") ∧
    Ci.Reported (Fp.pctText false 14) (ascii "Characters") (ascii "Errors") [(100, 3), (200, 10), (50, 0)] (1 / 10 ^ 10) (ascii
      "             3   Observations\n           350   Characters\n            13   Errors\n         96.29%  Accuracy\n 92.89%, 98.60%  Approximate 95% Confidence Interval for Accuracy\n") := by
  have e : Ci.write_resultsF false (ascii "Characters") (ascii "Errors") (Ci.appended [(100, 3), (200, 10), (50, 0)]) 350 13 = .ok (ascii
      "             3   Observations\n           350   Characters\n            13   Errors\n         96.29%  Accuracy\n 92.89%, 98.60%  Approximate 95% Confidence Interval for Accuracy\n") := by
    decide +kernel
  refine ⟨e, ?_⟩
  obtain ⟨out, h1, lo, hi, h2, h3, h4⟩ := Ci.c85_report false (ascii "Characters") (ascii "Errors") _ sample_tame.1 100 sample_tame.2
  have := Res.ok.inj (e.symm.trans h1)
  subst this
  have hs : Ci.slack 100 [(100, 3), (200, 10), (50, 0)] ≤ 1 / 10 ^ 10 := by
    unfold Ci.slack
    norm_num
  exact ⟨lo, hi, h2.imp (fun h k => ⟨k.1, k.2.1, by linarith [k.2.2]⟩), h3.imp (fun h k => ⟨k.1, k.2.1, by linarith [k.2.2]⟩), h4⟩

/-- Three reports of `accuracy`, one of them with -1 errors, so that its accuracy is 101 percent. -/
example (negative : Bool) : ∃ out, accciProgramF negative (threeFiles oddTop oddTop (briefAccuracy "100" "-1"))
      [ascii "accci", ascii "x", ascii "y", ascii "z"] = .ok ⟨none, out⟩ ∧
    Ci.Reported (Fp.pctText negative 14) (ascii "Characters") (ascii "Errors") [(3, 1), (3, 1), (100, -1)] (Ci.slack 101 [(3, 1), (3, 1), (100, -1)]) out := by
  have b1 : Bytes oddTop := by unfold Bytes; decide +kernel
  have b3 : Bytes (briefAccuracy "100" "-1") := by unfold Bytes; decide +kernel
  exact c85_accci negative _ (three_bytes b1 b1 b3) _ _ _ _ (three_line "accci" (by decide +kernel)) _ (reads_three reads_top reads_top reads_plus)
    (by unfold Ci.Enough; decide) 101 (by unfold Ci.Tame; decide)

/-- Reports of `wordacc`. -/
example (negative : Bool) : ∃ out, wordaccciProgramF negative (threeFiles (briefWordacc "3" "1") (briefWordacc "3" "1") (briefWordacc "100" "-1"))
      [ascii "wordaccci", ascii "x", ascii "y", ascii "z"] = .ok ⟨none, out⟩ ∧
    Ci.Reported (Fp.pctText negative 14) (ascii "Words") (ascii "Misrecognized") [(3, 1), (3, 1), (100, -1)] (Ci.slack 101 [(3, 1), (3, 1), (100, -1)]) out :=
  c85_wordaccci negative _ _ _ _ _ (three_line "wordaccci" (by decide +kernel)) _ (reads_three reads_brief reads_brief reads_over)
    (by unfold Ci.Enough; decide) 101 (by unfold Ci.Tame; decide)

/-- A report with -3 characters, so that the total without it is divided by zero. -/
example (negative : Bool) : accciProgramF negative (threeFiles oddTop oddTop (briefAccuracy "-3" "0")) [ascii "accci", ascii "x", ascii "y", ascii "z"] = .ub := by
  have b1 : Bytes oddTop := by unfold Bytes; decide +kernel
  have b4 : Bytes (briefAccuracy "-3" "0") := by unfold Bytes; decide +kernel
  have L2 := three_line "accci" (by decide +kernel)
  exact (c85_accci_ends negative (fun _ _ => []) (fun _ => []) _ _ _ L2.prog L2.many L2.nul).2.2.2
    ((c71_accci _ (three_bytes b1 b1 b4) _ _ L2.prog L2.many L2.nul _ _).astray.2 ⟨_, _, L2, by simp,
      .inr ⟨_, reads_three reads_top reads_top reads_less, by unfold Two; decide, by unfold Nothing; decide⟩⟩)

/-- A division by zero, and too few observations. -/
example : Ci.compute_ciF (Ci.appended [(3, 1), (3, 1), (-3, 0)]) = .ub ∧ Ci.compute_ciF (Ci.appended [(3, 1), (0, 0)]) = .err "not enough observations" := by
  decide +kernel

end Ocr.Ending
