import Verif.Model.FloatCi
import Verif.Proof.Float

/-!
# Rounding errors of ci.c
-/

namespace Ocr.Fp

/-- The unit roundoff of `double`. -/
noncomputable def u : ℝ := 1 / 2 ^ 53

theorem u_pos : 0 < u := by unfold u; positivity

theorem rnd_real (x : ℚ) : |((rnd 53 x : ℚ) : ℝ) - x| ≤ |(x : ℝ)| * u := by
  have h := rnd_err (p := 53) x
  have h' : (((|rnd 53 x - x| : ℚ)) : ℝ) ≤ ((|x| / 2 ^ 53 : ℚ) : ℝ) := by exact_mod_cast h
  push_cast at h'
  unfold u
  rw [mul_one_div]
  exact h'

/-- One more rounding. -/
theorem rnd_step {x : ℚ} {y e B : ℝ} (h : |(x : ℝ) - y| ≤ e) (hB : |(x : ℝ)| ≤ B) : |((rnd 53 x : ℚ) : ℝ) - y| ≤ e + B * u := by
  have h1 := rnd_real x
  have h2 := mul_le_mul_of_nonneg_right hB u_pos.le
  have h3 := abs_add_le (((rnd 53 x : ℚ) : ℝ) - x) ((x : ℝ) - y)
  rw [show ((rnd 53 x : ℚ) : ℝ) - x + ((x : ℝ) - y) = ((rnd 53 x : ℚ) : ℝ) - y by ring] at h3
  linarith

theorem rnd_bound {x : ℚ} (k : ℕ) (hk : k < 2 ^ 53) (h : |(x : ℝ)| ≤ k) : |((rnd 53 x : ℚ) : ℝ)| ≤ k := by
  have h' : |x| ≤ (k : ℚ) := by exact_mod_cast h
  have h1 := rnd_mono (p := 53) (by norm_num) h'
  rw [← rnd_abs] at h1
  have h2 := rnd_int (p := 53) (n := (k : ℤ)) (by rw [abs_of_nonneg (by positivity)]; exact_mod_cast hk)
  rw [Int.cast_natCast] at h2
  rw [h2] at h1
  exact_mod_cast h1

/-! ## Relative errors -/

/-- `x'` results from `x` by `a` roundings. -/
def Near (a : ℕ) (x' x : ℝ) : Prop := (1 - u) ^ a * x ≤ x' ∧ x' ≤ (1 + u) ^ a * x

theorem u_small : u ≤ 1 / 2 := by
  unfold u
  norm_num

theorem Near.rnd {a : ℕ} {y : ℚ} {x : ℝ} (h : Near a y x) (hx : 0 ≤ x) : Near (a + 1) ((Fp.rnd 53 y : ℚ) : ℝ) x := by
  have hu := u_pos
  have hu' := u_small
  have hy : 0 ≤ (y : ℝ) := le_trans (mul_nonneg (pow_nonneg (by linarith) _) hx) h.1
  have h1 := rnd_real y
  rw [abs_of_nonneg hy, abs_le] at h1
  have k1 := mul_le_mul_of_nonneg_left h.1 (show 0 ≤ 1 - u by linarith)
  have k2 := mul_le_mul_of_nonneg_left h.2 (show 0 ≤ 1 + u by linarith)
  constructor
  · rw [pow_succ, mul_comm ((1 - u) ^ a), mul_assoc]
    linarith [h1.1]
  · rw [pow_succ, mul_comm ((1 + u) ^ a), mul_assoc]
    linarith [h1.2]

theorem Near.scale {a : ℕ} {x' x c : ℝ} (h : Near a x' x) (hc : 0 ≤ c) : Near a (c * x') (c * x) := by
  have k1 := mul_le_mul_of_nonneg_left h.1 hc
  have k2 := mul_le_mul_of_nonneg_left h.2 hc
  constructor
  · calc _ = c * ((1 - u) ^ a * x) := by ring
      _ ≤ _ := k1
  · calc _ ≤ _ := k2
      _ = _ := by ring

theorem Near.weaken {a b : ℕ} {x' x : ℝ} (h : Near a x' x) (hx : 0 ≤ x) (hab : a ≤ b) : Near b x' x := by
  have hu := u_pos
  have hu' := u_small
  constructor
  · refine le_trans (mul_le_mul_of_nonneg_right ?_ hx) h.1
    exact pow_le_pow_of_le_one (by linarith) (by linarith) hab
  · refine le_trans h.2 (mul_le_mul_of_nonneg_right ?_ hx)
    exact pow_le_pow_right₀ (by linarith) hab

theorem Near.add {a : ℕ} {x' x y' y : ℝ} (h : Near a x' x) (h' : Near a y' y) : Near a (x' + y') (x + y) := by
  constructor
  · rw [mul_add]; exact add_le_add h.1 h'.1
  · rw [mul_add]; exact add_le_add h.2 h'.2

theorem Near.sqrt {a : ℕ} {x' x : ℝ} (h : Near a x' x) (hx : 0 ≤ x) : Near a (Real.sqrt x') (Real.sqrt x) := by
  have hu := u_pos
  have hu' := u_small
  have p1 : 0 ≤ (1 - u) ^ a := pow_nonneg (by linarith) a
  have p2 : (1 - u) ^ a ≤ 1 := pow_le_one₀ (by linarith) (by linarith)
  have p3 : 1 ≤ (1 + u) ^ a := one_le_pow₀ (by linarith)
  have s0 := Real.sqrt_nonneg x
  have hs : Real.sqrt x * Real.sqrt x = x := Real.mul_self_sqrt hx
  constructor
  · apply Real.le_sqrt_of_sq_le
    refine le_trans ?_ h.1
    rw [mul_pow, sq (Real.sqrt x), hs, sq]
    exact mul_le_mul_of_nonneg_right (mul_le_of_le_one_left p1 p2) hx
  · refine Real.sqrt_le_iff.2 ⟨mul_nonneg (by linarith) s0, le_trans h.2 ?_⟩
    rw [mul_pow, sq (Real.sqrt x), hs, sq]
    exact mul_le_mul_of_nonneg_right (le_mul_of_one_le_left (by linarith) p3) hx

theorem pow_upper : ∀ k : ℕ, (k : ℝ) * u ≤ 1 / 2 → (1 + u) ^ k ≤ 1 + 2 * (k * u) := by
  intro k
  have hu := u_pos
  induction k with
  | zero => intro _; simp
  | succ k ih =>
    intro h
    push_cast at h ⊢
    have hk : (k : ℝ) * u ≤ 1 / 2 := by linarith [show ((k : ℝ) + 1) * u = k * u + u by ring]
    have := mul_le_mul_of_nonneg_right (ih hk) (show 0 ≤ 1 + u by linarith)
    rw [pow_succ]
    have h2 : (k : ℝ) * u * u ≤ 1 / 2 * u := mul_le_mul_of_nonneg_right hk hu.le
    linarith [show (1 + 2 * ((k : ℝ) * u)) * (1 + u) = 1 + 2 * (k * u) + u + 2 * (k * u * u) by ring]

theorem pow_lower (k : ℕ) : 1 - (k : ℝ) * u ≤ (1 - u) ^ k := by
  have := one_add_mul_le_pow (a := -u) (by linarith [u_small]) k
  rw [show (1 : ℝ) + -u = 1 - u by ring] at this
  linarith

theorem Near.abs {a : ℕ} {x' x : ℝ} (h : Near a x' x) (hx : 0 ≤ x) (ha : (a : ℝ) * u ≤ 1 / 2) : |x' - x| ≤ 2 * (a * u) * x := by
  have h1 := mul_le_mul_of_nonneg_right (pow_upper a ha) hx
  have h2 := mul_le_mul_of_nonneg_right (pow_lower a) hx
  have hu := u_pos
  have h3 : 0 ≤ (a : ℝ) * u * x := by positivity
  rw [abs_le]
  constructor
  · linarith [h.1]
  · linarith [h.2]

/-! ## The square root -/

theorem sqrt_zero : sqrt 0 = 0 := by simp [sqrt]

/-- The square root is the nearest value with 53 bits. -/
theorem sqrt_err (x : ℚ) (hx : 0 ≤ x) : |((sqrt x : ℚ) : ℝ) - Real.sqrt x| ≤ Real.sqrt x * u := by
  rcases eq_or_lt_of_le hx with rfl | hx
  · simp [sqrt_zero]
  unfold sqrt
  rw [if_neg (by linarith)]
  simp only
  obtain ⟨L, hL⟩ : ∃ L, L = Int.log 2 x := ⟨_, rfl⟩
  rw [← hL]
  obtain ⟨q, hq⟩ : ∃ q, q = L / 2 - 52 := ⟨_, rfl⟩
  rw [← hq]
  have p4 : (0 : ℚ) < 4 ^ q := zpow_pos (by norm_num) q
  have p2 : (0 : ℚ) < 2 ^ q := zpow_pos (by norm_num) q
  obtain ⟨y, hy⟩ : ∃ y, y = x / 4 ^ q := ⟨_, rfl⟩
  rw [← hy]
  have hy0 : 0 < y := by rw [hy]; positivity
  have e4 : (4 : ℚ) ^ q = 2 ^ q * 2 ^ q := by rw [← mul_zpow]; norm_num
  have hxy : x = y * 4 ^ q := by rw [hy]; field_simp
  -- at least 52 bits before the point
  have hbig : (2 : ℚ) ^ (104 : ℕ) ≤ y := by
    have h1 : (2 : ℚ) ^ L ≤ x := by rw [hL]; exact Int.zpow_log_le_self (by norm_num) hx
    have h2 : (2 : ℚ) ^ (2 * (L / 2)) ≤ 2 ^ L := zpow_le_zpow_right₀ (by norm_num) (by omega)
    have h3 : (2 : ℚ) ^ (2 * (L / 2)) = 2 ^ (104 : ℕ) * 4 ^ q := by
      rw [e4, ← zpow_natCast, ← zpow_add₀ (by norm_num), ← zpow_add₀ (by norm_num)]
      congr 1
      push_cast
      omega
    rw [hy, le_div_iff₀ p4, ← h3]
    exact le_trans h2 h1
  obtain ⟨r, hr⟩ : ∃ r, r = Nat.sqrt ⌊y⌋.toNat := ⟨_, rfl⟩
  rw [← hr]
  have hf : ((⌊y⌋.toNat : ℕ) : ℤ) = ⌊y⌋ := Int.toNat_of_nonneg (Int.floor_nonneg.2 hy0.le)
  have r1 : (r : ℚ) * r ≤ y := by
    have h1 : r * r ≤ ⌊y⌋.toNat := by rw [hr]; exact Nat.sqrt_le _
    have h2 : ((r * r : ℕ) : ℤ) ≤ ⌊y⌋ := by rw [← hf]; exact_mod_cast h1
    have h3 := Int.le_floor.1 h2
    push_cast at h3
    exact h3
  have r2 : y < ((r : ℚ) + 1) * (r + 1) := by
    have h1 : ⌊y⌋.toNat < (r + 1) * (r + 1) := by rw [hr]; exact Nat.lt_succ_sqrt _
    have h2 : ⌊y⌋ < (((r + 1) * (r + 1) : ℕ) : ℤ) := by rw [← hf]; exact_mod_cast h1
    have h3 := Int.floor_lt.1 h2
    push_cast at h3
    exact h3
  obtain ⟨m, hm⟩ : ∃ m : ℕ, m = (if y < ((r : ℚ) + 1 / 2) ^ 2 then r else if ((r : ℚ) + 1 / 2) ^ 2 < y then r + 1 else if r % 2 = 0 then r else r + 1) :=
    ⟨_, rfl⟩
  have cast_m : ∀ (c : ℚ), (((if y < ((r : ℚ) + 1 / 2) ^ 2 then r else if ((r : ℚ) + 1 / 2) ^ 2 < y then r + 1 else
      if r % 2 = 0 then r else r + 1 : ℕ) : ℚ) * c) = m * c := by intro c; rw [hm]
  rw [cast_m]
  obtain ⟨z, hz⟩ : ∃ z : ℝ, z = Real.sqrt (y : ℝ) := ⟨_, rfl⟩
  have yr : (0 : ℝ) ≤ (y : ℝ) := by exact_mod_cast hy0.le
  have z0 : 0 ≤ z := by rw [hz]; exact Real.sqrt_nonneg _
  have zz : z * z = y := by rw [hz]; exact Real.mul_self_sqrt yr
  have sx : Real.sqrt (x : ℝ) = z * 2 ^ q := by
    rw [hxy, e4, hz]
    push_cast
    rw [Real.sqrt_mul yr, Real.sqrt_mul_self (zpow_pos (by norm_num) q).le]
  have z1 : (r : ℝ) ≤ z := by
    rw [hz]
    apply Real.le_sqrt_of_sq_le
    rw [sq]
    exact_mod_cast r1
  have z2 : z ≤ (r : ℝ) + 1 := by
    rw [hz]
    refine Real.sqrt_le_iff.2 ⟨by positivity, ?_⟩
    rw [sq]
    exact_mod_cast r2.le
  have zlow : ∀ (_ : y ≤ ((r : ℚ) + 1 / 2) ^ 2), z ≤ (r : ℝ) + 1 / 2 := by
    intro h
    rw [hz]
    refine Real.sqrt_le_iff.2 ⟨by positivity, ?_⟩
    have h' : (y : ℝ) ≤ ((((r : ℚ) + 1 / 2) ^ 2 : ℚ) : ℝ) := Rat.cast_le.2 h
    push_cast at h'
    exact h'
  have zhigh : ∀ (_ : ((r : ℚ) + 1 / 2) ^ 2 ≤ y), (r : ℝ) + 1 / 2 ≤ z := by
    intro h
    rw [hz]
    apply Real.le_sqrt_of_sq_le
    have h' : ((((r : ℚ) + 1 / 2) ^ 2 : ℚ) : ℝ) ≤ (y : ℝ) := Rat.cast_le.2 h
    push_cast at h'
    exact h'
  have hmz : |(m : ℝ) - z| ≤ 1 / 2 := by
    rw [abs_le]
    by_cases c1 : y < ((r : ℚ) + 1 / 2) ^ 2
    · have := zlow c1.le
      rw [hm, if_pos c1]
      constructor <;> linarith
    · by_cases c2 : ((r : ℚ) + 1 / 2) ^ 2 < y
      · have := zhigh c2.le
        rw [hm, if_neg c1, if_pos c2]
        push_cast
        constructor <;> linarith
      · have h1 := zlow (not_lt.1 c2)
        have h2 := zhigh (not_lt.1 c1)
        rw [hm, if_neg c1, if_neg c2]
        split
        · constructor <;> linarith
        · push_cast
          constructor <;> linarith
  have hzbig : (2 : ℝ) ^ (52 : ℕ) ≤ z := by
    rw [hz]
    apply Real.le_sqrt_of_sq_le
    have : (2 : ℝ) ^ (104 : ℕ) ≤ (y : ℝ) := by exact_mod_cast hbig
    norm_num at this ⊢
    exact this
  rw [sx]
  push_cast
  rw [← sub_mul, abs_mul, abs_of_pos (show (0 : ℝ) < 2 ^ q from zpow_pos (by norm_num) q), mul_right_comm]
  refine mul_le_mul_of_nonneg_right (le_trans hmz ?_) (zpow_pos (by norm_num) q).le
  unfold u
  rw [mul_one_div, le_div_iff₀ (by positivity)]
  norm_num at hzbig ⊢
  linarith

theorem Near.sqrtF {a : ℕ} {y : ℚ} {x : ℝ} (h : Near a y x) (hx : 0 ≤ x) : Near (a + 1) ((Fp.sqrt y : ℚ) : ℝ) (Real.sqrt x) := by
  have hu := u_pos
  have hu' := u_small
  have hy : 0 ≤ (y : ℝ) := le_trans (mul_nonneg (pow_nonneg (by linarith) _) hx) h.1
  have h' := h.sqrt hx
  have h1 := sqrt_err y (by exact_mod_cast hy)
  rw [abs_le] at h1
  have k1 := mul_le_mul_of_nonneg_left h'.1 (show 0 ≤ 1 - u by linarith)
  have k2 := mul_le_mul_of_nonneg_left h'.2 (show 0 ≤ 1 + u by linarith)
  constructor
  · rw [pow_succ, mul_comm ((1 - u) ^ a), mul_assoc]
    linarith [h1.1]
  · rw [pow_succ, mul_comm ((1 + u) ^ a), mul_assoc]
    linarith [h1.2]

theorem Near.mul {a b : ℕ} {x' x y' y : ℝ} (h : Near a x' x) (h' : Near b y' y) (hx : 0 ≤ x) (hy : 0 ≤ y) : Near (a + b) (x' * y') (x * y) := by
  have hu := u_pos
  have hu' := u_small
  have p1 : 0 ≤ (1 - u) ^ a * x := mul_nonneg (pow_nonneg (by linarith) a) hx
  have p2 : 0 ≤ (1 - u) ^ b * y := mul_nonneg (pow_nonneg (by linarith) b) hy
  constructor
  · calc (1 - u) ^ (a + b) * (x * y) = ((1 - u) ^ a * x) * ((1 - u) ^ b * y) := by rw [pow_add]; ring
      _ ≤ x' * y' := mul_le_mul h.1 h'.1 p2 (le_trans p1 h.1)
  · calc x' * y' ≤ ((1 + u) ^ a * x) * ((1 + u) ^ b * y) := mul_le_mul h.2 h'.2 (le_trans p2 h'.1) (mul_nonneg (pow_nonneg (by linarith) a) hx)
      _ = (1 + u) ^ (a + b) * (x * y) := by rw [pow_add]; ring

/-! ## Absolute errors -/

/-- An error of at most `e`, and a value of at most `B`. -/
def Within (e B : ℝ) (x' : ℚ) (x : ℝ) : Prop := |(x' : ℝ) - x| ≤ e ∧ |(x' : ℝ)| ≤ B

theorem Within.rnd {e : ℝ} {k : ℕ} {x' : ℚ} {x : ℝ} (h : Within e k x' x) (hk : k < 2 ^ 53) : Within (e + k * u) k (Fp.rnd 53 x') x :=
  ⟨rnd_step h.1 h.2, rnd_bound k hk h.2⟩

theorem Within.mono {e e' B B' : ℝ} {x' : ℚ} {x : ℝ} (h : Within e B x' x) (he : e ≤ e') (hB : B ≤ B') : Within e' B' x' x :=
  ⟨le_trans h.1 he, le_trans h.2 hB⟩

theorem Within.mul {e B : ℝ} {x' : ℚ} {x : ℝ} (h : Within e B x' x) (c : ℕ) : Within (c * e) (c * B) ((c : ℚ) * x') (c * x) := by
  have hc : (0 : ℝ) ≤ c := by positivity
  constructor
  · push_cast
    rw [← mul_sub, abs_mul, abs_of_nonneg hc]
    exact mul_le_mul_of_nonneg_left h.1 hc
  · push_cast
    rw [abs_mul, abs_of_nonneg hc]
    exact mul_le_mul_of_nonneg_left h.2 hc

theorem Within.sub {e f A B : ℝ} {x' y' : ℚ} {x y : ℝ} (h : Within e A x' x) (h' : Within f B y' y) : Within (e + f) (A + B) (x' - y') (x - y) := by
  constructor
  · push_cast
    rw [show (x' : ℝ) - y' - (x - y) = (x' - x) - (y' - y) by ring]
    exact le_trans (abs_sub _ _) (add_le_add h.1 h'.1)
  · push_cast
    exact le_trans (abs_sub _ _) (add_le_add h.2 h'.2)

theorem Within.add {e f A B : ℝ} {x' y' : ℚ} {x y : ℝ} (h : Within e A x' x) (h' : Within f B y' y) : Within (e + f) (A + B) (x' + y') (x + y) := by
  constructor
  · push_cast
    rw [show (x' : ℝ) + y' - (x + y) = (x' - x) + (y' - y) by ring]
    exact le_trans (abs_add_le _ _) (add_le_add h.1 h'.1)
  · push_cast
    exact le_trans (abs_add_le _ _) (add_le_add h.2 h'.2)

/-- The rounded sum of a list. -/
theorem sum_within {N T : ℕ} (hNT : N * T < 2 ^ 53) : ∀ {ts' : List ℚ} {ts : List ℝ}, List.Forall₂ (Within (T * u) T) ts' ts → ∀ (k : ℕ) (s' : ℚ) (s : ℝ),
    k + ts.length ≤ N → Within (k * ((N + 1) * (T * u))) (k * T : ℕ) s' s →
    Within ((k + ts.length : ℕ) * ((N + 1) * (T * u))) ((k + ts.length) * T : ℕ) (ts'.foldl (fun s t => Fp.rnd 53 (s + t)) s') (s + ts.sum) := by
  intro ts' ts h
  induction h with
  | nil => intro k s' s _ hs; simpa using hs
  | @cons t' t ts' ts ht _ ih =>
    intro k s' s hk hs
    rw [List.length_cons] at hk ⊢
    have hlt : (k + 1) * T < 2 ^ 53 := lt_of_le_of_lt (Nat.mul_le_mul_right T (by omega)) hNT
    have h1 : Within (k * ((N + 1) * (T * u)) + T * u) ((k + 1) * T : ℕ) (s' + t') (s + t) :=
      (hs.add ht).mono (le_refl _) (le_of_eq (by push_cast; ring))
    have h2 := h1.rnd hlt
    have h3 := ih (k + 1) _ (s + t) (by omega) (h2.mono ?_ (le_refl _))
    · rw [List.foldl_cons, List.sum_cons]
      rw [show k + (ts.length + 1) = k + 1 + ts.length by omega, ← add_assoc s t]
      exact h3
    · have hu := u_pos
      have : ((k : ℝ) + 1) ≤ N := by exact_mod_cast (show k + 1 ≤ N by omega)
      have := mul_le_mul_of_nonneg_right this (show (0 : ℝ) ≤ T * u by positivity)
      push_cast
      linarith

/-! ## The distance of two lists -/

theorem sum_abs_sq : ∀ ys : List ℝ, (ys.map abs).sum * (ys.map abs).sum ≤ ys.length * (ys.map (fun y => y * y)).sum ∧ 0 ≤ (ys.map abs).sum ∧
    0 ≤ (ys.map (fun y => y * y)).sum
  | [] => by simp
  | a :: ys => by
    obtain ⟨h, h0, h1⟩ := sum_abs_sq ys
    simp only [List.map_cons, List.sum_cons, List.length_cons]
    have ha := abs_nonneg a
    have haa : |a| * |a| = a * a := abs_mul_abs_self a
    refine ⟨?_, by linarith, by linarith [mul_self_nonneg a]⟩
    generalize (ys.map abs).sum = S at *
    generalize (ys.map (fun y => y * y)).sum = Q at *
    rcases Nat.eq_zero_or_pos ys.length with e | e
    · rw [e] at h ⊢
      have : S * S = 0 := le_antisymm (by simpa using h) (mul_self_nonneg S)
      rw [mul_self_eq_zero.1 this]
      push_cast
      linarith
    · have hn : (0 : ℝ) < ys.length := by exact_mod_cast e
      push_cast
      generalize (ys.length : ℝ) = n at *
      have h2 : 2 * (|a| * S) ≤ n * (a * a) + Q := by
        have h3 := mul_self_nonneg (n * |a| - S)
        have h4 : n * (2 * (|a| * S)) ≤ n * (n * (a * a) + Q) := by
          rw [← haa]
          linarith [show (n * |a| - S) * (n * |a| - S) = n * (n * (|a| * |a|)) - n * (2 * (|a| * S)) + S * S by ring]
        exact le_of_mul_le_mul_left h4 hn
      linarith [show (|a| + S) * (|a| + S) = |a| * |a| + 2 * (|a| * S) + S * S by ring]

theorem sum_sq_le {D : ℝ} (hD : 0 ≤ D) : ∀ {xs ys : List ℝ}, List.Forall₂ (fun x y => |x - y| ≤ D) xs ys →
    (xs.map (fun x => x * x)).sum ≤ (ys.map (fun y => y * y)).sum + 2 * D * (ys.map abs).sum + ys.length * (D * D) := by
  intro xs ys h
  induction h with
  | nil => simp
  | @cons x y xs ys hxy _ ih =>
    simp only [List.map_cons, List.sum_cons, List.length_cons]
    push_cast
    have h1 : |x| ≤ |y| + D := by
      have := abs_add_le (x - y) y
      rw [sub_add_cancel] at this
      linarith
    have h2 := mul_le_mul h1 h1 (abs_nonneg x) (by linarith [abs_nonneg y])
    rw [abs_mul_abs_self] at h2
    linarith [show (|y| + D) * (|y| + D) = |y| * |y| + 2 * D * |y| + D * D by ring, abs_mul_abs_self y]

theorem root_le {N : ℕ} (hN : 2 ≤ N) {D : ℝ} (hD : 0 ≤ D) {xs ys : List ℝ} (h : List.Forall₂ (fun x y => |x - y| ≤ D) xs ys) (hl : ys.length = N) :
    Real.sqrt ((xs.map (fun x => x * x)).sum / (N - 1) / N) ≤ Real.sqrt ((ys.map (fun y => y * y)).sum / (N - 1) / N) + D := by
  obtain ⟨h1, h2, h3⟩ := sum_abs_sq ys
  have h4 := sum_sq_le hD h
  rw [hl] at h1 h4
  generalize (ys.map abs).sum = S at *
  generalize (ys.map (fun y => y * y)).sum = Y at *
  generalize (xs.map (fun y => y * y)).sum = X at *
  have hn : (2 : ℝ) ≤ N := by exact_mod_cast hN
  generalize (N : ℝ) = n at *
  have p1 : 0 < n - 1 := by linarith
  have p2 : 0 < n := by linarith
  have p3 : 0 < n * (n - 1) := mul_pos p2 p1
  rw [div_div, div_div, mul_comm (n - 1) n]
  have hq : 0 ≤ Y / (n * (n - 1)) := div_nonneg h3 p3.le
  obtain ⟨r, hr⟩ : ∃ r, r = Real.sqrt (Y / (n * (n - 1))) := ⟨_, rfl⟩
  have r0 : 0 ≤ r := by rw [hr]; exact Real.sqrt_nonneg _
  have rr : r * r = Y / (n * (n - 1)) := by rw [hr]; exact Real.mul_self_sqrt hq
  have rY : Y = r * r * (n * (n - 1)) := by rw [rr]; field_simp
  rw [← hr]
  have hSr : S ≤ r * (n * (n - 1)) := by
    rw [mul_self_le_mul_self_iff h2 (mul_nonneg r0 p3.le)]
    have : 1 ≤ n - 1 := by linarith
    have k1 : r * r * (n * n) * (n - 1) * 1 ≤ r * r * (n * n) * (n - 1) * (n - 1) :=
      mul_le_mul_of_nonneg_left this (mul_nonneg (by positivity) p1.le)
    calc S * S ≤ n * Y := h1
      _ = r * r * (n * n) * (n - 1) * 1 := by rw [rY]; ring
      _ ≤ _ := k1
      _ = _ := by ring
  refine Real.sqrt_le_iff.2 ⟨by linarith, ?_⟩
  rw [div_le_iff₀ p3]
  have k2 : 2 * D * S ≤ 2 * D * (r * (n * (n - 1))) := mul_le_mul_of_nonneg_left hSr (by linarith)
  have k3 : n * (D * D) * 1 ≤ n * (D * D) * (n - 1) := mul_le_mul_of_nonneg_left (by linarith) (by positivity)
  calc X ≤ _ := h4
    _ ≤ r * r * (n * (n - 1)) + 2 * D * (r * (n * (n - 1))) + n * (D * D) * (n - 1) := by rw [rY]; linarith
    _ = _ := by ring

/-! ## The interval -/

theorem forall2_swap {α β : Type} {R : α → β → Prop} {l : List α} {l' : List β} (h : List.Forall₂ R l l') : List.Forall₂ (fun b a => R a b) l' l := by
  induction h with
  | nil => exact .nil
  | cons h _ ih => exact .cons h ih

/-- The rounded sum of squares. -/
theorem squares_near : ∀ (ds : List ℚ) (a : ℕ) (s' : ℚ) (s : ℝ), 1 ≤ a → 0 ≤ s → Near a s' s →
    Near (a + ds.length) ((ds.foldl (fun s d => Fp.rnd 53 (s + Fp.rnd 53 (d * d))) s' : ℚ) : ℝ) (s + ((ds.map (fun d : ℚ => (d : ℝ))).map (fun d => d * d)).sum)
  | [], a, s', s, _, _, h => by simpa using h
  | d :: ds, a, s', s, ha, hs, h => by
    have hd : 0 ≤ (d : ℝ) * d := mul_self_nonneg _
    have h1 : Near 1 ((Fp.rnd 53 (d * d) : ℚ) : ℝ) (d * d : ℝ) := by
      have h0 : Near 0 ((d * d : ℚ) : ℝ) (d * d : ℝ) := by unfold Near; push_cast; simp
      exact h0.rnd hd
    have h2 : Near (a + 1) ((Fp.rnd 53 (s' + Fp.rnd 53 (d * d)) : ℚ) : ℝ) (s + d * d) := by
      refine Near.rnd ?_ (add_nonneg hs hd)
      push_cast
      exact h.add (h1.weaken hd ha)
    have h3 := squares_near ds (a + 1) _ _ (by omega) (add_nonneg hs hd) h2
    rw [List.foldl_cons, List.length_cons, List.map_cons, List.map_cons, List.sum_cons, show a + (ds.length + 1) = a + 1 + ds.length by omega, ← add_assoc]
    exact h3

theorem Near.div {a : ℕ} {y : ℚ} {x : ℝ} (h : Near a y x) (hx : 0 ≤ x) (c : ℕ) : Near (a + 1) ((Fp.rnd 53 (y / (c : ℚ)) : ℚ) : ℝ) (x / c) := by
  have h0 := h.scale (c := 1 / (c : ℝ)) (by positivity)
  refine Near.rnd ?_ (by positivity)
  rw [Rat.cast_div, Rat.cast_natCast]
  rw [one_div_mul_eq_div, one_div_mul_eq_div] at h0
  exact h0

theorem squares_bound {B : ℝ} : ∀ ds : List ℝ, (∀ d ∈ ds, |d| ≤ B) → (ds.map (fun d => d * d)).sum ≤ ds.length * (B * B)
  | [], _ => by simp
  | d :: ds, h => by
    rw [List.map_cons, List.sum_cons, List.length_cons]
    have h1 := squares_bound ds (fun d hd => h d (by simp [hd]))
    have h2 := h d (by simp)
    have h3 := mul_le_mul h2 h2 (abs_nonneg d) (le_trans (abs_nonneg d) h2)
    rw [abs_mul_abs_self] at h3
    push_cast
    linarith

/-- The half width of the interval, from values that are off by at most `9 T N² / 2^53`. -/
theorem width_within {N T : ℕ} (hN : 2 ≤ N) (hNT : T * (N * N) ≤ 2 ^ 52) (ds' : List ℚ) (ds : List ℝ)
    (h : List.Forall₂ (fun (d' : ℚ) d => |(d' : ℝ) - d| ≤ 9 * (N * N) * (T * u)) ds' ds) (hl : ds.length = N) (hd : ∀ d ∈ ds, |d| ≤ 2 * (N * T)) (hT : 1 ≤ T) :
    Within (66 * (N * N) * (T * u)) (7 * (N * T))
      (Fp.rnd 53 (Fp.rnd 53 1.96 * Fp.sqrt (Fp.rnd 53 (Fp.rnd 53 (ds'.foldl (fun s d => Fp.rnd 53 (s + Fp.rnd 53 (d * d))) 0 / ((N - 1 : ℕ) : ℚ)) / (N : ℚ)))))
      (1.96 * Real.sqrt ((ds.map (fun d => d * d)).sum / (N - 1) / N)) := by
  have hu := u_pos
  have hn : (2 : ℝ) ≤ N := by exact_mod_cast hN
  have hT' : (1 : ℝ) ≤ T := by exact_mod_cast hT
  have hNu : (N : ℝ) * u ≤ 1 / 2 ^ 27 := by
    have h1 : N * N ≤ 2 ^ 52 := le_trans (Nat.le_mul_of_pos_left _ hT) hNT
    have h2 : N ≤ 2 ^ 26 := by
      by_contra hc
      have := Nat.mul_le_mul (show 2 ^ 26 + 1 ≤ N by omega) (show 2 ^ 26 + 1 ≤ N by omega)
      omega
    have h3 : (N : ℝ) ≤ 2 ^ 26 := by exact_mod_cast h2
    have h4 := mul_le_mul_of_nonneg_right h3 hu.le
    refine le_trans h4 ?_
    unfold u
    norm_num
  have hll : ds'.length = N := by rw [h.length_eq, hl]
  have hN1 : ((N - 1 : ℕ) : ℝ) = N - 1 := by push_cast [show 1 ≤ N by omega]; ring
  obtain ⟨xs, hxs⟩ : ∃ xs, xs = ds'.map (fun d : ℚ => (d : ℝ)) := ⟨_, rfl⟩
  have hx : List.Forall₂ (fun x y => |x - y| ≤ 9 * (N * N) * (T * u)) xs ds := by
    rw [hxs, List.forall₂_map_left_iff]
    exact h
  have hD : 0 ≤ 9 * ((N : ℝ) * N) * (T * u) := by positivity
  have r1 := root_le hN hD hx hl
  have hx' : List.Forall₂ (fun y x => |y - x| ≤ 9 * (N * N) * (T * u)) ds xs := by
    refine (forall2_swap hx).imp ?_
    intro a b hab
    rw [abs_sub_comm]
    exact hab
  have r2 := root_le hN hD hx' (by rw [← hx'.length_eq, hl])
  have hX : 0 ≤ (xs.map (fun x => x * x)).sum := (sum_abs_sq xs).2.2
  -- the exact root
  have hroot : Real.sqrt ((ds.map (fun d => d * d)).sum / (N - 1) / N) ≤ 2 * (N * T) := by
    have h1 := squares_bound ds hd
    rw [hl] at h1
    refine Real.sqrt_le_iff.2 ⟨by positivity, ?_⟩
    rw [div_div, div_le_iff₀ (mul_pos (by linarith) (by linarith)), sq]
    refine le_trans h1 ?_
    have h2 : (N : ℝ) * (2 * (N * T) * (2 * (N * T))) * 1 ≤ (N : ℝ) * (2 * (N * T) * (2 * (N * T))) * (N - 1) :=
      mul_le_mul_of_nonneg_left (by linarith) (by positivity)
    linarith
  have hDs : 9 * ((N : ℝ) * N) * (T * u) ≤ N * T := by
    have h1 := mul_le_mul_of_nonneg_left hNu (show 0 ≤ 9 * ((N : ℝ) * T) by positivity)
    have h2 : 9 * ((N : ℝ) * T) * (1 / 2 ^ 27) ≤ N * T := by
      have : (0 : ℝ) ≤ N * T := by positivity
      linarith
    linarith [show 9 * ((N : ℝ) * T) * (N * u) = 9 * (N * N) * (T * u) by ring]
  -- the computed root
  have n1 := squares_near ds' 1 0 0 (le_refl _) (le_refl _) (by unfold Near; simp)
  rw [zero_add, hll, ← hxs] at n1
  have n2 := n1.div hX (N - 1)
  have n3 := n2.div (div_nonneg hX (by positivity)) N
  rw [hN1] at n3
  have n4 := n3.sqrtF (div_nonneg (div_nonneg hX (by linarith)) (by linarith))
  have n5 : Near 1 ((Fp.rnd 53 1.96 : ℚ) : ℝ) (1.96 : ℝ) := by
    refine Near.rnd ?_ (by norm_num)
    unfold Near
    norm_num
  have n6 := n5.mul n4 (by norm_num) (Real.sqrt_nonneg _)
  rw [← Rat.cast_mul] at n6
  have n7 := n6.rnd (mul_nonneg (by norm_num) (Real.sqrt_nonneg _))
  generalize Fp.rnd 53 (Fp.rnd 53 1.96 * Fp.sqrt (Fp.rnd 53 (Fp.rnd 53 (ds'.foldl (fun s d => Fp.rnd 53 (s + Fp.rnd 53 (d * d))) 0 / ((N - 1 : ℕ) : ℚ)) / (N : ℚ)))) = w at *
  have n8 := n7.abs (mul_nonneg (by norm_num) (Real.sqrt_nonneg _)) (by
    push_cast
    have : u ≤ 1 / 2 ^ 27 := le_trans (by linarith [mul_le_mul_of_nonneg_right (show (1 : ℝ) ≤ N by linarith) hu.le]) hNu
    linarith [show (1 + (1 + (N : ℝ) + 1 + 1 + 1) + 1) * u = N * u + 6 * u by ring])
  have s0 := Real.sqrt_nonneg ((xs.map (fun x => x * x)).sum / ((N : ℝ) - 1) / N)
  have s1 := Real.sqrt_nonneg ((ds.map (fun x => x * x)).sum / ((N : ℝ) - 1) / N)
  generalize Real.sqrt ((xs.map (fun x => x * x)).sum / ((N : ℝ) - 1) / N) = X at *
  generalize Real.sqrt ((ds.map (fun x => x * x)).sum / ((N : ℝ) - 1) / N) = Y at *
  have hX3 : X ≤ 3 * (N * T) := by linarith
  -- |w - 1.96 X|
  have e1 : |(w : ℝ) - 1.96 * X| ≤ 48 * (N * N) * (T * u) := by
    refine le_trans n8 ?_
    push_cast
    have a1 : (1.96 : ℝ) * X ≤ 6 * (N * T) := by
      have : (1.96 : ℝ) * X ≤ 2 * X := mul_le_mul_of_nonneg_right (by norm_num) s0
      linarith
    have a2 : (1 + (1 + (N : ℝ) + 1 + 1 + 1) + 1) * u ≤ 4 * N * u := mul_le_mul_of_nonneg_right (by linarith) hu.le
    have a3 : 2 * ((1 + (1 + (N : ℝ) + 1 + 1 + 1) + 1) * u) * (1.96 * X) ≤ (2 * (4 * N * u)) * (6 * (N * T)) :=
      mul_le_mul (by linarith) a1 (mul_nonneg (by norm_num) s0) (by positivity)
    linarith [show (2 * (4 * N * u)) * (6 * ((N : ℝ) * T)) = 48 * (N * N) * (T * u) by ring]
  have e2 : |1.96 * X - 1.96 * Y| ≤ 18 * (N * N) * (T * u) := by
    rw [← mul_sub, abs_mul, abs_of_nonneg (by norm_num : (0 : ℝ) ≤ 1.96)]
    have : |X - Y| ≤ 9 * (N * N) * (T * u) := by
      rw [abs_le]
      constructor <;> linarith
    have := mul_le_mul (show (1.96 : ℝ) ≤ 2 by norm_num) this (abs_nonneg _) (by norm_num)
    linarith
  constructor
  · have := abs_add_le ((w : ℝ) - 1.96 * X) (1.96 * X - 1.96 * Y)
    rw [sub_add_sub_cancel] at this
    linarith
  · have h1 := abs_add_le ((w : ℝ) - 1.96 * X) (1.96 * X)
    rw [sub_add_cancel] at h1
    have h2 : |1.96 * X| ≤ 6 * (N * T) := by
      rw [abs_of_nonneg (mul_nonneg (by norm_num) s0)]
      have : (1.96 : ℝ) * X ≤ 2 * X := mul_le_mul_of_nonneg_right (by norm_num) s0
      linarith
    have h3 : 48 * ((N : ℝ) * N) * (T * u) ≤ N * T := by
      have h1 := mul_le_mul_of_nonneg_left hNu (show 0 ≤ 48 * ((N : ℝ) * T) by positivity)
      have h2 : 48 * ((N : ℝ) * T) * (1 / 2 ^ 27) ≤ N * T := by
        have : (0 : ℝ) ≤ N * T := by positivity
        linarith
      linarith [show 48 * ((N : ℝ) * T) * (N * u) = 48 * (N * N) * (T * u) by ring]
    linarith

theorem total_le {N T u : ℝ} (h3 : 0 ≤ N * N * (T * u)) (h : 2 * (N * (T * u)) ≤ N * N * (T * u)) :
    (N * N + 6 * N) * (T * u) + 66 * (N * N) * (T * u) + (2 * (N * T) + 7 * (N * T)) * u ≤ 75 * (N * N) * (T * u) := by
  have h1 : (N * N + 6 * N) * (T * u) + 66 * (N * N) * (T * u) + (2 * (N * T) + 7 * (N * T)) * u = 67 * (N * N * (T * u)) + 15 / 2 * (2 * (N * (T * u))) := by ring
  have h2 : 75 * (N * N) * (T * u) = 75 * (N * N * (T * u)) := by ring
  linarith

/-- The estimate, its half width and the rounded ends of the interval. -/
theorem interval_within {N T : ℕ} (hN : 2 ≤ N) (hNT : T * (N * N) ≤ 2 ^ 52) (hT : 1 ≤ T) (t' : ℚ) (t : ℝ) (ht : Within (T * u) T t' t)
    (ts' : List ℚ) (ts : List ℝ) (hts : List.Forall₂ (Within (T * u) T) ts' ts) (hts' : ∀ x ∈ ts, |x| ≤ T) (hl : ts.length = N)
    (nt' J' w' : ℚ) (J w : ℝ) (hnt : nt' = Fp.rnd 53 ((N : ℚ) * t'))
    (hJ' : J' = Fp.rnd 53 (nt' - Fp.rnd 53 (Fp.rnd 53 (((N - 1 : ℕ) : ℚ) * ts'.foldl (fun s t => Fp.rnd 53 (s + t)) 0) / (N : ℚ))))
    (hw' : w' = Fp.rnd 53 (Fp.rnd 53 1.96 * Fp.sqrt (Fp.rnd 53 (Fp.rnd 53 (
      (ts'.map (fun x => Fp.rnd 53 (nt' - Fp.rnd 53 (((N - 1 : ℕ) : ℚ) * x)))).foldl
        (fun s j => Fp.rnd 53 (s + Fp.rnd 53 (Fp.rnd 53 (j - J') * Fp.rnd 53 (j - J')))) 0 / ((N - 1 : ℕ) : ℚ)) / (N : ℚ)))))
    (hJ : J = N * t - (N - 1) * ts.sum / N)
    (hw : w = 1.96 * Real.sqrt (((ts.map (fun x => N * t - (N - 1) * x)).map (fun j => (j - J) * (j - J))).sum / (N - 1) / N)) :
    |((Fp.rnd 53 (J' - w') : ℚ) : ℝ) - (J - w)| ≤ 75 * (N * N) * (T * u) ∧ |((Fp.rnd 53 (J' + w') : ℚ) : ℝ) - (J + w)| ≤ 75 * (N * N) * (T * u) := by
  have hu := u_pos
  have hn : (2 : ℝ) ≤ N := by exact_mod_cast hN
  have hη : (0 : ℝ) ≤ T * u := by positivity
  have hN1 : ((N - 1 : ℕ) : ℝ) = N - 1 := by push_cast [show 1 ≤ N by omega]; ring
  have hNη : 2 * (N * (T * u)) ≤ N * N * (T * u) := by
    have := mul_le_mul_of_nonneg_right hn (show (0 : ℝ) ≤ N * (T * u) by positivity)
    linarith
  have q1 : 2 * (N * T) ≤ N * (N * T) := Nat.mul_le_mul_right _ hN
  have q2 : N * (N * T) = T * (N * N) := by ring
  have b1 : N * T < 2 ^ 53 := by omega
  have b2 : 2 * (N * T) < 2 ^ 53 := by omega
  have b3 : (N - 1) * T < 2 ^ 53 := lt_of_le_of_lt (Nat.mul_le_mul_right T (by omega)) b1
  have b4 : (N - 1) * (N * T) < 2 ^ 53 := by
    have := Nat.mul_le_mul_right (N * T) (show N - 1 ≤ N by omega)
    omega
  -- n * theta
  have hnt1 : Within (2 * (N * (T * u))) (N * T : ℕ) nt' (N * t) := by
    rw [hnt]
    refine ((ht.mul N).mono (le_refl _) (le_of_eq (by push_cast; ring)) |>.rnd b1).mono (le_of_eq ?_) (le_refl _)
    push_cast
    ring
  -- the estimate
  have hs := sum_within b1 hts 0 0 0 (by omega) (by unfold Within; simp)
  rw [zero_add, zero_add, hl] at hs
  have ha : Within (N * ((N - 1) * ((N + 2) * (T * u)))) ((N - 1) * (N * T) : ℕ) (Fp.rnd 53 (((N - 1 : ℕ) : ℚ) * ts'.foldl (fun s t => Fp.rnd 53 (s + t)) 0)) ((N - 1) * ts.sum) := by
    have := ((hs.mul (N - 1)).mono (le_refl _) (le_of_eq (show _ = (((N - 1) * (N * T) : ℕ) : ℝ) by push_cast; ring))).rnd b4
    rw [hN1] at this
    refine this.mono (le_of_eq ?_) (le_refl _)
    push_cast [hN1]
    ring
  generalize Fp.rnd 53 (((N - 1 : ℕ) : ℚ) * ts'.foldl (fun s t => Fp.rnd 53 (s + t)) 0) = a' at *
  have hb : Within ((N - 1) * ((N + 3) * (T * u))) ((N - 1) * T : ℕ) (Fp.rnd 53 (a' / (N : ℚ))) ((N - 1) * ts.sum / N) := by
    have h1 : Within ((N - 1) * ((N + 2) * (T * u))) ((N - 1) * T : ℕ) (a' / (N : ℚ)) ((N - 1) * ts.sum / N) := by
      have p : (0 : ℝ) < N := by linarith
      constructor
      · rw [Rat.cast_div, Rat.cast_natCast, ← sub_div, abs_div, abs_of_pos p, div_le_iff₀ p]
        refine le_trans ha.1 (le_of_eq ?_)
        ring
      · rw [Rat.cast_div, Rat.cast_natCast, abs_div, abs_of_pos p, div_le_iff₀ p]
        refine le_trans ha.2 (le_of_eq ?_)
        push_cast
        ring
    refine (h1.rnd b3).mono (le_of_eq ?_) (le_refl _)
    push_cast [hN1]
    ring
  generalize Fp.rnd 53 (a' / (N : ℚ)) = b' at *
  have hJw : Within ((N * N + 6 * N) * (T * u)) (2 * (N * T) : ℕ) J' J := by
    rw [hJ', hJ]
    have h1 := (hnt1.sub hb).mono (le_refl _) (show _ ≤ ((2 * (N * T) : ℕ) : ℝ) by
      push_cast [hN1]
      have : (0 : ℝ) ≤ T := by positivity
      linarith [show ((N : ℝ) - 1) * T = N * T - T by ring])
    refine (h1.rnd b2).mono ?_ (le_refl _)
    push_cast
    linarith [show ((N : ℝ) - 1) * ((N + 3) * (T * u)) = N * N * (T * u) + 2 * (N * (T * u)) - 3 * (T * u) by ring,
      show ((N : ℝ) * N + 6 * N) * (T * u) = N * N * (T * u) + 6 * (N * (T * u)) by ring, show (2 : ℝ) * (N * T) * u = 2 * (N * (T * u)) by ring]
  -- the deviations
  have hdev : List.Forall₂ (fun (d' : ℚ) d => |(d' : ℝ) - d| ≤ 9 * (N * N) * (T * u))
      ((ts'.map (fun x => Fp.rnd 53 (nt' - Fp.rnd 53 (((N - 1 : ℕ) : ℚ) * x)))).map (fun j => Fp.rnd 53 (j - J')))
      ((ts.map (fun x => N * t - (N - 1) * x)).map (fun j => j - J)) := by
    rw [List.map_map, List.map_map, List.forall₂_map_left_iff, List.forall₂_map_right_iff]
    refine hts.imp ?_
    intro x' x hx
    simp only [Function.comp_apply]
    have h1 : Within (2 * ((N - 1) * (T * u))) ((N - 1) * T : ℕ) (Fp.rnd 53 (((N - 1 : ℕ) : ℚ) * x')) ((N - 1) * x) := by
      have := (hx.mul (N - 1)).mono (le_refl _) (le_of_eq (show _ = (((N - 1) * T : ℕ) : ℝ) by push_cast; ring)) |>.rnd b3
      rw [hN1] at this
      refine this.mono (le_of_eq ?_) (le_refl _)
      push_cast [hN1]
      ring
    have h2 : Within (6 * (N * (T * u))) (2 * (N * T) : ℕ) (Fp.rnd 53 (nt' - Fp.rnd 53 (((N - 1 : ℕ) : ℚ) * x'))) (N * t - (N - 1) * x) := by
      have h3 := (hnt1.sub h1).mono (le_refl _) (show _ ≤ ((2 * (N * T) : ℕ) : ℝ) by
        push_cast [hN1]
        have : (0 : ℝ) ≤ T := by positivity
        linarith [show ((N : ℝ) - 1) * T = N * T - T by ring])
      refine (h3.rnd b2).mono ?_ (le_refl _)
      push_cast
      linarith [show (2 : ℝ) * (((N : ℝ) - 1) * (T * u)) = 2 * (N * (T * u)) - 2 * (T * u) by ring, show (2 : ℝ) * (N * T) * u = 2 * (N * (T * u)) by ring]
    have h4 := h2.sub hJw
    refine le_trans (rnd_step h4.1 h4.2) ?_
    push_cast
    linarith [show ((N : ℝ) * N + 6 * N) * (T * u) = N * N * (T * u) + 6 * (N * (T * u)) by ring, show (2 * ((N : ℝ) * T) + 2 * (N * T)) * u = 4 * (N * (T * u)) by ring]
  have hdevl : ((ts.map (fun x => N * t - (N - 1) * x)).map (fun j => j - J)).length = N := by simp [hl]
  have hsum : |ts.sum| ≤ N * T := by
    rw [← hl]
    clear hs ha hb hdev hdevl hJw hl hJ hw hts
    induction ts with
    | nil => simp
    | cons x ts ih =>
      rw [List.sum_cons, List.length_cons]
      have h1 := ih (fun x h => hts' x (by simp [h]))
      have h2 := hts' x (by simp)
      have h3 := abs_add_le x ts.sum
      push_cast
      linarith
  have hdevb : ∀ d ∈ (ts.map (fun x => (N : ℝ) * t - (N - 1) * x)).map (fun j => j - J), |d| ≤ 2 * (N * T) := by
    intro d hd
    rw [List.map_map] at hd
    obtain ⟨x, hx, rfl⟩ := List.mem_map.1 hd
    simp only [Function.comp_apply]
    have hx := hts' x hx
    have p : (0 : ℝ) < N := by linarith
    rw [hJ, show (N : ℝ) * t - (N - 1) * x - (N * t - (N - 1) * ts.sum / N) = (N - 1) * (ts.sum / N - x) by field_simp; ring, abs_mul,
      abs_of_nonneg (by linarith : (0 : ℝ) ≤ N - 1)]
    have h1 : |ts.sum / N| ≤ T := by
      rw [abs_div, abs_of_pos p, div_le_iff₀ p]
      linarith
    have h2 : |ts.sum / N - x| ≤ 2 * T := by
      have := abs_sub (ts.sum / N) x
      linarith
    have h3 := mul_le_mul (show (N : ℝ) - 1 ≤ N by linarith) h2 (abs_nonneg _) p.le
    linarith
  have hww := width_within hN hNT _ _ hdev hdevl hdevb hT
  rw [List.foldl_map, ← hw', List.map_map, show ((fun d : ℝ => d * d) ∘ fun j => j - J) = fun j => (j - J) * (j - J) from rfl, ← hw] at hww
  constructor
  · have h1 := hJw.sub hww
    refine le_trans (rnd_step h1.1 h1.2) ?_
    push_cast
    exact total_le (by positivity) hNη
  · have h1 := hJw.add hww
    refine le_trans (rnd_step h1.1 h1.2) ?_
    push_cast
    exact total_le (by positivity) hNη

end Ocr.Fp
