import Verif.Model.Float
import Mathlib.Tactic.Linarith
import Mathlib.Tactic.Ring
import Mathlib.Tactic.FieldSimp
import Mathlib.Tactic.NormNum
import Mathlib.Tactic.Positivity

/-!
# Lemmas about floating point arithmetic
-/

namespace Ocr.Fp

theorem nearest_int (k : ℤ) : nearest (k : ℚ) = k := by
  unfold nearest
  rw [Int.floor_intCast, if_pos (by norm_num)]

theorem nearest_err (x : ℚ) : |(nearest x : ℚ) - x| ≤ 1 / 2 := by
  have h1 := Int.floor_le x
  have h2 := Int.lt_floor_add_one x
  unfold nearest
  rw [abs_le]
  split
  · constructor <;> linarith
  · split
    · push_cast; constructor <;> linarith
    · split
      · constructor <;> linarith
      · push_cast; constructor <;> linarith

theorem nearest_floor (x : ℚ) : ⌊x⌋ ≤ nearest x ∧ nearest x ≤ ⌊x⌋ + 1 := by
  unfold nearest
  split
  · omega
  · split
    · omega
    · split <;> omega

theorem nearest_mono {x y : ℚ} (h : x ≤ y) : nearest x ≤ nearest y := by
  rcases (Int.floor_mono h).lt_or_eq with hl | he
  · exact (nearest_floor x).2.trans ((Int.add_one_le_iff.2 hl).trans (nearest_floor y).1)
  · unfold nearest
    rw [← he]
    split_ifs with a b c d e f g <;> first | omega | (exfalso; linarith)

theorem nearest_neg (x : ℚ) : nearest (-x) = -nearest x := by
  by_cases hx : (⌊x⌋ : ℚ) = x
  · rw [← hx, nearest_int, ← Int.cast_neg, nearest_int]
  · have h1 : (⌊x⌋ : ℚ) < x := lt_of_le_of_ne (Int.floor_le x) hx
    have h2 := Int.lt_floor_add_one x
    have hf : ⌊-x⌋ = -⌊x⌋ - 1 := by
      rw [Int.floor_eq_iff]
      push_cast
      constructor <;> linarith
    unfold nearest
    rw [hf]
    push_cast
    split_ifs <;> first | omega | (exfalso; linarith)

theorem two_zpow_pos (e : ℤ) : (0 : ℚ) < 2 ^ e := zpow_pos (by norm_num) e

theorem rnd_zero (p : Nat) : rnd p 0 = 0 := by
  unfold rnd
  rw [zero_div, show nearest 0 = 0 from nearest_int 0]
  simp

theorem scale_neg (p : Nat) (x : ℚ) : scale p (-x) = scale p x := by
  unfold scale; rw [abs_neg]

theorem rnd_neg (p : Nat) (x : ℚ) : rnd p (-x) = -rnd p x := by
  unfold rnd
  rw [scale_neg, neg_div, nearest_neg]
  push_cast
  ring

theorem pow_log_le {x : ℚ} (hx : x ≠ 0) : (2 : ℚ) ^ Int.log 2 |x| ≤ |x| := by
  have := Int.zpow_log_le_self (b := 2) (r := |x|) (by norm_num) (abs_pos.2 hx)
  exact_mod_cast this

theorem lt_pow_log (x : ℚ) : |x| < (2 : ℚ) ^ (Int.log 2 |x| + 1) := by
  have := Int.lt_zpow_succ_log_self (b := 2) (by norm_num) |x|
  exact_mod_cast this

/-- A value with at most `p` bits is not changed. -/
theorem rnd_exact {p : Nat} {x : ℚ} (m e : ℤ) (hx : x = m * 2 ^ e) (hm : |m| < 2 ^ p) : rnd p x = x := by
  rcases eq_or_ne x 0 with rfl | hx0
  · exact rnd_zero p
  have hlt : |x| < (2 : ℚ) ^ ((p : ℤ) + e) := by
    rw [hx, abs_mul, abs_of_pos (two_zpow_pos e), zpow_add₀ (by norm_num)]
    apply mul_lt_mul_of_pos_right _ (two_zpow_pos e)
    have : ((|m| : ℤ) : ℚ) < ((2 ^ p : ℤ) : ℚ) := by exact_mod_cast hm
    rw [zpow_natCast]
    push_cast at this
    exact this
  have hlog : Int.log 2 |x| < p + e := by
    have h := lt_of_le_of_lt (pow_log_le hx0) hlt
    exact (zpow_lt_zpow_iff_right₀ (by norm_num)).1 h
  have hs : scale p x ≤ e := by unfold scale; omega
  have hk : x / 2 ^ scale p x = ((m * 2 ^ (e - scale p x).toNat : ℤ) : ℚ) := by
    push_cast
    rw [← zpow_natCast, Int.toNat_of_nonneg (by omega), hx, zpow_sub₀ (by norm_num), mul_div_assoc]
  have hd : rnd p x = nearest (x / 2 ^ scale p x) * 2 ^ scale p x := rfl
  rw [hd, hk, nearest_int, ← hk, div_mul_cancel₀ _ (two_zpow_pos _).ne']

theorem rnd_err {p : Nat} (x : ℚ) : |rnd p x - x| ≤ |x| / 2 ^ p := by
  rcases eq_or_ne x 0 with rfl | hx0
  · rw [rnd_zero]; simp
  have h := nearest_err (x / 2 ^ scale p x)
  have hp := two_zpow_pos (scale p x)
  have e : rnd p x - x = (nearest (x / 2 ^ scale p x) - x / 2 ^ scale p x) * 2 ^ scale p x := by
    unfold rnd
    rw [sub_mul, div_mul_cancel₀ _ hp.ne']
  rw [e, abs_mul, abs_of_pos hp]
  have h2 : (2 : ℚ) ^ scale p x = 2 * (2 ^ Int.log 2 |x| / 2 ^ p) := by
    unfold scale
    rw [zpow_sub₀ (by norm_num), zpow_add₀ (by norm_num), zpow_one, zpow_natCast]
    ring
  have h3 : (2 : ℚ) ^ Int.log 2 |x| / 2 ^ p ≤ |x| / 2 ^ p := div_le_div_of_nonneg_right (pow_log_le hx0) (by positivity)
  calc |(nearest (x / 2 ^ scale p x) : ℚ) - x / 2 ^ scale p x| * 2 ^ scale p x ≤ 1 / 2 * 2 ^ scale p x :=
        mul_le_mul_of_nonneg_right h hp.le
    _ = 2 ^ Int.log 2 |x| / 2 ^ p := by rw [h2]; ring
    _ ≤ _ := h3

theorem rnd_nonneg {p : Nat} {x : ℚ} (h : 0 ≤ x) : 0 ≤ rnd p x := by
  unfold rnd
  apply mul_nonneg _ (two_zpow_pos _).le
  have : nearest 0 ≤ nearest (x / 2 ^ scale p x) := nearest_mono (div_nonneg h (two_zpow_pos _).le)
  rw [show nearest 0 = 0 from nearest_int 0] at this
  exact_mod_cast this

/-- A positive number is rounded between the powers of two that enclose it. -/
theorem rnd_within {p : Nat} (hp : 1 ≤ p) {x : ℚ} (h : 0 < x) : (2 : ℚ) ^ Int.log 2 |x| ≤ rnd p x ∧ rnd p x ≤ 2 ^ (Int.log 2 |x| + 1) := by
  have hs := two_zpow_pos (scale p x)
  have h1 := pow_log_le h.ne'
  have h2 := lt_pow_log x
  have hx : |x| = x := abs_of_pos h
  have e1 : (2 : ℚ) ^ Int.log 2 |x| = ((2 ^ (p - 1) : ℤ) : ℚ) * 2 ^ scale p x := by
    push_cast
    rw [← zpow_natCast, ← zpow_add₀ (by norm_num)]
    congr 1
    unfold scale
    omega
  have e2 : (2 : ℚ) ^ (Int.log 2 |x| + 1) = ((2 ^ p : ℤ) : ℚ) * 2 ^ scale p x := by
    push_cast
    rw [← zpow_natCast, ← zpow_add₀ (by norm_num)]
    congr 1
    unfold scale
    omega
  have hd : rnd p x = nearest (x / 2 ^ scale p x) * 2 ^ scale p x := rfl
  rw [e1] at h1 ⊢
  rw [e2] at h2 ⊢
  rw [hd]
  rw [hx] at h1 h2
  constructor
  · apply mul_le_mul_of_nonneg_right _ hs.le
    have : nearest ((2 ^ (p - 1) : ℤ) : ℚ) ≤ nearest (x / 2 ^ scale p x) := nearest_mono ((le_div_iff₀ hs).2 h1)
    rw [nearest_int] at this
    exact_mod_cast this
  · apply mul_le_mul_of_nonneg_right _ hs.le
    have : nearest (x / 2 ^ scale p x) ≤ nearest ((2 ^ p : ℤ) : ℚ) := nearest_mono ((div_le_iff₀ hs).2 h2.le)
    rw [nearest_int] at this
    exact_mod_cast this

theorem rnd_mono_pos {p : Nat} (hp : 1 ≤ p) {x y : ℚ} (hx : 0 < x) (h : x ≤ y) : rnd p x ≤ rnd p y := by
  have hy : 0 < y := lt_of_lt_of_le hx h
  have hl : Int.log 2 |x| ≤ Int.log 2 |y| := by
    rw [abs_of_pos hx, abs_of_pos hy]
    exact Int.log_mono_right hx h
  rcases hl.lt_or_eq with hlt | he
  · calc rnd p x ≤ 2 ^ (Int.log 2 |x| + 1) := (rnd_within hp hx).2
      _ ≤ 2 ^ Int.log 2 |y| := zpow_le_zpow_right₀ (by norm_num) (by omega)
      _ ≤ rnd p y := (rnd_within hp hy).1
  · have hs : scale p x = scale p y := by unfold scale; rw [he]
    unfold rnd
    rw [hs]
    apply mul_le_mul_of_nonneg_right _ (two_zpow_pos _).le
    exact_mod_cast nearest_mono (div_le_div_of_nonneg_right h (two_zpow_pos _).le)

theorem rnd_mono {p : Nat} (hp : 1 ≤ p) {x y : ℚ} (h : x ≤ y) : rnd p x ≤ rnd p y := by
  rcases lt_or_ge 0 x with hx | hx
  · exact rnd_mono_pos hp hx h
  · rcases lt_or_ge y 0 with hy | hy
    · have := rnd_mono_pos hp (x := -y) (y := -x) (by linarith) (by linarith)
      rw [rnd_neg, rnd_neg] at this
      linarith
    · have h1 := rnd_nonneg (p := p) (x := -x) (by linarith)
      have h2 := rnd_nonneg (p := p) hy
      rw [rnd_neg] at h1
      linarith

theorem rnd_int {p : Nat} {n : ℤ} (h : |n| < 2 ^ p) : rnd p (n : ℚ) = n := rnd_exact n 0 (by simp) h

theorem toLong_id {n : ℤ} (h : |n| < 2 ^ 63) : toLong n = n := by
  have := abs_lt.1 h
  unfold toLong
  omega

theorem toLong_bound (n : ℤ) : |toLong n| ≤ 2 ^ 63 := by
  rw [abs_le]
  unfold toLong
  omega

theorem toLong_ne {n : ℤ} (h : n ≠ 0) : toLong n ≠ 0 := by
  unfold toLong
  omega

theorem ofLong_exact {n : ℤ} (h : |n| < 2 ^ 53) : ofLong n = n := by
  unfold ofLong
  rw [toLong_id (lt_trans h (by norm_num)), rnd_int h]

/-- With a numerator below 2^46 only the division is inexact. -/
theorem percent_eq {n d : ℤ} (hn : |n| < 2 ^ 46) (hd : |d| < 2 ^ 53) : percent n d = rnd 53 (100 * n / d) := by
  have h100 : rnd 53 (100 * (n : ℚ)) = 100 * n := by
    have : |100 * n| < 2 ^ 53 := by
      rw [abs_mul]
      norm_num at hn ⊢
      omega
    have h := rnd_int (p := 53) this
    push_cast at h
    exact h
  unfold percent
  rw [ofLong_exact (lt_trans hn (by norm_num)), ofLong_exact hd, h100]

theorem nearest_nonneg {x : ℚ} (h : 0 ≤ x) : 0 ≤ nearest x := by
  have := nearest_mono h
  rwa [show nearest 0 = 0 from nearest_int 0] at this

theorem rnd_pos {p : Nat} (hp : 1 ≤ p) {x : ℚ} (h : 0 < x) : 0 < rnd p x := lt_of_lt_of_le (two_zpow_pos _) (rnd_within hp h).1

theorem rnd_neg_iff {p : Nat} (hp : 1 ≤ p) {x : ℚ} : rnd p x < 0 ↔ x < 0 := by
  constructor
  · intro h
    by_contra hx
    exact absurd (rnd_nonneg (p := p) (not_lt.1 hx)) (not_le.2 h)
  · intro h
    have := rnd_pos hp (x := -x) (by linarith)
    rw [rnd_neg] at this
    linarith

theorem rnd_abs (p : Nat) (x : ℚ) : |rnd p x| = rnd p |x| := by
  rcases le_total 0 x with h | h
  · rw [abs_of_nonneg h, abs_of_nonneg (rnd_nonneg h)]
  · rw [abs_of_nonpos h, rnd_neg]
    have := rnd_nonneg (p := p) (x := -x) (by linarith)
    rw [rnd_neg] at this
    rw [abs_of_nonpos (by linarith)]

theorem rnd_le {p : Nat} (x : ℚ) : |rnd p x| ≤ |x| * (1 + 1 / 2 ^ p) := by
  have h := rnd_err (p := p) x
  have : |rnd p x| ≤ |rnd p x - x| + |x| := by
    have := abs_add_le (rnd p x - x) x
    rwa [sub_add_cancel] at this
  calc |rnd p x| ≤ |x| / 2 ^ p + |x| := by linarith
    _ = _ := by ring

end Ocr.Fp
