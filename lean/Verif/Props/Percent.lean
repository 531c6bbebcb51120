import Verif.Spec.Float
import Verif.Proof.Float
import Verif.Props.Reports

/-!
# C78: the percentages printed
-/

namespace Ocr.Fp
open Text

theorem digits_small {v : Nat} (h : v < 10) : decDigits v = [48 + v] := by
  rw [decDigits, if_pos h]

theorem frac_digits {v : Nat} (h : v < 100) : List.replicate (2 - (decDigits v).length) 48 ++ decDigits v = [48 + v / 10, 48 + v % 10] := by
  rcases Nat.lt_or_ge v 10 with h1 | h1
  · rw [digits_small h1]
    simp
    omega
  · rw [decDigits, if_neg (by omega), digits_small (by omega)]
    simp

/-- What is printed for any number. -/
theorem fmt_hundredths (w : Nat) (x : ℚ) : Hundredths w (decide (x < 0)) (nearest (|x| * 10 ^ 2)).toNat (fmtFixed w 2 x) := by
  unfold fmtFixed
  simp only
  generalize (nearest (|x| * 10 ^ 2)).toNat = r
  have hf := frac_digits (v := r % 100) (by omega)
  rw [show (10 : Nat) ^ 2 = 100 from rfl, List.append_assoc _ (List.replicate _ 48), hf]
  generalize hs : (if x < 0 then [45] else []) ++ decDigits (r / 100) ++ [46] ++ [48 + r % 100 / 10, 48 + r % 100 % 10] = s
  refine ⟨w - s.length, r / 100, r % 100 / 10, r % 100 % 10, ?_, by omega, by omega, by omega, ?_, ?_⟩
  · rw [← hs]
    simp
  · simp only [List.length_append, List.length_replicate]; omega
  · simp only [List.length_append, List.length_replicate]; omega

/-- What is printed determines the sign and the number of hundredths. -/
theorem hundredths_unique {w w' : Nat} {neg neg' : Bool} {h h' : Nat} {s : List Nat} (a : Hundredths w neg h s) (b : Hundredths w' neg' h' s) :
    neg = neg' ∧ h = h' := by
  obtain ⟨k, m, x, y, e, hx, hy, hh, _⟩ := a
  obtain ⟨k', m', x', y', e', hx', hy', hh', _⟩ := b
  rw [e] at e'
  have h2 := List.append_inj' e' rfl
  have hxy : x = x' ∧ y = y' := by simpa using h2.2
  have hdig : ∀ (m b : Nat), b ∈ decDigits m → b ≠ 32 ∧ b ≠ 45 := by
    intro m b hb
    have := Report.decDigits_digit m b hb
    constructor <;> (rintro rfl; exact absurd this (by decide))
  have hdrop : ∀ (k : Nat) (neg : Bool) (m : Nat), (List.replicate k 32 ++ (if neg then [45] else []) ++ decDigits m).dropWhile (· == 32) =
      (if neg then [45] else []) ++ decDigits m := by
    intro k neg m
    rw [List.append_assoc]
    induction k with
    | zero =>
      rw [List.replicate_zero, List.nil_append]
      cases neg with
      | true => rfl
      | false =>
        have hne : decDigits m ≠ [] := Report.decDigits_ne m
        simp only [Bool.false_eq_true, if_false, List.nil_append]
        cases hd : decDigits m with
        | nil => exact absurd hd hne
        | cons b l =>
          have := (hdig m b (by rw [hd]; simp)).1
          simp [this]
    | succ k ih => rw [List.replicate_succ, List.cons_append, List.dropWhile_cons_of_pos (by simp)]; exact ih
  have hn := (hdrop k neg m).symm.trans ((congrArg _ h2.1).trans (hdrop k' neg' m'))
  have key : neg = neg' ∧ decDigits m = decDigits m' := by
    cases neg <;> cases neg'
    · exact ⟨rfl, by simpa using hn⟩
    · simp only [Bool.false_eq_true, if_false, List.nil_append, if_true, List.cons_append] at hn
      exact absurd rfl (hdig m 45 (by rw [hn]; simp)).2
    · simp only [Bool.false_eq_true, if_false, List.nil_append, if_true, List.cons_append] at hn
      exact absurd rfl (hdig m' 45 (by rw [← hn]; simp)).2
    · exact ⟨rfl, by simpa using hn⟩
  have hm : m = m' := by rw [← Report.decVal_decDigits m, key.2, Report.decVal_decDigits]
  exact ⟨key.1, by omega⟩

/-- C78 (rounding).  For a numerator below 2^38 and a denominator below 2^53, the percentage printed is a nearest number of hundredths to
the exact quotient, although the quotient is computed in floating point first. -/
theorem c78_nearest (negative : Bool) (w : Nat) (n d : ℤ) (hn : |n| < 2 ^ 38) (h0 : 0 < d) (hd : d < 2 ^ 53) :
    ToHundredths w (100 * n / d) (pctText negative w n d) := by
  have e : percent n d = rnd 53 (100 * n / d) := percent_eq (lt_trans hn (by norm_num)) (by rw [abs_of_pos h0]; exact hd)
  have hdq : (0 : ℚ) < d := by exact_mod_cast h0
  refine ⟨(nearest (|percent n d| * 10 ^ 2)).toNat, ?_, ?_⟩
  · have := fmt_hundredths w (percent n d)
    unfold pctText
    rw [if_neg (by omega)]
    have hs : decide ((100 * n / d : ℚ) < 0) = decide (percent n d < 0) := by
      rw [decide_eq_decide, e, rnd_neg_iff (by norm_num)]
    rw [hs]
    exact this
  · rw [e, rnd_abs]
    have hx : |(100 * n / d : ℚ)| = 100 * |n| / d := by
      rw [abs_div, abs_mul, abs_of_pos hdq]
      norm_num
    have herr := rnd_err (p := 53) |(100 * n / d : ℚ)|
    rw [abs_abs, hx] at herr
    rw [hx]
    clear hx e
    have hN : 0 ≤ |n| := abs_nonneg n
    generalize |n| = N at hn herr hN ⊢
    have hNq : (0 : ℚ) ≤ N := by exact_mod_cast hN
    set y : ℚ := rnd 53 (100 * N / d) with hy
    have hy0 : 0 ≤ y := rnd_nonneg (div_nonneg (by positivity) hdq.le)
    have hr := nearest_err (y * 10 ^ 2)
    have hr0 : 0 ≤ nearest (y * 10 ^ 2) := nearest_nonneg (by positivity)
    generalize nearest (y * 10 ^ 2) = r at hr hr0
    obtain ⟨r, rfl⟩ := Int.eq_ofNat_of_zero_le hr0
    simp only [Int.toNat_natCast, Int.cast_natCast] at hr ⊢
    have hA : (10000 * N : ℤ) < 2 ^ 52 := by omega
    have hAq : (10000 * N : ℚ) < 2 ^ 52 := by exact_mod_cast hA
    -- the error of the quotient in hundredths is less than the distance of two numbers with the denominator `2 * d`
    have herr2 : |100 * y - 10000 * N / d| < 1 / (2 * d) := by
      have e1 : 100 * y - 10000 * N / d = 100 * (y - 100 * N / d) := by ring
      rw [e1, abs_mul, abs_of_pos (by norm_num : (0 : ℚ) < 100)]
      have e2 : (1 : ℚ) / (2 * d) = 2 ^ 52 / d / 2 ^ 53 := by field_simp
      have e3 : (100 : ℚ) * (100 * N / d / 2 ^ 53) = 10000 * N / d / 2 ^ 53 := by ring
      have e4 : (10000 * N / d / 2 ^ 53 : ℚ) < 2 ^ 52 / d / 2 ^ 53 :=
        div_lt_div_of_pos_right (div_lt_div_of_pos_right hAq hdq) (by norm_num)
      linarith [mul_le_mul_of_nonneg_left herr (by norm_num : (0 : ℚ) ≤ 100)]
    have e5 : (100 * (100 * N / d) : ℚ) = 10000 * N / d := by ring
    rw [e5]
    have hlt := abs_lt.1 herr2
    have hle := abs_le.1 hr
    rw [abs_le]
    constructor
    · by_contra hc
      have hc : (10000 * N / d : ℚ) < r - 1 / 2 := by linarith
      have h1 : ((2 * (10000 * N) : ℤ) : ℚ) < ((2 * r - 1) * d : ℤ) := by
        rw [div_lt_iff₀ hdq] at hc
        push_cast
        linarith
      have h2 : 2 * (10000 * N) + 1 ≤ (2 * (r : ℤ) - 1) * d := by exact_mod_cast h1
      have h3 : ((2 * (10000 * N) + 1 : ℤ) : ℚ) ≤ (((2 * r - 1) * d : ℤ) : ℚ) := by exact_mod_cast h2
      push_cast at h3
      have h4 : (10000 * N / d : ℚ) + 1 / (2 * d) ≤ r - 1 / 2 := by
        have : (10000 * N / d : ℚ) + 1 / (2 * d) = (2 * (10000 * N) + 1) / (2 * d) := by field_simp
        rw [this, div_le_iff₀ (by linarith)]
        linarith
      linarith [hlt.2, hle.2]
    · by_contra hc
      have hc : (r + 1 / 2 : ℚ) < 10000 * N / d := by linarith
      have h1 : (((2 * r + 1) * d : ℤ) : ℚ) < ((2 * (10000 * N) : ℤ) : ℚ) := by
        rw [lt_div_iff₀ hdq] at hc
        push_cast
        linarith
      have h2 : (2 * (r : ℤ) + 1) * d + 1 ≤ 2 * (10000 * N) := by exact_mod_cast h1
      have h3 : (((2 * r + 1) * d + 1 : ℤ) : ℚ) ≤ ((2 * (10000 * N) : ℤ) : ℚ) := by exact_mod_cast h2
      push_cast at h3
      have h4 : (r + 1 / 2 : ℚ) + 1 / (2 * d) ≤ 10000 * N / d := by
        have : (r + 1 / 2 : ℚ) + 1 / (2 * d) = ((2 * r + 1) * d + 1) / (2 * d) := by field_simp
        rw [this, div_le_div_iff₀ (by linarith) hdq]
        have := mul_le_mul_of_nonneg_right h3 hdq.le
        linarith
      linarith [hlt.1, hle.1]

theorem ofLong_range {n : ℤ} (h : n ≠ 0) : 1 ≤ |ofLong n| ∧ |ofLong n| ≤ 2 ^ 63 := by
  unfold ofLong
  rw [rnd_abs]
  have h1 : (1 : ℚ) ≤ |((toLong n : ℤ) : ℚ)| := by
    have := Int.one_le_abs (toLong_ne h)
    exact_mod_cast this
  have h2 : |((toLong n : ℤ) : ℚ)| ≤ 2 ^ 63 := by
    have := toLong_bound n
    exact_mod_cast this
  have e1 : rnd 53 (1 : ℚ) = 1 := rnd_exact 1 0 (by norm_num) (by norm_num)
  have e2 : rnd 53 ((2 : ℚ) ^ 63) = 2 ^ 63 := rnd_exact 1 63 (by norm_num) (by norm_num)
  have a := rnd_mono (p := 53) (by norm_num) h1
  have b := rnd_mono (p := 53) (by norm_num) h2
  rw [e1] at a
  rw [e2] at b
  exact ⟨a, b⟩

theorem ofLong_zero : ofLong 0 = 0 := by
  unfold ofLong
  rw [show toLong 0 = 0 by unfold toLong; omega]
  exact rnd_zero 53

theorem product_range {n : ℤ} (h : n ≠ 0) : 100 ≤ |rnd 53 (100 * ofLong n)| ∧ |rnd 53 (100 * ofLong n)| ≤ 100 * 2 ^ 63 := by
  obtain ⟨h1, h2⟩ := ofLong_range h
  rw [rnd_abs, abs_mul, abs_of_pos (by norm_num : (0 : ℚ) < 100)]
  have e1 : rnd 53 (100 : ℚ) = 100 := rnd_exact 100 0 (by norm_num) (by norm_num)
  have e2 : rnd 53 (100 * 2 ^ 63 : ℚ) = 100 * 2 ^ 63 := rnd_exact 100 63 (by norm_num) (by norm_num)
  have a := rnd_mono (p := 53) (by norm_num) (show (100 : ℚ) ≤ 100 * |ofLong n| by linarith)
  have b := rnd_mono (p := 53) (by norm_num) (show (100 : ℚ) * |ofLong n| ≤ 100 * 2 ^ 63 by linarith)
  rw [e1] at a
  rw [e2] at b
  exact ⟨a, b⟩

theorem percent_range {n d : ℤ} (h : n ≠ 0) (hd : d ≠ 0) : (2 : ℚ) ^ (-57 : ℤ) ≤ |percent n d| ∧ |percent n d| ≤ 100 * 2 ^ 63 := by
  obtain ⟨a, b⟩ := product_range h
  obtain ⟨a', b'⟩ := ofLong_range hd
  have h0 : 0 < |ofLong d| := by linarith
  unfold percent
  rw [rnd_abs, abs_div]
  have e1 : rnd 53 ((2 : ℚ) ^ (-57 : ℤ)) = 2 ^ (-57 : ℤ) := rnd_exact 1 (-57) (by norm_num) (by norm_num)
  have e2 : rnd 53 (100 * 2 ^ 63 : ℚ) = 100 * 2 ^ 63 := rnd_exact 100 63 (by norm_num) (by norm_num)
  have l1 : (2 : ℚ) ^ (-57 : ℤ) ≤ |rnd 53 (100 * ofLong n)| / |ofLong d| := by
    rw [le_div_iff₀ h0]
    have : (2 : ℚ) ^ (-57 : ℤ) * |ofLong d| ≤ 2 ^ (-57 : ℤ) * 2 ^ 63 := mul_le_mul_of_nonneg_left b' (two_zpow_pos _).le
    have e : (2 : ℚ) ^ (-57 : ℤ) * 2 ^ 63 = 64 := by norm_num
    linarith
  have l2 : |rnd 53 (100 * ofLong n)| / |ofLong d| ≤ 100 * 2 ^ 63 := by
    rw [div_le_iff₀ h0]
    have := mul_le_mul_of_nonneg_left a' (show (0 : ℚ) ≤ 100 * 2 ^ 63 by norm_num)
    linarith
  have l1 := rnd_mono (p := 53) (by norm_num) l1
  have l2 := rnd_mono (p := 53) (by norm_num) l2
  rw [e1] at l1
  rw [e2] at l2
  exact ⟨l1, l2⟩

/-- C78 (range).  Every value computed for a percentage is zero or of a size from 2^-57 to 2^70: the format `double` neither overflows nor
loses precision in small numbers. -/
theorem c78_range (n d : ℤ) (hd : d ≠ 0) : ∀ x ∈ [ofLong n, ofLong d, rnd 53 (100 * ofLong n), percent n d],
    x = 0 ∨ ((2 : ℚ) ^ (-57 : ℤ) ≤ |x| ∧ |x| ≤ 2 ^ 70) := by
  have small : (2 : ℚ) ^ (-57 : ℤ) ≤ 1 := by norm_num
  have big : (100 : ℚ) * 2 ^ 63 ≤ 2 ^ 70 := by norm_num
  have big' : (2 : ℚ) ^ 63 ≤ 2 ^ 70 := by norm_num
  intro x hx
  simp only [List.mem_cons, List.not_mem_nil, or_false] at hx
  rcases eq_or_ne n 0 with rfl | hn
  · have hz : percent 0 d = 0 := by unfold percent; rw [ofLong_zero, mul_zero, rnd_zero, zero_div, rnd_zero]
    rcases hx with rfl | rfl | rfl | rfl
    · exact .inl ofLong_zero
    · obtain ⟨a, b⟩ := ofLong_range hd
      exact .inr ⟨by linarith, by linarith⟩
    · left
      rw [ofLong_zero, mul_zero, rnd_zero]
    · exact .inl hz
  · right
    rcases hx with rfl | rfl | rfl | rfl
    · obtain ⟨a, b⟩ := ofLong_range hn
      exact ⟨by linarith, by linarith⟩
    · obtain ⟨a, b⟩ := ofLong_range hd
      exact ⟨by linarith, by linarith⟩
    · obtain ⟨a, b⟩ := product_range hn
      exact ⟨by linarith, by linarith⟩
    · obtain ⟨a, b⟩ := percent_range hn hd
      exact ⟨by linarith, by linarith⟩

theorem hundredths_len {w : Nat} {neg : Bool} {h : Nat} {s : List Nat} (e : Hundredths w neg h s) (k : Nat) (hk : h < 100 * 10 ^ (k + 1)) :
    s.length ≤ max w (k + 5) := by
  obtain ⟨j, a, b, c, hs, hb, hc, hh, hw, hj⟩ := e
  rcases hj with rfl | hj
  · have := Report.decDigits_len k a (by omega)
    rw [hs]
    simp only [List.length_append, List.length_replicate, List.length_cons, List.length_nil]
    have : (if neg = true then [45] else ([] : List Nat)).length ≤ 1 := by split <;> simp
    omega
  · omega

theorem hundredths_width {h : Nat} {s : List Nat} (e : Hundredths 8 false h s) (hh : h < 100000) : s.length = 8 := by
  obtain ⟨j, a, b, c, hs, hb, hc, hh', hw, hj⟩ := e
  rcases hj with rfl | hj
  · have := Report.decDigits_len 2 a (by omega)
    rw [hs] at hw ⊢
    simp only [List.length_append, List.length_replicate, List.length_cons, List.length_nil, Bool.false_eq_true, if_false] at hw ⊢
    omega
  · omega

theorem hundredths_plain {w : Nat} {neg : Bool} {h : Nat} {s : List Nat} (e : Hundredths w neg h s) : ∀ b ∈ s, b ≠ 10 ∧ b ≠ 0 := by
  obtain ⟨j, a, x, y, rfl, hx, hy, _⟩ := e
  intro b hb
  simp only [List.mem_append, List.mem_cons, List.not_mem_nil, or_false] at hb
  rcases hb with ((hb | hb) | hb) | hb
  · have := (List.mem_replicate.1 hb).2
    omega
  · split at hb
    · simp at hb; omega
    · cases hb
  · have := Report.decDigits_digit a b hb
    constructor <;> (rintro rfl; exact absurd this (by decide))
  · omega

theorem nearest_le {x : ℚ} {k : ℤ} (h : x ≤ k) : nearest x ≤ k := by
  have := nearest_mono h
  rwa [nearest_int] at this

theorem special_plain (s : List Nat) (hs : s = ascii "inf" ∨ s = ascii "-inf" ∨ s = ascii "-nan" ∨ s = ascii "nan") :
    (∀ b ∈ List.replicate (8 - s.length) 32 ++ s, b ≠ 10 ∧ b ≠ 0) ∧ (List.replicate (8 - s.length) 32 ++ s).length ≤ 40 := by
  rcases hs with rfl | rfl | rfl | rfl <;> decide +kernel

/-- C78 (format).  The percentages printed with `%8.2f` meet what the other properties about reports assume. -/
theorem c78_format (negative : Bool) : Acc.PctFormat (pctText negative 8) := by
  have special : ∀ n : ℤ, ∃ s, (s = ascii "inf" ∨ s = ascii "-inf" ∨ s = ascii "-nan" ∨ s = ascii "nan") ∧
      pctText negative 8 n 0 = List.replicate (8 - s.length) 32 ++ s := by
    intro n
    unfold pctText
    rw [if_pos rfl]
    refine ⟨_, ?_, rfl⟩
    split
    · simp
    · split
      · simp
      · split <;> simp
  refine ⟨?_, ?_, ?_⟩
  · intro n d
    rcases eq_or_ne d 0 with rfl | hd
    · obtain ⟨s, hs, e⟩ := special n
      rw [e]
      exact (special_plain s hs).1
    · unfold pctText
      rw [if_neg hd]
      exact hundredths_plain (fmt_hundredths 8 _)
  · intro n d
    rcases eq_or_ne d 0 with rfl | hd
    · obtain ⟨s, hs, e⟩ := special n
      rw [e]
      exact (special_plain s hs).2
    · unfold pctText
      rw [if_neg hd]
      have hr : |percent n d| ≤ 100 * 2 ^ 63 := by
        rcases eq_or_ne n 0 with rfl | hn
        · unfold percent
          rw [ofLong_zero, mul_zero, rnd_zero, zero_div, rnd_zero]
          norm_num
        · exact (percent_range hn hd).2
      have hk : nearest (|percent n d| * 10 ^ 2) ≤ 10000 * 2 ^ 63 := nearest_le (by push_cast; linarith)
      have := hundredths_len (fmt_hundredths 8 (percent n d)) 21 (by omega)
      omega
  · intro n d h0 h1 h2
    have hd : d ≠ 0 := by omega
    unfold pctText
    rw [if_neg hd]
    have hp : 0 ≤ percent n d ∧ percent n d ≤ 101 := by
      have m1 : (0 : ℚ) ≤ ofLong n := by
        unfold ofLong
        apply rnd_nonneg
        have : 0 ≤ toLong n := by unfold toLong; omega
        exact_mod_cast this
      have m2 : ofLong n ≤ ofLong d := by
        unfold ofLong
        apply rnd_mono (by norm_num)
        have : toLong n ≤ toLong d := by unfold toLong; omega
        exact_mod_cast this
      have m3 : (1 : ℚ) ≤ ofLong d := by
        have := (ofLong_range hd).1
        rwa [abs_of_nonneg (by linarith)] at this
      have m4 : rnd 53 (100 * ofLong n) ≤ 101 * ofLong d := by
        have h := rnd_le (p := 53) (100 * ofLong n)
        rw [abs_of_nonneg (rnd_nonneg (by linarith)), abs_of_nonneg (by linarith)] at h
        have e : (1 : ℚ) + 1 / 2 ^ 53 ≤ 101 / 100 := by norm_num
        have := mul_le_mul_of_nonneg_left e (show (0 : ℚ) ≤ 100 * ofLong n by linarith)
        linarith
      unfold percent
      constructor
      · exact rnd_nonneg (div_nonneg (rnd_nonneg (by linarith)) (by linarith))
      · have e1 : rnd 53 (101 : ℚ) = 101 := rnd_exact 101 0 (by norm_num) (by norm_num)
        rw [← e1]
        apply rnd_mono (by norm_num)
        rw [div_le_iff₀ (by linarith)]
        exact m4
    have hf := fmt_hundredths 8 (percent n d)
    rw [show decide (percent n d < 0) = false by simpa using hp.1] at hf
    apply hundredths_width hf
    have : nearest (|percent n d| * 10 ^ 2) ≤ 10100 := nearest_le (by rw [abs_of_nonneg hp.1]; push_cast; linarith)
    omega

/-- C78 (order).  A greater quotient is never printed as a smaller percentage. -/
theorem c78_monotone (negative : Bool) (w : Nat) (n d n' d' : ℤ) (h0 : 0 ≤ n) (hn : n < 2 ^ 46) (hd : 0 < d) (hd2 : d < 2 ^ 53)
    (hn' : n' < 2 ^ 46) (hd' : 0 < d') (hd2' : d' < 2 ^ 53) (h : n * d' ≤ n' * d) :
    ∃ x y, Hundredths w false x (pctText negative w n d) ∧ Hundredths w false y (pctText negative w n' d') ∧ x ≤ y := by
  have h0' : 0 ≤ n' := by
    by_contra hc
    have h1 : n' * d < 0 := mul_neg_of_neg_of_pos (not_le.1 hc) hd
    have h2 : 0 ≤ n * d' := mul_nonneg h0 hd'.le
    omega
  have q1 : (0 : ℚ) < d := by exact_mod_cast hd
  have q2 : (0 : ℚ) < d' := by exact_mod_cast hd'
  have q3 : (0 : ℚ) ≤ n := by exact_mod_cast h0
  have q4 : (0 : ℚ) ≤ n' := by exact_mod_cast h0'
  have e := percent_eq (n := n) (d := d) (by rw [abs_of_nonneg h0]; exact hn) (by rw [abs_of_pos hd]; exact hd2)
  have e' := percent_eq (n := n') (d := d') (by rw [abs_of_nonneg h0']; exact hn') (by rw [abs_of_pos hd']; exact hd2')
  have p1 : 0 ≤ percent n d := by rw [e]; exact rnd_nonneg (div_nonneg (by linarith) q1.le)
  have p2 : percent n d ≤ percent n' d' := by
    rw [e, e']
    apply rnd_mono (by norm_num)
    rw [div_le_div_iff₀ q1 q2]
    have : ((n * d' : ℤ) : ℚ) ≤ ((n' * d : ℤ) : ℚ) := by exact_mod_cast h
    push_cast at this
    linarith
  have f1 := fmt_hundredths w (percent n d)
  have f2 := fmt_hundredths w (percent n' d')
  rw [show decide (percent n d < 0) = false by simpa using p1] at f1
  rw [show decide (percent n' d' < 0) = false by simpa using p1.trans p2] at f2
  refine ⟨_, _, by unfold pctText; rw [if_neg (by omega)]; exact f1, by unfold pctText; rw [if_neg (by omega)]; exact f2, ?_⟩
  apply Int.toNat_le_toNat
  apply nearest_mono
  rw [abs_of_nonneg p1, abs_of_nonneg (p1.trans p2)]
  linarith

/-- C78 (hundred percent).  100.00 is printed for a part of the whole if less than one in 20000 is missing, and only if at most one in 20000
is. -/
theorem c78_full (negative : Bool) (w : Nat) (n d : ℤ) (h0 : 0 ≤ n) (hn : n < 2 ^ 38) (hnd : n ≤ d) (hd : 0 < d) (hd2 : d < 2 ^ 53) :
    (20000 * (d - n) < d → Hundredths w false 10000 (pctText negative w n d)) ∧
    (Hundredths w false 10000 (pctText negative w n d) → 20000 * (d - n) ≤ d) := by
  obtain ⟨h, hh, hx⟩ := c78_nearest negative w n d (by rw [abs_of_nonneg h0]; exact hn) hd hd2
  have q1 : (0 : ℚ) < d := by exact_mod_cast hd
  have q3 : (0 : ℚ) ≤ n := by exact_mod_cast h0
  have q4 : (0 : ℚ) ≤ 100 * n / d := div_nonneg (by linarith) q1.le
  rw [show decide ((100 * n / d : ℚ) < 0) = false by simpa using q4] at hh
  rw [abs_of_nonneg q4] at hx
  have e5 : (100 * (100 * n / d) : ℚ) = 10000 * n / d := by ring
  rw [e5, abs_le] at hx
  have up : (10000 * n : ℚ) ≤ (h + 1 / 2) * d := by
    have : (10000 * n / d : ℚ) ≤ h + 1 / 2 := by linarith
    rwa [div_le_iff₀ q1] at this
  have low : ((h : ℚ) - 1 / 2) * d ≤ 10000 * n := by
    have : (h : ℚ) - 1 / 2 ≤ 10000 * n / d := by linarith
    rwa [le_div_iff₀ q1] at this
  have up' : 20000 * n ≤ (2 * (h : ℤ) + 1) * d := by
    have : ((20000 * n : ℤ) : ℚ) ≤ (((2 * h + 1) * d : ℤ) : ℚ) := by push_cast; linarith
    exact_mod_cast this
  have low' : (2 * (h : ℤ) - 1) * d ≤ 20000 * n := by
    have : (((2 * h - 1) * d : ℤ) : ℚ) ≤ ((20000 * n : ℤ) : ℚ) := by push_cast; linarith
    exact_mod_cast this
  constructor
  · intro hlt
    have l1 : (19999 : ℤ) < 2 * (h : ℤ) + 1 := by
      by_contra hc
      have := mul_le_mul_of_nonneg_right (not_lt.1 hc) hd.le
      omega
    have l2 : 2 * (h : ℤ) - 1 ≤ 20000 := by
      by_contra hc
      have := mul_le_mul_of_nonneg_right (show (20001 : ℤ) ≤ 2 * (h : ℤ) - 1 by omega) hd.le
      omega
    rwa [show h = 10000 by omega] at hh
  · intro h2
    have := (hundredths_unique hh h2).2
    subst this
    push_cast at low'
    omega

end Ocr.Fp

namespace Ocr.Prog
open Text Res Spec

theorem accuracyText_head (U : Unicode) (pct : Int → Int → List Nat) (D : Acc.Accdata) (confs : List Conf) (chars : List Nat) :
    ∃ rest, accuracyText U pct D confs chars =
      ascii "ocreval Accuracy Report Version 7.0\n-----------------------------------\n" ++
        row [num D.characters] (ascii "Characters") ++ row [num D.errors] (ascii "Errors") ++
        share pct (D.characters - D.errors) D.characters ++ ascii "%  Accuracy\n\n" ++ rest := by
  have et : ascii "ocreval Accuracy Report Version 7.0\n-----------------------------------\n" =
      ascii "ocreval Accuracy Report Version 7.0\n" ++ ascii "-----------------------------------\n" := by decide +kernel
  unfold accuracyText
  rw [et]
  simp only [List.append_assoc]
  exact ⟨_, rfl⟩

/-- C78 (the report).  The accuracy printed in a report of `accuracy` about a correct text without reject characters is
`100 * (n - d) / n`, to the nearest hundredth, where `n` is the length of the correct text and `d` the edit distance. -/
theorem c78_accuracy (U : Unicode) (F : UnicodeFacts U) (negative : Bool) (p : List Ch × List Ch) (report : List Nat)
    (h : AccuracyReport U (Fp.pctText negative 8) p report) (hlast : ∀ c ∈ p.1, c.value ≠ 0x10FFFF)
    (hl : p.1.length + p.2.length < 10^8) (hne : p.1 ≠ []) (hrej : ∀ c ∈ p.1, c.value ≠ REJECT_CHARACTER) :
    ∃ (d : Nat) (s rest : List Nat), IsEditDistance (p.1.map Ch.value) (p.2.map Ch.value) d ∧
      report = ascii "ocreval Accuracy Report Version 7.0\n-----------------------------------\n" ++
        row [num p.1.length] (ascii "Characters") ++ row [num d] (ascii "Errors") ++ s ++ ascii "%  Accuracy\n\n" ++ rest ∧
      Fp.ToHundredths 8 (100 * ((p.1.length : ℤ) - (d : ℤ) : ℤ) / (p.1.length : ℤ)) s := by
  obtain ⟨i0, i1, D, e1, hR, e2⟩ := accuracy_bytes F (Fp.c78_format negative) h hlast hl
  obtain ⟨D1, e1', hC, _, hE⟩ := Acc.accuracy_data F i0 i1 hl
  have : D1 = D := by rw [e1] at e1'; exact (Res.ok.inj e1').symm
  subst this
  obtain ⟨confs, chars, c1, c2, c3, c4, c5⟩ := Acc.layout (pct := Fp.pctText negative 8) F D1 hR.nodup
    (fun c hc => by
      obtain ⟨s, e, _, h0, _⟩ := hR.conf_keys c hc
      rw [e]
      intro b hb hz
      subst hz
      simp at hb
      exact h0 hb)
    (fun c hc => by have := hR.confs c hc; omega)
    (fun i _ hi => by
      rw [hC.large] at hi
      obtain ⟨v, _, hv⟩ := List.countP_pos_iff.1 (by omega : 0 < (Acc.nonreject p.1).countP (fun v => Charclass.charclass v = .ok i))
      exact Charclass.charclass_lt (of_decide_eq_true hv))
  rw [e2] at c5
  obtain ⟨d, hd, hdist⟩ := hE hrej
  have hch : D1.characters = p.1.length := by
    rw [hC.characters]
    unfold Acc.nonreject
    rw [List.filter_eq_self.2]
    · simp
    · intro v hv
      obtain ⟨c, hc, rfl⟩ := List.mem_map.1 hv
      simpa using hrej c hc
  have hpos : 0 < p.1.length := List.length_pos_iff.2 hne
  have hle : d ≤ p.1.length + p.2.length := by
    have h1 := hdist.2 _ (edits_lev (p.1.map Ch.value) (p.2.map Ch.value))
    have h2 := lev_le_max (p.1.map Ch.value) (p.2.map Ch.value)
    simp only [List.length_map] at h2
    omega
  have es : share (Fp.pctText negative 8) (D1.characters - D1.errors) D1.characters =
      Fp.pctText negative 8 (p.1.length - d) p.1.length := by
    unfold share
    rw [if_neg (by omega), hch, hd]
  obtain ⟨rest, hrest⟩ := accuracyText_head U (Fp.pctText negative 8) D1 confs chars
  refine ⟨d, Fp.pctText negative 8 (p.1.length - d) p.1.length, rest, hdist, ?_, ?_⟩
  · rw [Res.ok.inj c5, hrest, es, hch, hd]
  · exact Fp.c78_nearest negative 8 _ _ (by rw [abs_lt]; constructor <;> omega) (by omega) (by omega)

/-! ## Non-vacuity -/

/-- Two thirds, a negative accuracy, a very small negative one. -/
example : Fp.pctText true 8 2 3 = ascii "   66.67" ∧ Fp.pctText true 8 (-3) 2 = ascii " -150.00" ∧
    Fp.pctText true 6 (-1) 1000000 = ascii " -0.00" ∧ Fp.pctText true 8 0 0 = ascii "    -nan" := by decide +kernel

/-- One error in 100000 characters is printed as 100 percent, one in 10000 is not. -/
example : Fp.pctText true 8 99999 100000 = ascii "  100.00" ∧ Fp.pctText true 8 9999 10000 = ascii "   99.99" := by decide +kernel

/-- A tie: 0.125 percent is exactly half way and the even digit is taken; 0.145 percent is not a double, and is printed as 0.14 or 0.15
according to the nearest double. -/
example : Fp.pctText true 8 1 800 = ascii "    0.12" ∧ Fp.pctText true 8 29 20000 = ascii "    0.14" := by decide +kernel

/-- Seven bits: 257 is rounded to 256, 259 to 260. -/
example : Fp.rnd 7 257 = 256 ∧ Fp.rnd 7 259 = 260 ∧ Fp.rnd 24 (2 ^ 24 + 1) = 2 ^ 24 := by decide +kernel

/-- The report about the sample page of 23 characters. -/
example : ∃ (report : List Nat) (d : Nat) (s rest : List Nat), IsEditDistance (sampleText0.map Ch.value) (sampleText1.map Ch.value) d ∧
    report = ascii "ocreval Accuracy Report Version 7.0\n-----------------------------------\n" ++
      row [num 23] (ascii "Characters") ++ row [num d] (ascii "Errors") ++ s ++ ascii "%  Accuracy\n\n" ++ rest ∧
    Fp.ToHundredths 8 (100 * ((23 : ℤ) - (d : ℤ) : ℤ) / (23 : ℤ)) s := by
  obtain ⟨R, _, hR, _⟩ := c58_accuracy sampleUnicode sampleFacts (Fp.pctText true 8) (Fp.c78_format true) [] sampleFs (ascii "accuracy")
    _ _ _ _ _ (sample_line [] "accuracy" (by decide +kernel)) (by simp) _ _ (by decide +kernel) (by decide +kernel) _ _ not_headed_a sample_a
    (.inl ⟨not_headed_b, sample_b⟩) (by decide +kernel) (by decide +kernel)
  have run : AccuracyReport sampleUnicode (Fp.pctText true 8) (sampleText0, sampleText1) R :=
    ⟨[], _, _, _, _, _, sample_compares [] "accuracy" (by decide +kernel), hR⟩
  have h23 : sampleText0.length = 23 := by decide +kernel
  obtain ⟨d, s, rest, h1, h2, h3⟩ := c78_accuracy _ sampleFacts true _ R run (by decide +kernel) (by decide +kernel) (by decide +kernel)
    (by decide +kernel)
  simp only [h23] at h2 h3
  exact ⟨R, d, s, rest, h1, h2, h3⟩

end Ocr.Prog
