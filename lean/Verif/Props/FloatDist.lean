import Verif.Model.FloatPrograms
import Verif.Props.Percent
import Verif.Props.Endings

/-!
# C79: the distributions of accuracies, computed in floating point
-/

namespace Ocr.Dist
open Text Res

/-- A quotient of numbers below 2^46 and an integer up to 101 are in the same order after rounding. -/
theorem percent_ge {n d : ℤ} (hn : |n| < 2 ^ 46) (hd : |d| < 2 ^ 46) (h0 : d ≠ 0) {i : Nat} (hi : i ≤ 101) :
    (i : ℚ) ≤ Fp.percent n d ↔ (i : ℚ) ≤ 100 * n / d := by
  rw [Fp.percent_eq hn (lt_trans hd (by norm_num))]
  have ei : Fp.rnd 53 (i : ℚ) = i := by
    have : |(i : ℤ)| < 2 ^ 53 := by rw [abs_of_nonneg (by omega)]; omega
    have := Fp.rnd_int (p := 53) this
    exact_mod_cast this
  constructor
  · intro h
    by_contra hc
    have hlt : (100 * n / d : ℚ) < i := not_le.1 hc
    rcases le_or_gt (100 * n / d : ℚ) 0 with hx | hx
    · have h2 := Fp.rnd_mono (p := 53) (by norm_num) hx
      rw [Fp.rnd_zero] at h2
      have hi0 : (i : ℚ) = 0 := le_antisymm (by linarith) (by positivity)
      rw [hi0] at hlt h
      exact absurd h (not_le.2 ((Fp.rnd_neg_iff (by norm_num)).2 hlt))
    · have herr := Fp.rnd_err (p := 53) (100 * n / d : ℚ)
      rw [abs_of_pos hx] at herr
      have hi' : (i : ℚ) ≤ 101 := by exact_mod_cast hi
      -- the distance of two numbers with the denominator `d`
      have hD : (0 : ℚ) < |d| := by exact_mod_cast abs_pos.2 h0
      have gap : (100 * n / d : ℚ) + 1 / |d| ≤ i := by
        rcases lt_or_gt_of_ne h0 with hneg | hpos
        · have hq : (d : ℚ) < 0 := by exact_mod_cast hneg
          have e : ((|d| : ℤ) : ℚ) = -d := by rw [abs_of_neg hneg]; push_cast; rfl
          rw [div_lt_iff_of_neg hq] at hlt
          have : ((i * d : ℤ) : ℚ) < ((100 * n : ℤ) : ℚ) := by push_cast; exact hlt
          have : i * d + 1 ≤ 100 * n := by exact_mod_cast this
          have : ((i * d + 1 : ℤ) : ℚ) ≤ ((100 * n : ℤ) : ℚ) := by exact_mod_cast this
          push_cast at this
          have e2 : (100 * n / d : ℚ) + 1 / |d| = (100 * n - 1) / d := by rw [e]; field_simp; ring
          rw [e2, div_le_iff_of_neg hq]
          linarith
        · have hq : (0 : ℚ) < d := by exact_mod_cast hpos
          have e : ((|d| : ℤ) : ℚ) = d := by rw [abs_of_pos hpos]
          rw [div_lt_iff₀ hq] at hlt
          have : ((100 * n : ℤ) : ℚ) < ((i * d : ℤ) : ℚ) := by push_cast; exact hlt
          have : 100 * n + 1 ≤ i * d := by exact_mod_cast this
          have : ((100 * n + 1 : ℤ) : ℚ) ≤ ((i * d : ℤ) : ℚ) := by exact_mod_cast this
          push_cast at this
          have e2 : (100 * n / d : ℚ) + 1 / |d| = (100 * n + 1) / d := by rw [e]; field_simp
          rw [e2, div_le_iff₀ hq]
          linarith
      have small : (100 * n / d : ℚ) / 2 ^ 53 < 1 / |d| := by
        rw [lt_div_iff₀ hD]
        have hdq : ((|d| : ℤ) : ℚ) < 2 ^ 46 := by exact_mod_cast hd
        have h1 : (100 * n / d : ℚ) / 2 ^ 53 ≤ 101 / 2 ^ 53 := div_le_div_of_nonneg_right (by linarith) (by norm_num)
        have h2 : (100 * n / d : ℚ) / 2 ^ 53 * |d| ≤ 101 / 2 ^ 53 * |d| := mul_le_mul_of_nonneg_right h1 hD.le
        have h3 : (101 / 2 ^ 53 : ℚ) * |d| < 101 / 2 ^ 53 * 2 ^ 46 := mul_lt_mul_of_pos_left hdq (by norm_num)
        have h4 : (101 / 2 ^ 53 : ℚ) * 2 ^ 46 < 1 := by norm_num
        linarith
      have := abs_le.1 herr
      linarith
  · intro h
    have := Fp.rnd_mono (p := 53) (by norm_num) h
    rwa [ei] at this

theorem updateLoop_congr {x y : ℚ} (count : Int) (h : ∀ i : Nat, i ≤ 101 → ((i : ℚ) ≤ x ↔ (i : ℚ) ≤ y)) :
    ∀ (fuel i : Nat) (a : Nat → Int), i ≤ 101 → updateLoop x count fuel i a = updateLoop y count fuel i a := by
  intro fuel
  induction fuel with
  | zero => intro i a _; rfl
  | succ fuel ih =>
    intro i a hi
    unfold updateLoop
    simp only [ge_iff_le]
    by_cases hx : (i : ℚ) ≤ x
    · rw [if_pos hx, if_pos ((h i hi).1 hx)]
      by_cases h1 : i < 101
      · rw [if_pos h1, if_pos h1, ih (i + 1) _ (by omega)]
      · rw [if_neg h1, if_neg h1]
    · rw [if_neg hx, if_neg (fun hy => hx ((h i hi).2 hy))]

/-- C79 (one file).  For figures below 2^46, the accuracy computed in floating point is compared with the integers from 0 to 101 with the same
result as the exact quotient. -/
theorem c79_update (dist : Dist) (count missed : Int) (h1 : |count| < 2 ^ 46) (h2 : |count - missed| < 2 ^ 46) :
    update_distF dist count missed = update_dist dist count missed := by
  unfold update_distF update_dist
  by_cases h0 : count = 0
  · rw [if_pos h0, if_pos h0]
  · rw [if_neg h0, if_neg h0]
    simp only
    rw [updateLoop_congr count (fun i hi => percent_ge h2 h1 h0 hi) 102 0 dist.count (by omega)]

end Ocr.Dist

namespace Ocr.Ending
open Text Res Prog Spec AnyReport

theorem forFiles_congr {α : Type} {fs : Fs} {step step' : α → List Nat → Res α}
    (h : ∀ name file, fs name = some file → ∀ a, step a file = step' a file) : ∀ (names : List (List Nat)) (a : α),
    forFiles fs step names a = forFiles fs step' names a
  | [], _ => rfl
  | name :: names, a => by
    unfold forFiles open_file
    cases hf : fs name with
    | none => rfl
    | some file =>
      simp only [bind_ok]
      rw [h name file hf a]
      cases step' a file with
      | ok a' => simp only [bind_ok]; exact forFiles_congr h names a'
      | err | ub | fuel => rfl

/-- C79 (accdist).  If the figures in all the reports are below 2^46, accdist writes what it would write with exact arithmetic. -/
theorem c79_accdist (negative : Bool) (fs : Fs) (hfs : ∀ name file, fs name = some file → Bytes file)
    (h : ∀ name file o, fs name = some file → ReadsAccuracy file o → |o.1| < 2 ^ 46 ∧ |o.1 - o.2| < 2 ^ 46) (argv : List (List Nat)) :
    accdistProgramF negative fs argv = accdistProgram (Fp.pctText negative 6) fs argv := by
  have step : ∀ name file, fs name = some file → ∀ a, accdistFileF a file = accdistFile a file := by
    intro name file hf a
    have hb := hfs name file hf
    unfold accdistFileF accdistFile
    simp only
    by_cases hr : ∃ o, ReadsAccuracy file o
    · obtain ⟨o, ho⟩ := hr
      obtain ⟨p, vs, E, e, hA, hc, hm⟩ := accuracy_reads a.1 file hb o ho
      obtain ⟨b1, b2⟩ := h name file o hf ho
      simp only [e, bind_ok, hA.characters, hA.errors, hc, hm]
      rw [show a.1.characters + o.1 - a.1.characters = o.1 by omega, show a.1.errors + o.2 - a.1.errors = o.2 by omega,
        Dist.c79_update _ _ _ b1 b2]
    · by_cases hbad : BadAccuracy file
      · rw [accuracy_bad a.1 file hb hbad]; rfl
      · obtain ⟨msg, e⟩ := accuracy_else a.1 file hb hr hbad
        rw [e]; rfl
  unfold accdistProgramF accdistProgram
  rw [show @forFiles (Acc.Accdata × Dist.Dist) fs accdistFileF = forFiles fs accdistFile from
    funext (fun names => funext (fun a => forFiles_congr step names a))]

/-- C79 (wordaccdist).  If the figures in all the reports are below 2^46, wordaccdist writes what it would write with exact arithmetic. -/
theorem c79_wordaccdist (negative : Bool) (fs : Fs)
    (h : ∀ name file o, fs name = some file → ReadsWordacc file o → |o.1| < 2 ^ 46 ∧ |o.1 - o.2| < 2 ^ 46) (argv : List (List Nat)) :
    wordaccdistProgramF negative fs argv = wordaccdistProgram (Fp.pctText negative 6) fs argv := by
  have step : ∀ name file, fs name = some file → ∀ a, wordaccdistFileF a file = wordaccdistFile a file := by
    intro name file hf a
    unfold wordaccdistFileF wordaccdistFile
    simp only
    by_cases hr : ∃ o, ReadsWordacc file o
    · obtain ⟨o, ho⟩ := hr
      obtain ⟨E, e, ht⟩ := wordacc_reads a.1 file o ho
      obtain ⟨b1, b2⟩ := h name file o hf ho
      simp only [e, bind_ok, ht]
      rw [show a.1.total.count + o.1 - a.1.total.count = o.1 by omega, show a.1.total.missed + o.2 - a.1.total.missed = o.2 by omega,
        Dist.c79_update _ _ _ b1 b2]
    · by_cases hbad : BadWordacc file
      · rw [wordacc_bad a.1 file hbad]; rfl
      · obtain ⟨msg, e⟩ := wordacc_else a.1 file hr hbad
        rw [e]; rfl
  unfold wordaccdistProgramF wordaccdistProgram
  rw [show @forFiles (Wac.Wacdata × Dist.Dist) fs wordaccdistFileF = forFiles fs wordaccdistFile from
    funext (fun names => funext (fun a => forFiles_congr step names a))]

/-! ## Non-vacuity -/

theorem accuracy_same {f : List Nat} {o o' : Int × Int} (h : ReadsAccuracy f o) (h' : ReadsAccuracy f o') : o = o' := by
  obtain ⟨p, e, _, _, rfl⟩ := h
  obtain ⟨q, e', _, _, rfl⟩ := h'
  rw [e] at e'
  rw [Option.some.inj e']

theorem wordacc_same {f : List Nat} {o o' : Int × Int} (h : ReadsWordacc f o) (h' : ReadsWordacc f o') : o = o' := by
  obtain ⟨p, e, _, rfl⟩ := h
  obtain ⟨q, e', _, rfl⟩ := h'
  rw [e] at e'
  rw [Option.some.inj e']

/-- Reports of 3 characters, one of them misrecognized. -/
example : accdistProgramF true (threeFiles oddTop oddTop oddTop) [ascii "accdist", ascii "x", ascii "y"] =
    accdistProgram (Fp.pctText true 6) (threeFiles oddTop oddTop oddTop) [ascii "accdist", ascii "x", ascii "y"] := by
  have b : Bytes oddTop := by unfold Bytes; decide +kernel
  refine c79_accdist true _ (three_bytes b b b) ?_ _
  intro name file o hf ho
  have : file = oddTop := by unfold threeFiles at hf; split at hf <;> [skip; split at hf <;> [skip; split at hf]] <;> simp_all
  subst this
  rw [accuracy_same ho reads_top]
  decide

/-- Three reports of 3 words, one of them misrecognized. -/
example : wordaccdistProgramF true (threeFiles (briefWordacc "3" "1") (briefWordacc "3" "1") (briefWordacc "3" "1"))
      [ascii "wordaccdist", ascii "x", ascii "y"] =
    wordaccdistProgram (Fp.pctText true 6) (threeFiles (briefWordacc "3" "1") (briefWordacc "3" "1") (briefWordacc "3" "1"))
      [ascii "wordaccdist", ascii "x", ascii "y"] := by
  refine c79_wordaccdist true _ ?_ _
  intro name file o hf ho
  have : file = briefWordacc "3" "1" := by unfold threeFiles at hf; split at hf <;> [skip; split at hf <;> [skip; split at hf]] <;> simp_all
  subst this
  rw [wordacc_same ho reads_brief]
  decide

/-- 99.99… percent is compared with 100 as it should be, although it is the largest count allowed. -/
example (dist : Dist.Dist) : Dist.update_distF dist (2 ^ 46 - 1) 1 = Dist.update_dist dist (2 ^ 46 - 1) 1 :=
  Dist.c79_update dist _ _ (by norm_num) (by norm_num)

/-- Beyond the bound the quotient is rounded up to 100: one error in 2^60 characters is not noticed. -/
example : Fp.percent (2 ^ 60 - 1) (2 ^ 60) = 100 ∧ (100 * (2 ^ 60 - 1) / 2 ^ 60 : ℚ) < 100 := by
  constructor
  · decide +kernel
  · norm_num

end Ocr.Ending
