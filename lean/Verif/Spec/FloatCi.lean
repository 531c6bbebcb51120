import Verif.Spec.Dist
import Verif.Spec.Float

/-!
# Confidence intervals that were computed with rounding errors
-/

namespace Ocr.Ci
open Text

/-- Each accuracy is between `-T` and `T` percent, and neither the observations nor what they count are too many. -/
def Tame (T : ℕ) (obs : List (Int × Int)) : Prop :=
  100 ≤ T ∧ (∀ o ∈ obs, 100 * |o.1 - o.2| ≤ T * o.1) ∧ T * (obs.length * obs.length) ≤ 2 ^ 52 ∧ T * (obs.map (fun o => o.1)).sum ≤ 2 ^ 52

/-- How far the ends of an interval may be off. -/
noncomputable def slack (T : ℕ) (obs : List (Int × Int)) : ℝ := T * (obs.length * obs.length) / 2 ^ 46

/-- `s` is a percentage with two decimals, between 0.00 and 100.00; it differs from `x` by half of the last decimal, and by `e`. -/
def Shows (e x : ℝ) (s : List Nat) : Prop := ∃ h : ℕ, Fp.Hundredths 6 false h s ∧ h ≤ 10000 ∧ |(h : ℝ) / 100 - x| ≤ 1 / 200 + e

/-- The results for the observations `obs`, with ends of the interval that are off by `e`. -/
def Reported (pct : Int → Int → List Nat) (what wrong : List Nat) (obs : List (Int × Int)) (e : ℝ) (out : List Nat) : Prop :=
  ∃ lower upper : List Nat, Shows e (clamp (estimate obs - halfWidth obs)) lower ∧ Shows e (clamp (estimate obs + halfWidth obs)) upper ∧
    let count := (obs.map (fun o => o.1)).sum
    let missed := (obs.map (fun o => o.2)).sum
    out = fmtLong 14 obs.length ++ ascii "   Observations\n" ++ fmtLong 14 count ++ ascii "   " ++ what ++ ascii "\n" ++
      fmtLong 14 missed ++ ascii "   " ++ wrong ++ ascii "\n" ++ pct (count - missed) count ++ ascii "%  Accuracy\n" ++
      lower ++ ascii "%," ++ upper ++ ascii "%  Approximate 95% Confidence Interval for Accuracy\n"

end Ocr.Ci

namespace Ocr.Ending
open Text

/-- Two outcomes of the same kind; a message is the same. -/
def SameEnd {α β : Type} (r : Res α) (r' : Res β) : Prop :=
  ((∃ a, r = .ok a) ↔ ∃ a, r' = .ok a) ∧ (∀ msg, r = .err msg ↔ r' = .err msg) ∧ (r = .ub ↔ r' = .ub)

end Ocr.Ending
