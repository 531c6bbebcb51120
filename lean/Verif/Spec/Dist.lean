import Verif.Model.Dist
import Verif.Model.Ci

/-!
# Distributions and confidence intervals of accuracy

An observation is a pair of a count and the number of those that are missed.
-/

namespace Ocr.Dist
open Text

/-- The total count of the observations whose accuracy is at least `i` percent. -/
def atLeast (obs : List (Int × Int)) (i : Nat) : Int :=
  ((obs.filter (fun o => decide (0 < o.1) && decide ((i : Int) * o.1 ≤ 100 * (o.1 - o.2)))).map (fun o => o.1)).sum

/-- The total count of all observations. -/
def totalCount (obs : List (Int × Int)) : Int := (obs.map (fun o => o.1)).sum

/-- The distribution in percent, nothing if there are no counts. -/
def survival (pct : Int → Int → List Nat) (obs : List (Int × Int)) : List Nat :=
  if totalCount obs = 0 then []
  else (List.range 101).flatMap (fun i : Nat => fmtLong 3 i ++ ascii " " ++ pct (atLeast obs i) (totalCount obs) ++ ascii "\n")

/-- The outcome of a sequence of calls of `update_dist`. -/
def updates (d : Dist) : List (Int × Int) → Res Dist
  | [] => .ok d
  | o :: obs => do
    let d ← update_dist d o.1 o.2
    updates d obs

end Ocr.Dist

namespace Ocr.Ci
open Text

/-- The accuracy, in percent, over all observations. -/
noncomputable def theta (obs : List (Int × Int)) : ℝ :=
  100 * (((obs.map (fun o => o.1)).sum - (obs.map (fun o => o.2)).sum : Int) : ℝ) / ((obs.map (fun o => o.1)).sum : Int)

/-- The accuracies that result if one observation is left out. -/
noncomputable def leaveOneOut (obs : List (Int × Int)) : List ℝ := (List.range obs.length).map (fun i => theta (obs.eraseIdx i))

/-- Their mean. -/
noncomputable def mean (obs : List (Int × Int)) : ℝ := (leaveOneOut obs).sum / obs.length

/-- The jackknife estimate of accuracy. -/
noncomputable def estimate (obs : List (Int × Int)) : ℝ := obs.length * theta obs - (obs.length - 1) * mean obs

/-- Half the width of the interval: 1.96 times the jackknife estimate of the standard error. -/
noncomputable def halfWidth (obs : List (Int × Int)) : ℝ :=
  1.96 * Real.sqrt ((obs.length - 1) / obs.length * ((leaveOneOut obs).map (fun t => (t - mean obs) ^ 2)).sum)

/-- A percentage. -/
noncomputable def clamp (x : ℝ) : ℝ := max 0 (min 100 x)

/-- The outcome of a sequence of calls of `append_obs`. -/
def appended (obs : List (Int × Int)) : Obslist := obs.foldl (fun l o => append_obs l o.1 o.2) Obslist.empty

/-- No count is negative, and at least two are positive. -/
def Enough (obs : List (Int × Int)) : Prop :=
  (∀ o ∈ obs, 0 ≤ o.1) ∧ 2 ≤ (obs.filter (fun o => decide (0 < o.1))).length

/-- The results written for the observations `obs`. -/
noncomputable def results (pct : Int → Int → List Nat) (fmt : ℝ → List Nat) (what wrong : List Nat) (obs : List (Int × Int)) :
    List Nat :=
  let count := (obs.map (fun o => o.1)).sum
  let missed := (obs.map (fun o => o.2)).sum
  fmtLong 14 obs.length ++ ascii "   Observations\n" ++ fmtLong 14 count ++ ascii "   " ++ what ++ ascii "\n" ++
  fmtLong 14 missed ++ ascii "   " ++ wrong ++ ascii "\n" ++ pct (count - missed) count ++ ascii "%  Accuracy\n" ++
  fmt (clamp (estimate obs - halfWidth obs)) ++ ascii "%," ++ fmt (clamp (estimate obs + halfWidth obs)) ++
  ascii "%  Approximate 95% Confidence Interval for Accuracy\n"

end Ocr.Ci
