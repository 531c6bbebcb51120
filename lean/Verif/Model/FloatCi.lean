import Verif.Model.FloatPrograms
import Verif.Model.Ci

/-!
# Models of ci.c, accci.c and wordaccci.c in floating point arithmetic

Every operation of ci.c:58-91 yields the rounded exact result (no fused multiply-add, no greater precision).  A division by zero is the
outcome `ub`, as in `Model/Ci.lean`.  Exponents are unbounded.
-/

namespace Ocr.Fp

/-- `sqrt(x)` (ci.c:89) for `0 ≤ x`: the value with 53 bits nearest to the square root, the even one if there are two. -/
def sqrt (x : ℚ) : ℚ :=
  if x ≤ 0 then 0
  else
    let q := Int.log 2 x / 2 - 52
    let y := x / 4 ^ q
    let r := Nat.sqrt ⌊y⌋.toNat
    let m := if y < ((r : ℚ) + 1 / 2) ^ 2 then r else if ((r : ℚ) + 1 / 2) ^ 2 < y then r + 1 else if r % 2 = 0 then r else r + 1
    m * 2 ^ q

end Ocr.Fp

namespace Ocr.Ci
open Text

/-- A division of doubles (ci.c:58-91); by zero it is counted as undefined. -/
def fdivF (a b : ℚ) : Res ℚ := if b = 0 then .ub else .ok (Fp.rnd 53 (a / b))

/-- ci.c:58-62 `accuracy`. -/
def accuracyF (count missed : Int) : Res ℚ := if count = 0 then .ub else .ok (Fp.percent (count - missed) count)

/-- ci.c:80, the statement `obs->theta = ...` of the first loop, for each observation. -/
def thetasF (total : Obs) : (items : List Obs) → Res (List ℚ)
  | [] => .ok []
  | obs :: rest => do
    let theta ← accuracyF (total.count - obs.count) (total.missed - obs.missed)
    let ts ← thetasF total rest
    return theta :: ts

/-- ci.c:65-92 `compute_ci`. -/
def compute_ciF (l : Obslist) : Res (ℚ × ℚ) :=
  if valid_obslist l = false then .err "not enough observations"
  else do
    let n : Int := l.items.length
    let theta ← accuracyF l.total.count l.total.missed
    let ntheta := Fp.rnd 53 (Fp.ofLong n * theta)
    let ts ← thetasF l.total l.items
    let js := ts.map (fun t => Fp.rnd 53 (ntheta - Fp.rnd 53 (Fp.ofLong (n - 1) * t)))
    let sum := ts.foldl (fun s t => Fp.rnd 53 (s + t)) 0
    let q ← fdivF (Fp.rnd 53 (Fp.ofLong (n - 1) * sum)) (Fp.ofLong n)
    let totalj := Fp.rnd 53 (ntheta - q)
    let sum := js.foldl (fun s j => Fp.rnd 53 (s + Fp.rnd 53 (Fp.rnd 53 (j - totalj) * Fp.rnd 53 (j - totalj)))) 0
    let q ← fdivF sum (Fp.ofLong (n - 1))
    let q ← fdivF q (Fp.ofLong n)
    let w := Fp.rnd 53 (Fp.rnd 53 1.96 * Fp.sqrt q)
    return (max 0 (min 100 (Fp.rnd 53 (totalj - w))), max 0 (min 100 (Fp.rnd 53 (totalj + w))))

/-- accci.c:46-57 and wordaccci.c:47-58 `write_results`; `what` and `wrong` are the texts of the second and third lines. -/
def write_resultsF (negative : Bool) (what wrong : List Nat) (l : Obslist) (count missed : Int) : Res (List Nat) := do
  let (lower, upper) ← compute_ciF l
  return fmtLong 14 (l.items.length : Nat) ++ ascii "   Observations\n" ++ fmtLong 14 count ++ ascii "   " ++ what ++ ascii "\n" ++
    fmtLong 14 missed ++ ascii "   " ++ wrong ++ ascii "\n" ++ Fp.pctText negative 14 (count - missed) count ++ ascii "%  Accuracy\n" ++
    Fp.fmtFixed 6 2 lower ++ ascii "%," ++ Fp.fmtFixed 6 2 upper ++ ascii "%  Approximate 95% Confidence Interval for Accuracy\n"

end Ocr.Ci

namespace Ocr.Prog
open Text

/-- accci.c:60-72 `main`. -/
def accciProgramF (negative : Bool) (fs : Fs) (argv : List (List Nat)) : Res Output := do
  let (_, argv, _) ← Args.initialize_ none true argv start
  if argv.length < 2 then .err "not enough input files"
  else do
    let (D, l) ← forFiles fs accciFile argv (Acc.Accdata.zero, Ci.Obslist.empty)
    let bytes ← Ci.write_resultsF negative (ascii "Characters") (ascii "Errors") l D.characters D.errors
    return ⟨none, bytes⟩

/-- wordaccci.c:61-73 `main`. -/
def wordaccciProgramF (negative : Bool) (fs : Fs) (argv : List (List Nat)) : Res Output := do
  let (_, argv, _) ← Args.initialize_ none true argv start
  if argv.length < 2 then .err "not enough input files"
  else do
    let (D, l) ← forFiles fs wordaccciFile argv (Wac.Wacdata.zero, Ci.Obslist.empty)
    let bytes ← Ci.write_resultsF negative (ascii "Words") (ascii "Misrecognized") l D.total.count D.total.missed
    return ⟨none, bytes⟩

end Ocr.Prog
