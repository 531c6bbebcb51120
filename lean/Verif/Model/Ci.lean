import Verif.Model.Accrpt
import Verif.Model.Wacrpt
import Mathlib.Analysis.Real.Sqrt

/-!
# Models of ci.c, accci.c and wordaccci.c

Doubles are real numbers.  A division by zero is the outcome `ub` (it would yield an infinity or a NaN).  `pct n d` stands for
the bytes printed for `100.0 * n / d` with the format `"%14.2f"`, and `fmt x` for those printed for `x` with `"%6.2f"`.  The
counters are unbounded integers.
-/

namespace Ocr.Ci
open Text

/-- ci.h:33-38 `Obs`, without `theta` and `j`. -/
structure Obs where
  count  : Int
  missed : Int
  deriving DecidableEq

/-- ci.h:40-42 `Obslist`. -/
structure Obslist where
  items : List Obs
  total : Obs

/-- A zero-initialized `Obslist` (ci.h:40-42). -/
def Obslist.empty : Obslist := ⟨[], ⟨0, 0⟩⟩

/-- ci.c:32-43 `append_obs`. -/
def append_obs (l : Obslist) (count missed : Int) : Obslist :=
  ⟨l.items ++ [⟨count, missed⟩], ⟨l.total.count + count, l.total.missed + missed⟩⟩

/-- ci.c:46-55 `valid_obslist`. -/
def valid_obslist (l : Obslist) : Bool :=
  let n := l.items.foldl (fun n obs => if obs.count > 0 then n + 1 else n) (0 : Nat)
  decide (n > 1)

/-- A division of doubles (ci.c:58-91); by zero it is counted as undefined. -/
noncomputable def fdiv (a b : ℝ) : Res ℝ := open Classical in if b = 0 then .ub else .ok (a / b)

/-- ci.c:58-62 `accuracy`. -/
noncomputable def accuracy (count missed : Int) : Res ℝ := fdiv (100 * ((count - missed : Int) : ℝ)) (count : ℝ)

/-- ci.c:80, the statement `obs->theta = ...` of the first loop, for each observation. -/
noncomputable def thetas (total : Obs) : (items : List Obs) → Res (List ℝ)
  | [] => .ok []
  | obs :: rest => do
    let theta ← accuracy (total.count - obs.count) (total.missed - obs.missed)
    let ts ← thetas total rest
    return theta :: ts

/-- ci.c:65-92 `compute_ci`. -/
noncomputable def compute_ci (l : Obslist) : Res (ℝ × ℝ) :=
  if valid_obslist l = false then .err "not enough observations"
  else do
    let n : ℝ := (l.items.length : ℝ)
    let theta ← accuracy l.total.count l.total.missed
    let ntheta := n * theta
    let ts ← thetas l.total l.items
    let js := ts.map (fun t => ntheta - (n - 1) * t)
    let sum := ts.foldl (fun s t => s + t) 0
    let q ← fdiv ((n - 1) * sum) n
    let totalj := ntheta - q
    let sum := js.foldl (fun s j => s + (j - totalj) * (j - totalj)) 0
    let q ← fdiv sum (n - 1)
    let q ← fdiv q n
    let w := 1.96 * Real.sqrt q
    return (max 0 (min 100 (totalj - w)), max 0 (min 100 (totalj + w)))

/-- accci.c:46-57 and wordaccci.c:47-58 `write_results`; `what` and `wrong` are the texts of the second and third lines. -/
noncomputable def write_results (pct : Int → Int → List Nat) (fmt : ℝ → List Nat) (what wrong : List Nat) (l : Obslist)
    (count missed : Int) : Res (List Nat) := do
  let (lower, upper) ← compute_ci l
  if count = 0 then .ub
  else .ok (fmtLong 14 (l.items.length : Nat) ++ ascii "   Observations\n" ++ fmtLong 14 count ++ ascii "   " ++ what ++ ascii "\n" ++
    fmtLong 14 missed ++ ascii "   " ++ wrong ++ ascii "\n" ++ pct (count - missed) count ++ ascii "%  Accuracy\n" ++
    fmt lower ++ ascii "%," ++ fmt upper ++ ascii "%  Approximate 95% Confidence Interval for Accuracy\n")

end Ocr.Ci

namespace Ocr.Accci
open Text Ci

/-- accci.c:35-43 `process_file` for each file in turn. -/
def processFiles (D : Acc.Accdata) (l : Obslist) : (files : List (List Nat)) → Res (Acc.Accdata × Obslist)
  | [] => .ok (D, l)
  | f :: fs => do
    let chars := D.characters
    let errors := D.errors
    let D ← Acc.read_accrpt D f
    processFiles D (append_obs l (D.characters - chars) (D.errors - errors)) fs

/-- accci.c:60-72 `main` after `initialize`, on the contents of the files. -/
noncomputable def accciMain (pct : Int → Int → List Nat) (fmt : ℝ → List Nat) (files : List (List Nat)) : Res (List Nat) :=
  if files.length < 2 then .err "not enough input files"
  else do
    let (D, l) ← processFiles Acc.Accdata.zero Obslist.empty files
    write_results pct fmt (ascii "Characters") (ascii "Errors") l D.characters D.errors

end Ocr.Accci

namespace Ocr.Wordaccci
open Text Ci

/-- wordaccci.c:35-44 `process_file` for each file in turn. -/
def processFiles (D : Wac.Wacdata) (l : Obslist) : (files : List (List Nat)) → Res (Wac.Wacdata × Obslist)
  | [] => .ok (D, l)
  | f :: fs => do
    let count := D.total.count
    let missed := D.total.missed
    let D ← Wac.read_wacrpt D f
    processFiles D (append_obs l (D.total.count - count) (D.total.missed - missed)) fs

/-- wordaccci.c:61-73 `main` after `initialize`, on the contents of the files. -/
noncomputable def wordaccciMain (pct : Int → Int → List Nat) (fmt : ℝ → List Nat) (files : List (List Nat)) : Res (List Nat) :=
  if files.length < 2 then .err "not enough input files"
  else do
    let (D, l) ← processFiles Wac.Wacdata.zero Obslist.empty files
    write_results pct fmt (ascii "Words") (ascii "Misrecognized") l D.total.count D.total.missed

end Ocr.Wordaccci
