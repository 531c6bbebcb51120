import Verif.Model.Accrpt
import Verif.Model.Wacrpt
import Mathlib.Data.Rat.Defs
import Mathlib.Algebra.Order.Ring.Rat

/-!
# Models of dist.c, accdist.c and wordaccdist.c

The accuracy is an exact rational number instead of a double.  As long as `100 * |count - missed|` and `count` are below 2^46 the
comparison with an integer has the same outcome: the numerator is exact, rounding is monotonic, and a quotient that is not
an integer differs from the next one by more than half a unit in the last place.
`pct n d` stands for the bytes printed for `100.0 * n / d` with the format `"%6.2f"`.  The counters are unbounded integers.
-/

namespace Ocr.Dist
open Text

/-- dist.h:31-37 `Dist`; `count` has 101 elements. -/
structure Dist where
  count : Nat → Int
  total_count : Int

/-- A zero-initialized `Dist` (dist.h:31-37). -/
def Dist.zero : Dist := ⟨fun _ => 0, 0⟩

/-- dist.c:39-40, the loop of `update_dist`. -/
def updateLoop (accuracy : ℚ) (count : Int) : (fuel : Nat) → (i : Nat) → (a : Nat → Int) → Res (Nat → Int)
  | 0, _, _ => .fuel
  | fuel + 1, i, a =>
    if accuracy ≥ (i : ℚ) then
      if i < 101 then updateLoop accuracy count fuel (i + 1) (fun k => if k = i then a i + count else a k) else .ub
    else .ok a

/-- dist.c:30-42 `update_dist`. -/
def update_dist (dist : Dist) (count missed : Int) : Res Dist :=
  if count = 0 then .ok dist
  else do
    let accuracy : ℚ := 100 * ((count - missed : Int) : ℚ) / (count : ℚ)
    let a ← updateLoop accuracy count 102 0 dist.count
    return ⟨a, dist.total_count + count⟩

/-- dist.c:45-58 `write_dist`: the bytes written. -/
def write_dist (pct : Int → Int → List Nat) (dist : Dist) : List Nat :=
  if dist.total_count = 0 then []
  else (List.range 101).flatMap (fun i => fmtLong 3 (i : Nat) ++ [32] ++ pct (dist.count i) dist.total_count ++ [10])

end Ocr.Dist

namespace Ocr.Accdist
open Text Dist

/-- accdist.c:35-43 `process_file` for each file in turn. -/
def processFiles (D : Acc.Accdata) (dist : Dist) : (files : List (List Nat)) → Res Dist
  | [] => .ok dist
  | f :: fs => do
    let chars := D.characters
    let errors := D.errors
    let D ← Acc.read_accrpt D f
    let dist ← update_dist dist (D.characters - chars) (D.errors - errors)
    processFiles D dist fs

/-- accdist.c:46-56 `main` after `initialize`, on the contents of the files. -/
def accdistMain (pct : Int → Int → List Nat) (files : List (List Nat)) : Res (List Nat) := do
  let dist ← processFiles Acc.Accdata.zero Dist.zero files
  return write_dist pct dist

end Ocr.Accdist

namespace Ocr.Wordaccdist
open Text Dist

/-- wordaccdist.c:35-44 `process_file` for each file in turn. -/
def processFiles (D : Wac.Wacdata) (dist : Dist) : (files : List (List Nat)) → Res Dist
  | [] => .ok dist
  | f :: fs => do
    let count := D.total.count
    let missed := D.total.missed
    let D ← Wac.read_wacrpt D f
    let dist ← update_dist dist (D.total.count - count) (D.total.missed - missed)
    processFiles D dist fs

/-- wordaccdist.c:47-57 `main` after `initialize`, on the contents of the files. -/
def wordaccdistMain (pct : Int → Int → List Nat) (files : List (List Nat)) : Res (List Nat) := do
  let dist ← processFiles Wac.Wacdata.zero Dist.zero files
  return write_dist pct dist

end Ocr.Wordaccdist
