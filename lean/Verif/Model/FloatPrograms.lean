import Verif.Model.Float
import Verif.Model.ReportPrograms

/-!
# Models of dist.c, accdist.c and wordaccdist.c in floating point arithmetic
-/

namespace Ocr.Dist
open Text

/-- dist.c:30-42 `update_dist`; the comparison of a `double` with a `short` (dist.c:39) is exact. -/
def update_distF (dist : Dist) (count missed : Int) : Res Dist :=
  if count = 0 then .ok dist
  else do
    let accuracy := Fp.percent (count - missed) count
    let a ← updateLoop accuracy count 102 0 dist.count
    return ⟨a, dist.total_count + count⟩

end Ocr.Dist

namespace Ocr.Prog
open Text

/-- accdist.c:35-43 `process_file`; the figures so far and the distribution are carried along. -/
def accdistFileF (a : Acc.Accdata × Dist.Dist) (file : List Nat) : Res (Acc.Accdata × Dist.Dist) := do
  let chars := a.1.characters
  let errors := a.1.errors
  let D ← Acc.read_accrpt a.1 file
  let dist ← Dist.update_distF a.2 (D.characters - chars) (D.errors - errors)
  return (D, dist)

/-- accdist.c:46-56 `main`. -/
def accdistProgramF (negative : Bool) (fs : Fs) (argv : List (List Nat)) : Res Output := do
  let (_, argv, _) ← Args.initialize_ none true argv start
  let (_, dist) ← forFiles fs accdistFileF argv (Acc.Accdata.zero, Dist.Dist.zero)
  return ⟨none, Dist.write_dist (Fp.pctText negative 6) dist⟩

/-- wordaccdist.c:35-44 `process_file`; the figures so far and the distribution are carried along. -/
def wordaccdistFileF (a : Wac.Wacdata × Dist.Dist) (file : List Nat) : Res (Wac.Wacdata × Dist.Dist) := do
  let count := a.1.total.count
  let missed := a.1.total.missed
  let D ← Wac.read_wacrpt a.1 file
  let dist ← Dist.update_distF a.2 (D.total.count - count) (D.total.missed - missed)
  return (D, dist)

/-- wordaccdist.c:47-57 `main`. -/
def wordaccdistProgramF (negative : Bool) (fs : Fs) (argv : List (List Nat)) : Res Output := do
  let (_, argv, _) ← Args.initialize_ none true argv start
  let (_, dist) ← forFiles fs wordaccdistFileF argv (Wac.Wacdata.zero, Dist.Dist.zero)
  return ⟨none, Dist.write_dist (Fp.pctText negative 6) dist⟩

end Ocr.Prog
