import Verif.Model.Programs
import Verif.Model.Dist
import Verif.Model.Ci
import Verif.Model.Groupacc

/-!
# The main programs that evaluate reports, from the command line to the output

As in `Verif.Model.Programs`; `pct` and `fmt` stand for the formats of printf used in each program.
-/

namespace Ocr.Prog
open Text

/-- accdist.c:35-43 `process_file`; the figures so far and the distribution are carried along. -/
def accdistFile (a : Acc.Accdata × Dist.Dist) (file : List Nat) : Res (Acc.Accdata × Dist.Dist) := do
  let chars := a.1.characters
  let errors := a.1.errors
  let D ← Acc.read_accrpt a.1 file
  let dist ← Dist.update_dist a.2 (D.characters - chars) (D.errors - errors)
  return (D, dist)

/-- accdist.c:46-56 `main`. -/
def accdistProgram (pct : Int → Int → List Nat) (fs : Fs) (argv : List (List Nat)) : Res Output := do
  let (_, argv, _) ← Args.initialize_ none true argv start
  let (_, dist) ← forFiles fs accdistFile argv (Acc.Accdata.zero, Dist.Dist.zero)
  return ⟨none, Dist.write_dist pct dist⟩

/-- wordaccdist.c:35-44 `process_file`; the figures so far and the distribution are carried along. -/
def wordaccdistFile (a : Wac.Wacdata × Dist.Dist) (file : List Nat) : Res (Wac.Wacdata × Dist.Dist) := do
  let count := a.1.total.count
  let missed := a.1.total.missed
  let D ← Wac.read_wacrpt a.1 file
  let dist ← Dist.update_dist a.2 (D.total.count - count) (D.total.missed - missed)
  return (D, dist)

/-- wordaccdist.c:47-57 `main`. -/
def wordaccdistProgram (pct : Int → Int → List Nat) (fs : Fs) (argv : List (List Nat)) : Res Output := do
  let (_, argv, _) ← Args.initialize_ none true argv start
  let (_, dist) ← forFiles fs wordaccdistFile argv (Wac.Wacdata.zero, Dist.Dist.zero)
  return ⟨none, Dist.write_dist pct dist⟩

/-- accci.c:35-43 `process_file`; the figures so far and the observations are carried along. -/
def accciFile (a : Acc.Accdata × Ci.Obslist) (file : List Nat) : Res (Acc.Accdata × Ci.Obslist) := do
  let chars := a.1.characters
  let errors := a.1.errors
  let D ← Acc.read_accrpt a.1 file
  return (D, Ci.append_obs a.2 (D.characters - chars) (D.errors - errors))

/-- accci.c:60-72 `main`. -/
noncomputable def accciProgram (pct : Int → Int → List Nat) (fmt : ℝ → List Nat) (fs : Fs) (argv : List (List Nat)) : Res Output := do
  let (_, argv, _) ← Args.initialize_ none true argv start
  if argv.length < 2 then .err "not enough input files"
  else do
    let (D, l) ← forFiles fs accciFile argv (Acc.Accdata.zero, Ci.Obslist.empty)
    let bytes ← Ci.write_results pct fmt (ascii "Characters") (ascii "Errors") l D.characters D.errors
    return ⟨none, bytes⟩

/-- wordaccci.c:35-44 `process_file`; the figures so far and the observations are carried along. -/
def wordaccciFile (a : Wac.Wacdata × Ci.Obslist) (file : List Nat) : Res (Wac.Wacdata × Ci.Obslist) := do
  let count := a.1.total.count
  let missed := a.1.total.missed
  let D ← Wac.read_wacrpt a.1 file
  return (D, Ci.append_obs a.2 (D.total.count - count) (D.total.missed - missed))

/-- wordaccci.c:61-73 `main`. -/
noncomputable def wordaccciProgram (pct : Int → Int → List Nat) (fmt : ℝ → List Nat) (fs : Fs) (argv : List (List Nat)) : Res Output := do
  let (_, argv, _) ← Args.initialize_ none true argv start
  if argv.length < 2 then .err "not enough input files"
  else do
    let (D, l) ← forFiles fs wordaccciFile argv (Wac.Wacdata.zero, Ci.Obslist.empty)
    let bytes ← Ci.write_results pct fmt (ascii "Words") (ascii "Misrecognized") l D.total.count D.total.missed
    return ⟨none, bytes⟩

/-- groupacc.c:76-87 `main`. -/
def groupaccProgram (U : Unicode) (pct : Int → Int → List Nat) (junk : List Nat) (fs : Fs) (argv : List (List Nat)) : Res Output := do
  let (_, argv, _) ← Args.initialize_ none true argv start
  if argv.length < 2 ∨ argv.length > 3 then .err "invalid number of files"
  else do
    let name0 ← rd argv 0
    let (text, _) ← readFile U junk fs name0 Groupacc.textopt
    let name1 ← rd argv 1
    let report ← open_file fs name1
    let D ← Acc.read_accrpt Acc.Accdata.zero report
    let bytes ← Groupacc.write_report U pct text D
    return ⟨argv[2]?, bytes⟩

/-- nonstopacc.c:79-91 `main`. -/
def nonstopaccProgram (U : Unicode) (prop : Nat → Word.WB) (nfc : List Nat → Option (List Nat)) (pct : Int → Int → List Nat)
    (junk : List Nat) (junk' : Nat) (fs : Fs) (argv : List (List Nat)) : Res Output := do
  let (_, argv, _) ← Args.initialize_ none true argv start
  if argv.length ≠ 2 then .err "invalid number of files"
  else do
    let name0 ← rd argv 0
    let (text, _) ← readFile U junk fs name0 Nonstopacc.textopt
    let words ← Word.find_words U prop nfc junk' text
    let name1 ← rd argv 1
    let report ← open_file fs name1
    let D ← Wac.read_wacrpt Wac.Wacdata.zero report
    let bytes ← Nonstopacc.write_results pct D words
    return ⟨none, bytes⟩

end Ocr.Prog
