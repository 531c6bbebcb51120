import Verif.Spec.World

/-!
# Scripts that run the programs on several pages
-/

namespace Ocr.Disk
open Prog Process Spec

/-- A call of a program that writes a report: the command line, the files that it reads, and the report. -/
structure Call where
  prog   : List Nat
  args   : List (List Nat)
  inputs : List (List Nat)
  report : List Nat

/-- The calls one after the other. -/
def calls (P : Program) : List Call → W Unit
  | [] => pure ()
  | c :: cs => do
    P.run (c.prog :: c.args)
    calls P cs

/-- No report is written over a file that is still needed: an input of a later call, or an earlier report. -/
def Separate (cs : List Call) : Prop := cs.Pairwise (fun c d => c.report ∉ d.inputs ∧ c.report ≠ d.report)

/-- `command > name` in a shell, as in the usage lines (for instance `editopsum report1 report2 ... >report`).  The file is made empty before
the program starts; what the program prints goes there, here at its end.  The states in between are not recorded, and there is
room on the disk for what is printed. -/
def redirect (name : List Nat) (m : W Unit) : W Unit := fun w =>
  match m { w with files := store w.files name [], out := [] } with
  | .ok _ w' => .ok () { w' with files := store w'.files name w'.out, out := w.out, past := w.past }
  | .exit s w' => .exit s { w' with files := store w'.files name w'.out, out := w.out, past := w.past }
  | .abort w' => .abort { w' with files := store w'.files name w'.out, out := w.out, past := w.past }
  | .ub => .ub
  | .fuel => .fuel

/-- A call of `editop` for these texts, without the option `-D`. -/
def EditopCall (U : Unicode) (files : Fs) (c : Call) (texts : List Text.Ch × List Text.Ch) : Prop :=
  ∃ correct generated file0 file1 ss, CommandLine [(68, .flag 0)] c.prog c.args [correct, generated, c.report] ss ∧ ⟨.flag 0, []⟩ ∉ ss ∧
    correct ∈ c.inputs ∧ generated ∈ c.inputs ∧ files correct = some file0 ∧ files generated = some file1 ∧
    ¬ Headed file0 ∧ IsPage U false file0 texts.1 ∧ HoldsText U false file1 texts.2

/-- A call of `wordacc` for texts with these words and for these stopwords. -/
def WordaccCall (U : Unicode) (prop : Nat → Word.WB) (nfc : List Nat → Option (List Nat)) (files : Fs) (c : Call) (p : WordPage) : Prop :=
  ∃ correct generated file0 file1 ss t0 t1, CommandLine [(83, .value 0)] c.prog c.args [correct, generated, c.report] ss ∧
    correct ∈ c.inputs ∧ generated ∈ c.inputs ∧ (∀ name, ⟨.value 0, name⟩ ∈ ss → name ∈ c.inputs) ∧
    files correct = some file0 ∧ files generated = some file1 ∧ ¬ Headed file0 ∧ IsPage U true file0 t0 ∧ HoldsText U true file1 t1 ∧
    HasWords U prop nfc t0 p.correct ∧ HasWords U prop nfc t1 p.generated ∧ HasStopwords U prop nfc files ss p.stops

end Ocr.Disk
