import Verif.Model.World
import Verif.Spec.Pipelines

/-!
# What a program may do to the files
-/

namespace Ocr.Disk
open Prog Process Spec

/-- The identifiers of open files are those of earlier calls. -/
def Fresh (w : World) : Prop := ∀ o ∈ w.opened, o.id < w.calls

/-- All states since `w` are as described. -/
def Since (w w' : World) (P : Snapshot → Prop) : Prop := ∀ s ∈ w'.past, s ∈ w.past ∨ P s

/-- Part of `e` has been printed on `stderr`. -/
def Told (w : World) (e : List Nat) (s : Snapshot) : Prop := ∃ p, p <+: e ∧ s.err = w.err ++ p

/-- At the end of a program that stops early no file has changed, nor had one changed before. -/
structure Ended (w : World) (e : List Nat) (w' : World) : Prop where
  past  : Since w w' (fun s => s.files = w.files ∧ w.out <+: s.out ∧ s.out <+: w'.out ∧ Told w e s)
  files : w'.files = w.files
  out   : w.out <+: w'.out
  err   : w'.err = w.err ++ e
  most  : w'.most ≤ max w.most (w.opened.length + 1)

/-- The files after output: only a file that is named changes. -/
def written (files : Fs) : Output → Fs
  | ⟨none, _⟩ => files
  | ⟨some name, bytes⟩ => fun x => if x = name then some bytes else files x

/-- What is kept of bytes that are written to a file. -/
def kept (room : Option Nat) (bytes : List Nat) : List Nat :=
  match room with
  | none => bytes
  | some n => bytes.take n

/-- The room that is left after output. -/
def left (room : Option Nat) : Output → Option Nat
  | ⟨none, _⟩ => room
  | ⟨some _, bytes⟩ => room.map (fun n => n - bytes.length)

/-- What goes to `stdout`. -/
def printed : Output → List Nat
  | ⟨none, bytes⟩ => bytes
  | ⟨some _, _⟩ => []

/-- At the end of a program that has done its work.  In the meantime the files were as before, or the file named had the beginning of its
new contents; and every beginning was there at some time. -/
structure Done (w : World) (e pre : List Nat) (o : Output) (w' : World) : Prop where
  past   : Since w w' (fun s => (s.files = w.files ∨ ∃ p, p <+: kept w.room o.bytes ∧ s.files = written w.files ⟨o.filename, p⟩) ∧ w.out <+: s.out ∧
    s.out <+: w'.out ∧ Told w e s)
  parts  : ∀ name, o.filename = some name → ∀ p, p <+: kept w.room o.bytes → ∃ s ∈ w'.past, s.files = written w.files ⟨some name, p⟩
  files  : w'.files = written w.files ⟨o.filename, kept w.room o.bytes⟩
  opened : w'.opened = w.opened
  input  : w'.input = w.input
  out    : w'.out = w.out ++ pre ++ printed o
  err    : w'.err = w.err ++ e
  most   : w'.most ≤ max w.most (w.opened.length + 1)
  room   : w'.room = left w.room o

/-- How a program changes the files, its result being given by `o`. -/
def Runs {α : Type} (view : α → List Nat × Output) (w : World) : Out α → Fin Unit → Prop
  | .ok e a, r => ∃ w', r = .ok () w' ∧ Done w e (view a).1 (view a).2 w'
  | .exit s e, r => ∃ w', r = .exit s w' ∧ Ended w e w'
  | .abort, r => ∃ w', r = .abort w' ∧ w'.files = w.files ∧ Since w w' (fun s => s.files = w.files)
  | .ub, r => r = .ub
  | .fuel, r => r = .fuel

/-- If the result is output, the program produces it. -/
def Produces {α : Type} (view : α → List Nat × Output) (w : World) (o : Out α) (r : Fin Unit) : Prop :=
  ∀ e a, o = .ok e a → ∃ w', r = .ok () w' ∧ Done w e (view a).1 (view a).2 w'

/-- A page to be compared: `prog correct generated report`. -/
structure Job where
  prog      : List Nat
  correct   : List Nat
  generated : List Nat
  report    : List Nat

def Job.args (j : Job) : List (List Nat) := [j.correct, j.generated, j.report]

/-- A script that runs a program for every page. -/
def batch (P : Program) : List Job → W Unit
  | [] => pure ()
  | j :: js => do
    P.run (j.prog :: j.args)
    batch P js

/-- The command line is in order, and the files of the page hold the two texts. -/
structure Page (U : Unicode) (fold : Bool) (T : List (Nat × Args.Kind)) (files : Fs) (j : Job) (texts : List Text.Ch × List Text.Ch) : Prop where
  line  : CommandLine T j.prog j.args j.args []
  texts : ∃ file0 file1, files j.correct = some file0 ∧ files j.generated = some file1 ∧ ¬ Headed file0 ∧ IsPage U fold file0 texts.1 ∧
    HoldsText U fold file1 texts.2

/-- No report is written over a file that is still needed: an input of a later page, or an earlier report. -/
def Apart (jobs : List Job) : Prop :=
  jobs.Pairwise (fun j i => j.report ≠ i.correct ∧ j.report ≠ i.generated ∧ j.report ≠ i.report)

end Ocr.Disk
