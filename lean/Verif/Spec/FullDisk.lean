import Verif.Spec.World
import Verif.Model.Accrpt

/-!
# What a full disk does
-/

namespace Ocr.Disk
open Prog

/-- The files with one file replaced. -/
def replaced (before : Fs) (name file : List Nat) : Fs := fun x => if x = name then some file else before x

/-- No file has been changed, or one file, which has only its first `n` bytes on the full disk. -/
def Cut (n : Nat) (before full short : Fs) : Prop :=
  (full = before ∧ short = before) ∨ ∃ name file, full = replaced before name file ∧ short = replaced before name (file.take n)

/-- How a program ends on a disk with room for `n` bytes, given how it ends on a disk with enough room.  The exit status is the same, and
so is what is printed on `stderr`. -/
def Unnoticed (n : Nat) (before : Fs) : Fin Unit → Fin Unit → Prop
  | .ok _ w0, r => ∃ w', r = .ok () w' ∧ w'.out = w0.out ∧ w'.err = w0.err ∧ w'.opened = w0.opened ∧ Cut n before w0.files w'.files
  | .exit s w0, r => ∃ w', r = .exit s w' ∧ w'.err = w0.err ∧ w0.files = before ∧ w'.files = before
  | .abort w0, r => ∃ w', r = .abort w' ∧ w0.files = before ∧ w'.files = before
  | .ub, r => r = .ub
  | .fuel, r => r = .fuel

/-- The same world with enough room on the disk. -/
def World.ample (w : World) : World := { w with room := none }
/-- The same world with room for `n` bytes. -/
def World.short (w : World) (n : Nat) : World := { w with room := some n }

/-- The figures at the top of an accuracy report. -/
def top (D : Acc.Accdata) : Int × Int × Int × Int × Int × Acc.Accops × Acc.Accops × Acc.Accops :=
  (D.characters, D.errors, D.reject_characters, D.suspect_markers, D.false_marks, D.marked_ops, D.unmarked_ops, D.total_ops)

/-- Each file is the beginning of the other one. -/
def Shortened : List (List Nat) → List (List Nat) → Prop := List.Forall₂ (fun short full => ∃ n, short = full.take n)

end Ocr.Disk
