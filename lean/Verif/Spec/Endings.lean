import Verif.Spec.AnyReport
import Verif.Spec.Programs

/-!
# How a run over reports can end

`R` says which files are read to the end and what figures they hold, `B` which ones lead the program astray (it reads or writes
outside of its arrays).  A file that is neither is refused with a message.
-/

namespace Ocr.Ending
open Text AnyReport

/-- How a run ends: with output exactly if `good`, with undefined behaviour exactly if `bad`, otherwise with a message. -/
structure EndsAs {α : Type} (r : Res α) (good bad : Prop) : Prop where
  output  : (∃ out, r = .ok out) ↔ good
  astray  : r = .ub ↔ bad
  message : ¬ good → ¬ bad → ∃ msg, r = .err msg

/-- All files can be opened and read; `os` are their figures. -/
def AllRead {β : Type} (fs : List Nat → Option (List Nat)) (R : List Nat → β → Prop) (names : List (List Nat)) (os : List β) : Prop :=
  List.Forall₂ (fun name o => ∃ file, fs name = some file ∧ R file o) names os

/-- Some file leads astray, and all files before it can be opened and read. -/
def Astray {β : Type} (fs : List Nat → Option (List Nat)) (R : List Nat → β → Prop) (B : List Nat → Prop) (names : List (List Nat)) : Prop :=
  ∃ pre name post file os, names = pre ++ name :: post ∧ AllRead fs R pre os ∧ fs name = some file ∧ B file

/-- An edit operation report that is read: the lengths of all moves are at most 100. -/
def ReadsEditop (file : List Nat) (_ : Unit) : Prop :=
  ∃ ins del moves R, editop (lines file) = some (ins, del, moves, R) ∧ ∀ r ∈ R, 0 ≤ r.second ∧ r.second ≤ 100
def BadEditop (file : List Nat) : Prop :=
  ∃ ins del moves R, editop (lines file) = some (ins, del, moves, R) ∧ ∃ r ∈ R, ¬ (0 ≤ r.second ∧ r.second ≤ 100)

/-- A word accuracy report that is read, with the number of words and of those missed. -/
def ReadsWordacc (file : List Nat) (o : Int × Int) : Prop :=
  ∃ p, wordacc (lines file) = some p ∧ p.Sound ∧ o = (p.words, p.missed)
def BadWordacc (file : List Nat) : Prop := ∃ p, wordacc (lines file) = some p ∧ ¬ p.Sound

/-- An accuracy report that is read, with the number of characters and of errors. -/
def ReadsAccuracy (file : List Nat) (o : Int × Int) : Prop :=
  ∃ p, accuracy (lines file) = some p ∧ HasNames 20 p.confs ∧ (∃ vs, About p.classes vs) ∧ o = (p.head.characters, p.head.errors)
def BadAccuracy (file : List Nat) : Prop :=
  ∃ p, accuracy (lines file) = some p ∧ (¬ HasNames 20 p.confs ∨
    ∃ pre r post us, p.classes = pre ++ r :: post ∧ About pre us ∧ Outside r)

/-- An accuracy of 101 percent or more. -/
def Over (o : Int × Int) : Prop := (0 < o.1 ∧ 101 * o.1 ≤ 100 * (o.1 - o.2)) ∨ (o.1 < 0 ∧ 100 * (o.1 - o.2) ≤ 101 * o.1)

/-- At least two positive counts. -/
def Two (os : List (Int × Int)) : Prop := 2 ≤ (os.filter (fun o => decide (0 < o.1))).length

/-- The total, or what is left of it without one of the files, is zero. -/
def Nothing (os : List (Int × Int)) : Prop := (os.map Prod.fst).sum = 0 ∨ ∃ o ∈ os, (os.map Prod.fst).sum - o.1 = 0

end Ocr.Ending
