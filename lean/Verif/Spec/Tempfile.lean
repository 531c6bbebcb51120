import Verif.Model.Tempfile

/-!
# Specification of the temporary files: what a program may do, and what is to remain of it
-/

namespace Ocr.Temp

/-- What a program does with files: it asks for a temporary name, it creates a file, it removes one. -/
inductive Act where
  | temp
  | create (name : List Nat)
  | remove (name : List Nat)

/-- The files created and not removed again. -/
def left : List Act → (List Nat → Bool) → List Nat → Bool
  | [], files => files
  | .temp :: acts, files => left acts files
  | .create name :: acts, files => left acts fun x => if x = name then true else files x
  | .remove name :: acts, files => left acts fun x => if x = name then false else files x

/-- How often a name is asked for. -/
def requests : List Act → Nat
  | [] => 0
  | .temp :: acts => requests acts + 1
  | _ :: acts => requests acts

/-- The program; each name is given with whether a file of that name existed when it was given. -/
def perform (exec_name : List Nat) (pid : Int) : List Act → State → Res (List (List Nat × Bool) × State)
  | [], s => .ok ([], s)
  | .temp :: acts, s => do
    let (name, s) ← tempfilename exec_name pid s
    let (names, t) ← perform exec_name pid acts s
    return ((name, s.files name) :: names, t)
  | .create name :: acts, s => perform exec_name pid acts { s with files := fun x => if x = name then true else s.files x }
  | .remove name :: acts, s => perform exec_name pid acts (unlink name s)

/-- The program, ended by `quit`. -/
def session (exec_name : List Nat) (pid : Int) (acts : List Act) (files : List Nat → Bool) (fuel : Nat) :
    Res (List (List Nat × Bool) × State) := do
  let (names, s) ← perform exec_name pid acts ⟨0, files⟩
  let s ← quit exec_name pid fuel s
  return (names, s)

end Ocr.Temp
