import Verif.Model.Args
import Verif.Model.Stdio

/-!
# Model of the temporary files in util.c

No program calls `tempfilename`, but every program ends by `quit`, which calls `delete_tempfiles`.  `unix` is defined.  A file system is
given by the names of the files that exist; `unlink` of a file that exists succeeds.
-/

namespace Ocr.Temp

/-- util.c:106-116 `create_tempfilename`: the array `name` has 100 elements. -/
def create_tempfilename (exec_name : List Nat) (pid id : Int) : Res (List Nat) :=
  let name := ascii "/tmp/." ++ exec_name ++ fmtInt pid ++ ascii "-" ++ fmtInt id
  if name.length + 1 ≤ 100 then .ok name else .ub

/-- The variable `tempfile_id` (util.c:46), and the files that exist. -/
structure State where
  tempfile_id : Int
  files : List Nat → Bool

/-- `unlink(name)` (util.c:123, 135). -/
def unlink (name : List Nat) (s : State) : State := { s with files := fun x => if x = name then false else s.files x }

/-- util.c:119-125 `tempfilename`. -/
def tempfilename (exec_name : List Nat) (pid : Int) (s : State) : Res (List Nat × State) := do
  let id := Args.narrow16 (s.tempfile_id + 1)
  let name ← create_tempfilename exec_name pid id
  return (name, unlink name { s with tempfile_id := id })

/-- util.c:132-137: the loop of `delete_tempfiles`; `i` is of type `short`. -/
def deleteLoop (exec_name : List Nat) (pid : Int) : (fuel : Nat) → (i : Int) → State → Res State
  | 0, _, _ => .fuel
  | fuel + 1, i, s =>
    if i ≤ s.tempfile_id then do
      let name ← create_tempfilename exec_name pid i
      deleteLoop exec_name pid fuel (Args.narrow16 (i + 1)) (unlink name s)
    else .ok s

/-- util.c:128-138 `delete_tempfiles`. -/
def delete_tempfiles (exec_name : List Nat) (pid : Int) (fuel : Nat) (s : State) : Res State := deleteLoop exec_name pid fuel 1 s

/-- util.c:249-256 `quit` before `exit`; `cleanup_routine` is a null pointer in all programs. -/
def quit (exec_name : List Nat) (pid : Int) (fuel : Nat) (s : State) : Res State := delete_tempfiles exec_name pid fuel s

end Ocr.Temp
