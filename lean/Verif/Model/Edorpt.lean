import Verif.Model.Report

/-!
# Model of edorpt.c, editopsum.c and editopcost.c
-/

namespace Ocr.Edo
open Text Report

/-- edorpt.h:32. -/
def MAX_MOVE_LENGTH : Nat := 100

/-- edorpt.h:37-48 `Edodata`; the array `moves` has elements 0 to MAX_MOVE_LENGTH. -/
structure Edodata where
  total_insertions : Int
  total_deletions  : Int
  total_moves      : Int
  moves            : Nat → Int

/-- Zero-initialized data: editop.c:42, editopsum.c:30, editopcost.c:30. -/
def Edodata.zero : Edodata := ⟨0, 0, 0, fun _ => 0⟩

/-- edorpt.c:29 with OCREVAL_VERSION "7.0". -/
def TITLE : List Nat := ascii "ocreval Edit Operation Report Version 7.0\n"
/-- edorpt.c:30. -/
def DIVIDER : List Nat := ascii "-----------------------------------------\n"

/-- edorpt.c:80-81: the loop reading the moves. -/
def moveLoop : (fuel : Nat) → (file : List Nat) → Edodata → Res Edodata
  | fuel, file, D =>
    match read_two file with
    | none => .ok D
    | some ((value1, value2, _), rest) =>
      if 0 ≤ value2 ∧ value2 ≤ MAX_MOVE_LENGTH then
        match fuel with
        | 0 => .fuel
        | fuel + 1 =>
          moveLoop fuel rest { D with moves := fun i => if i = value2.toNat then D.moves i + value1 else D.moves i }
      else .ub

/-- edorpt.c:66-86 `read_edorpt` on the contents of the file. -/
def read_edorpt (D : Edodata) (file : List Nat) : Res Edodata :=
  match (do
    let f ← read_title TITLE DIVIDER file
    let (ins, f) ← read_value f
    let (del, f) ← read_value f
    let (moves, f) ← read_value f
    some (ins, del, moves, f)) with
  | none => .err "invalid format in"
  | some (ins, del, moves, f) =>
    let D := { D with
      total_insertions := D.total_insertions + ins
      total_deletions := D.total_deletions + del
      total_moves := D.total_moves + moves }
    if moves > 0 then
      match skip_lines 3 f with
      | some f => moveLoop f.length f D
      | none => .ok D
    else .ok D

/-- edorpt.c:98-103 `write_move`. -/
def write_move (count length : Int) : List Nat := fmtLong 8 count ++ [32] ++ fmtLong 8 length ++ [10]

/-- The loop of edorpt.c:120-122 over the lengths `is`. -/
def write_moves (D : Edodata) : List Nat → List Nat
  | [] => []
  | i :: is => (if D.moves i > 0 then write_move (D.moves i) i else []) ++ write_moves D is

/-- edorpt.c:106-125 `write_edorpt`: the contents of the file. -/
def write_edorpt (D : Edodata) : List Nat :=
  TITLE ++ DIVIDER ++ write_value D.total_insertions "Insertions" ++ write_value D.total_deletions "Deletions" ++
    write_value D.total_moves "Moves" ++
    (if D.total_moves > 0 then ascii "\nMoves\n   Count   Length\n" ++ write_moves D (List.range' 1 MAX_MOVE_LENGTH) else [])

/-- The loop of editopsum.c:42-43 (and editopcost.c): reading several reports into the same data. -/
def readAll (D : Edodata) : List (List Nat) → Res Edodata
  | [] => .ok D
  | f :: fs => do
    let D ← read_edorpt D f
    readAll D fs

/-- editopsum.c:34-46, the report printed. -/
def editopsum (files : List (List Nat)) : Res (List Nat) :=
  if files.length < 2 then .err "not enough input files"
  else do
    let D ← readAll Edodata.zero files
    return write_edorpt D

end Ocr.Edo

namespace Ocr.Edo
open Text Report

/-- editopcost.c:34-42 `decrement_edodata`. -/
def decrement_edodata (D D2 : Edodata) : Edodata where
  total_insertions := D.total_insertions - D2.total_insertions
  total_deletions := D.total_deletions - D2.total_deletions
  total_moves := D.total_moves - D2.total_moves
  moves := fun i => if 1 ≤ i ∧ i ≤ MAX_MOVE_LENGTH then D.moves i - D2.moves i else D.moves i

/-- The loop of editopcost.c:50-55 over the lengths `is`. -/
def resultLoop (D : Edodata) (insertions moves : Int) : List Nat → List Nat
  | [] => []
  | i :: is =>
    fmtLong 3 i ++ [32] ++ fmtLong 10 (insertions + i * moves) ++ [10] ++
      resultLoop D (insertions + i * D.moves i) (moves - D.moves i) is

/-- editopcost.c:45-56 `write_results`. -/
def write_results (D : Edodata) : List Nat :=
  resultLoop D D.total_insertions D.total_moves (List.range (MAX_MOVE_LENGTH + 1))

/-- editopcost.c:59-74: the output for one or two reports. -/
def editopcost (files : List (List Nat)) : Res (List Nat) :=
  match files with
  | [f] => do
    let D ← read_edorpt Edodata.zero f
    return write_results D
  | [f, g] => do
    let D ← read_edorpt Edodata.zero f
    let D2 ← read_edorpt Edodata.zero g
    return write_results (decrement_edodata D D2)
  | _ => .err "invalid number of files"

end Ocr.Edo
