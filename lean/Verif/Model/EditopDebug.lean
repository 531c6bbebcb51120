import Verif.Model.Editop
import Verif.Model.Synctext
import Verif.Model.Programs

/-!
# Model of the debugging output of editop.c

With option `-D`, editop.c:120-224 prints the list of blocks whenever it has changed.  The functions here are those of
`Verif/Model/Editop.lean` with what they print on `stdout`.
-/

namespace Ocr.Edo
open Text Sync

/-- editop.c:53-62 `display`: what is printed for the list `l`. -/
def display (l : List Block) (label : List Nat) : List Nat :=
  Synctext.padRight 9 label ++ ascii ":" ++
    l.flatMap (fun b => ascii " {" ++ fmtInt b.mtch ++ ascii ":" ++ fmtInt b.length ++ ascii "}") ++ [10, 10]

/-- editop.c:120-139 `combine_adjacent`: the new list and what is printed. -/
def combine_adjacentD (debug : Bool) (l : List Block) : Res (List Block × List Nat) := do
  let l ← combine_adjacent l
  return (l, if debug then display l (ascii "combined") else [])

/-- editop.c:185-205 `perform_move`: the new data and list, and what is printed; the label is written into `label[20]`. -/
def perform_moveD (debug : Bool) (D : Edodata) (l : List Block) (candidate : List Candidate) (sync : Block) :
    Res (Edodata × List Block × List Nat) := do
  let (D, l) ← perform_move D l candidate sync
  let label := ascii "moved " ++ fmtInt sync.mtch
  if debug then
    if label.length < 20 then return (D, l, display l label) else .ub
  else return (D, l, [])

/-- editop.c:216-223: the loop of `count_moves`. -/
def countLoopD (debug : Bool) : (fuel : Nat) → Edodata → List Block → Res (Edodata × List Nat)
  | fuel, D, l =>
    if l.length > 1 then
      match fuel with
      | 0 => .fuel
      | fuel + 1 => do
        let candidate ← find_candidates l
        let sync ← find_move l candidate
        let (D, l, out1) ← perform_moveD debug D l candidate sync
        let (l, out2) ← combine_adjacentD debug l
        let (D, out3) ← countLoopD debug fuel D l
        return (D, out1 ++ out2 ++ out3)
    else .ok (D, [])

/-- editop.c:208-224 `count_moves`: the new data and what is printed. -/
def count_movesD (debug : Bool) (D : Edodata) (l : List Block) : Res (Edodata × List Nat) := do
  let out1 := if debug then display l (ascii "original") else []
  let (l, out2) ← combine_adjacentD debug l
  let (D, out3) ← countLoopD debug l.length D l
  return (D, out1 ++ out2 ++ out3)

/-- editop.c:239-242, for the character values of the two texts: the data and what is printed. -/
def editopD (debug : Bool) (text1 text2 : List Nat) : Res (Edodata × List Nat) := do
  let r ← transpose_sync text1 text2
  let total_insertions ← count_insertions text1 r.items1 0
  let (l, total_deletions) ← count_deletions r.cells r.items2 0
  count_movesD debug { Edodata.zero with total_insertions, total_deletions } l

end Ocr.Edo

namespace Ocr.Prog
open Text

/-- editop.c:227-245 `main`: what is printed on `stdout` before the report, and the report. -/
def editopDebug (U : Unicode) (junk : List Nat) (fs : Fs) (argv : List (List Nat)) : Res (List Nat × Output) := do
  let (_, argv, V) ← Args.initialize_ (some Args.editopOptions) true argv start
  if argv.length < 2 ∨ argv.length > 3 then .err "invalid number of files"
  else do
    let (text0, text1) ← readPair U junk fs argv
    let (D, out) ← Edo.editopD (V.boolean 0) (text0.map Ch.value) (text1.map Ch.value)
    return (out, ⟨argv[2]?, Edo.write_edorpt D⟩)

end Ocr.Prog
