import Verif.Model.World

/-!
# Model of the signals in util.c

Simplified: a handler stays installed while it runs and afterwards (as with the `signal` of BSD and GNU; on System V a second signal
would end the program at once).  A signal may arrive after any byte that is printed.  The functions of the C library that the handler
calls are assumed to work although another one may have been interrupted; `exit` writes what is in the buffers, so what counts is what
has been printed.  No program asks for temporary files or has a `cleanup_routine`, so `quit` changes no files (C93).
-/

namespace Ocr.Signal
open Prog Process Disk

/-- The number of `SIGINT` (util.c:168). -/
def SIGINT : Nat := 2

/-- The number of `SIGTERM` (util.c:169). -/
def SIGTERM : Nat := 15

/-- What has been set up: the variable `exec_name` (util.c:37) and the signals with a handler (util.c:168-169). -/
structure Setup where
  exec_name : Option (List Nat)
  trapped   : List Nat
  deriving DecidableEq

/-- util.c:166-170 `trap_interrupts`: the two calls of `signal`. -/
def trap_interrupts : List (Setup → Setup) :=
  [fun s => { s with trapped := SIGINT :: s.trapped }, fun s => { s with trapped := SIGTERM :: s.trapped }]

/-- util.c:238-246 `initialize` before `parse_args`, step by step; `base` is the value of `basefilename(argv[0])`. -/
def initialize_ (base : List Nat) : List (Setup → Setup) := (fun s => { s with exec_name := some base }) :: trap_interrupts

/-- The states while the steps are made (for instance util.c:243-244), the first one included. -/
def during : List (Setup → Setup) → Setup → List Setup
  | [], s => [s]
  | f :: fs, s => s :: during fs (f s)

/-- util.c:155-163 `handle_interrupt`: the new value of `handling_interrupt`, and the call of `error`, which does not return. -/
def handle_interrupt (exec_name : List Nat) (handling_interrupt : Bool) : Bool × Option (Out Unit) :=
  if handling_interrupt then (handling_interrupt, none) else (true, some (error exec_name (ascii "process killed")))

/-- What happens next: a signal, or the next byte is printed (util.c:268). -/
inductive Event where
  | signal (number : Nat)
  | step
  deriving DecidableEq

/-- How the program ends: by `exit` (util.c:255), or by a signal without a handler; and what it leaves. -/
inductive End where
  | exit (status : Nat) (s : Snapshot)
  | killed (number : Nat) (s : Snapshot)

/-- util.c:265-270 `error`, called by the handler: the bytes `rest` are still to be printed; meanwhile signals arrive. -/
def dying (exec_name : List Nat) (trapped : List Nat) : List Event → (handling_interrupt : Bool) → (status : Nat) → (rest : List Nat) → Snapshot → End
  | [], _, status, rest, s => .exit status { s with err := s.err ++ rest }
  | .step :: _, _, status, [], s => .exit status s
  | .step :: events, h, status, b :: rest, s => dying exec_name trapped events h status rest { s with err := s.err ++ [b] }
  | .signal n :: events, h, status, rest, s =>
    if n ∈ trapped then
      match handle_interrupt exec_name h with
      | (h, some (.exit status rest)) => dying exec_name trapped events h status rest s
      | (h, _) => dying exec_name trapped events h status rest s
    else .killed n s

/-- A signal arrives while the program is at work (util.c:155-163): the program ends, or it goes on (`none`). -/
def arrive (exec_name : List Nat) (trapped : List Nat) (number : Nat) (events : List Event) (s : Snapshot) : Option End :=
  if number ∈ trapped then
    match handle_interrupt exec_name false with
    | (h, some (.exit status rest)) => some (dying exec_name trapped events h status rest s)
    | (_, _) => none
  else some (.killed number s)

end Ocr.Signal
