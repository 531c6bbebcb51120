import Verif.Model.CLib
import Verif.Model.Util

/-!
# Model of the command line in util.c

An argument is the list of its bytes without the terminating NUL.  The variables that options refer to are numbered; a variable of
type `char *` holds `none` for a null pointer.  Ending the program by `show_usage` is the outcome `err "usage"`.
-/

namespace Ocr.Args

/-- The value of an integer converted to `short` (util.c:141-152, 215-235). -/
def narrow16 (x : Int) : Int := (x + 2^15) % 2^16 - 2^15

/-- util.c:150, the loop of `basefilename`, from position `i` downwards. -/
def baseLoop (pathname : List Nat) : (fuel : Nat) → (i : Int) → Res Int
  | 0, _ => .fuel
  | fuel + 1, i =>
    if i ≥ 0 then do
      let c ← byteAt pathname i.toNat
      if c ≠ 47 then baseLoop pathname fuel (i - 1) else return i
    else .ok i

/-- util.c:141-152 `basefilename`, for the delimiter `/` (`unix` is defined): the string that the returned pointer points to.
A pointer before the start of the string is `ub`. -/
def basefilename (pathname : List Nat) : Res (List Nat) := do
  let i ← baseLoop pathname (pathname.length + 1) (narrow16 ((pathname.length : Int) - 1))
  if i + 1 < 0 then .ub else return pathname.drop (i + 1).toNat

/-- util.h:101-113 `Option`. -/
structure Opt where
  name    : Nat
  string  : Option Nat
  boolean : Option Nat
  deriving DecidableEq

/-- The variables that options set (the pointers of util.h `Option`; util.c:159-211 assigns them). -/
structure Vars where
  string  : Nat → Option (List Nat)
  boolean : Nat → Bool

/-- util.c:191, the loop of `split_option`: the option with the given name, if any.  The list holds the elements of the array
before the one with the name `'\0'`. -/
def findOpt (c : Nat) : List Opt → Option Opt
  | [] => none
  | o :: os => if c ≠ o.name then findOpt c os else some o

/-- util.c:201-207, the part of `split_option` for a Boolean option. -/
def splitBool (c2 : Nat) (o : Opt) (V : Vars) : Res (Bool × Vars) :=
  match o.boolean with
  | some v =>
    if c2 = 0 then
      if V.boolean v then .err "duplicate option"
      else .ok (false, { V with boolean := fun x => if x = v then true else V.boolean x })
    else .err "invalid option"
  | none => .err "invalid option"

/-- util.c:194-207, the part of `split_option` after the search. -/
def splitFound (arg : List Nat) (next_arg : Option (List Nat)) (c2 : Nat) (o : Opt) (V : Vars) : Res (Bool × Vars) :=
  match o.string with
  | some v =>
    if c2 ≠ 0 ∨ next_arg.isSome then
      if (V.string v).isSome then .err "duplicate option"
      else
        let value := if c2 ≠ 0 then some (arg.drop 2) else next_arg
        .ok (decide (c2 = 0), { V with string := fun x => if x = v then value else V.string x })
    else splitBool c2 o V
  | none => splitBool c2 o V

/-- util.c:184-212 `split_option`: whether the next argument has been used, and the variables.  `option` is `none` for a null
pointer. -/
def split_option (option : Option (List Opt)) (arg : List Nat) (next_arg : Option (List Nat)) (V : Vars) : Res (Bool × Vars) :=
  match option with
  | none => .err "invalid option"
  | some os => do
    let c1 ← byteAt arg 1
    match findOpt c1 os with
    | none => .err "invalid option"
    | some o => do
      let c2 ← byteAt arg 2
      splitFound arg next_arg c2 o V

/-- `strncmp("-help", arg, strlen(arg)) == 0` (util.c:226). -/
def helpLoop : (lit arg : List Nat) → Bool
  | _, [] => true
  | [], _ :: _ => false
  | x :: xs, y :: ys => if x = y then helpLoop xs ys else false

/-- The condition of util.c:226. -/
def isHelp (arg : List Nat) : Bool := helpLoop (ascii "-help") arg

/-- The condition of util.c:224. -/
def isOption (arg : List Nat) : Res Bool := do
  let c0 ← byteAt arg 0
  if c0 = 45 then do
    let c1 ← byteAt arg 1
    return decide (c1 ≠ 0)
  else return false

/-- util.c:224-233, the body of the loop of `parse_args`: the new `i`, `j`, `argv` and variables. -/
def argStep (option : Option (List Opt)) (argc i j : Nat) (argv : List (List Nat)) (V : Vars) :
    Res (Nat × Nat × List (List Nat) × Vars) := do
  let arg ← rd argv i
  let b ← isOption arg
  if b then
    if isHelp arg then .err "usage"
    else do
      let next ← (if i + 1 < argc then do let a ← rd argv (i + 1); return some a else return none : Res (Option (List Nat)))
      let (used, V) ← split_option option arg next V
      return (if used then i + 2 else i + 1, j, argv, V)
  else do
    let argv ← wr argv j arg
    return (i + 1, j + 1, argv, V)

/-- util.c:223-233, the loop of `parse_args`; `i` and `j` are of type `short`. -/
def argsLoop (option : Option (List Opt)) (argc : Nat) : (fuel i j : Nat) → (argv : List (List Nat)) → (V : Vars) →
    Res (List (List Nat) × Nat × Vars)
  | 0, _, _, _, _ => .fuel
  | fuel + 1, i, j, argv, V =>
    if i < argc then
      if 32767 < i then .ub
      else do
        let (i, j, argv, V) ← argStep option argc i j argv V
        argsLoop option argc fuel i j argv V
    else .ok (argv, j, V)

/-- util.c:215-235 `parse_args`: the new `argv` and `argc`, and the variables. -/
def parse_args (option : Option (List Opt)) (usage_when_no_args : Bool) (argv : List (List Nat)) (V : Vars) :
    Res (List (List Nat) × Nat × Vars) :=
  if argv.length = 1 ∧ usage_when_no_args then .err "usage"
  else argsLoop option argv.length argv.length 1 0 argv V

/-- util.c:238-246 `initialize`: `exec_name`, the arguments left, and the variables. -/
def initialize_ (option : Option (List Opt)) (usage_when_no_args : Bool) (argv : List (List Nat)) (V : Vars) :
    Res (List Nat × List (List Nat) × Vars) := do
  let path ← rd argv 0
  let exec_name ← basefilename path
  let (argv, argc, V) ← parse_args option usage_when_no_args argv V
  return (exec_name, argv.take argc, V)

/-- vote.c:34-42; strings 0, 1, 2 are `outputfilename`, `sfraction`, `wfraction`, Booleans 0, 1 are `debug`, `optimize`. -/
def voteOptions : List Opt :=
  [⟨68, none, some 0⟩, ⟨79, none, some 1⟩, ⟨111, some 0, none⟩, ⟨115, some 1, none⟩, ⟨119, some 2, none⟩]

/-- synctext.c:33-40; Booleans 0 to 3 are `heuristic`, `textopt.case_insensitive`, `show_suspect`, `transpose`. -/
def synctextOptions : List Opt := [⟨72, none, some 0⟩, ⟨105, none, some 1⟩, ⟨115, none, some 2⟩, ⟨84, none, some 3⟩]

/-- ngram.c:35-39; string 0 is `nstring`. -/
def ngramOptions : List Opt := [⟨110, some 0, none⟩]

/-- wordacc.c:32-36; string 0 is `stopwordfilename`. -/
def wordaccOptions : List Opt := [⟨83, some 0, none⟩]

/-- editop.c:32-36; Boolean 0 is `debug`. -/
def editopOptions : List Opt := [⟨68, none, some 0⟩]

end Ocr.Args
