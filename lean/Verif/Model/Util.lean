import Verif.Model.CLib

/-!
# Model of the string routines of util.c
-/

namespace Ocr

/-- Reading byte `i` of a NUL-terminated string whose bytes before the NUL are `s`; reading past the NUL
is undefined (as in util.c:62-71). -/
def byteAt (s : List Nat) (i : Nat) : Res Nat :=
  if i < s.length then .ok (s.getD i 0) else if i = s.length then .ok 0 else .ub

/-- util.c:66: `for (i = 0; s1[i] && s1[i] == s2[i]; i++);`. -/
def ustrcmpLoop (s1 s2 : List Nat) : (fuel i : Nat) → Res Nat
  | fuel, i => do
    let c1 ← byteAt s1 i
    if c1 ≠ 0 then
      let c2 ← byteAt s2 i
      if c1 = c2 then
        match fuel with
        | 0 => .fuel
        | fuel + 1 => ustrcmpLoop s1 s2 fuel (i + 1)
      else .ok i
    else .ok i

/-- util.c:62-71 `ustrcmp` with explicit outcomes. -/
def ustrcmpRes (s1 s2 : List Nat) : Res Int := do
  let i ← ustrcmpLoop s1 s2 s1.length 0
  let c1 ← byteAt s1 i
  let c2 ← byteAt s2 i
  if c1 ≠ 0 ∨ c2 ≠ 0 then
    .ok (if c1 < c2 then -1 else 1)
  else .ok 0

/-- util.c:62: the value returned by `ustrcmp` (`ustrcmpRes` never fails, see `ustrcmpRes_eq`). -/
def ustrcmp (s1 s2 : List Nat) : Int :=
  match ustrcmpRes s1 s2 with
  | .ok v => v
  | _ => 0

/-- Conversion of a `long` return value to `int` (implementation-defined in C; two's complement wrap-around on every
supported compiler) (sort.c:25-26, 31-54). -/
def narrow (x : Int) : Int := (x + 2^31) % 2^32 - 2^31

end Ocr
