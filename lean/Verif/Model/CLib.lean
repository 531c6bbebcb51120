/-!
# Outcomes of C computations

`Res α` distinguishes a normal result from a call of `error()`/`error_string()` (util.c:265-278, which
print a message and exit), from undefined behaviour (out-of-bounds access, use of an uninitialized
pointer, ...), and from a loop that did not finish within the fuel supplied by the model.
-/

namespace Ocr

/-- The outcome of a C function: a value, a call of `error` (util.c), undefined behaviour, or a loop that has used up
its fuel (util.c:265-278). -/
inductive Res (α : Type) where
  | ok (a : α)
  | err (msg : String)
  | ub
  | fuel
  deriving Repr, DecidableEq

namespace Res

/-- One statement after the other; `error` does not return (util.c:265-278). -/
@[inline] def bind {α β : Type} (x : Res α) (f : α → Res β) : Res β :=
  match x with
  | ok a => f a
  | err m => err m
  | ub => ub
  | fuel => fuel

instance : Monad Res where
  pure := ok
  bind := bind

@[simp] theorem bind_ok {α β : Type} (a : α) (f : α → Res β) : (ok a >>= f) = f a := rfl
@[simp] theorem bind_err {α β : Type} (m : String) (f : α → Res β) : (err m >>= f) = err m := rfl
@[simp] theorem bind_ub {α β : Type} (f : α → Res β) : ((ub : Res α) >>= f) = ub := rfl
@[simp] theorem bind_fuel {α β : Type} (f : α → Res β) : ((fuel : Res α) >>= f) = fuel := rfl
@[simp] theorem pure_eq {α : Type} (a : α) : (pure a : Res α) = ok a := rfl

theorem bind_eq_ok {α β : Type} {x : Res α} {f : α → Res β} {b : β} :
    (x >>= f) = ok b ↔ ∃ a, x = ok a ∧ f a = ok b := by
  cases x <;> simp

end Res

/-- Checked array read: out of bounds is undefined behaviour (as in accuracy.c:140-143). -/
def rd {α : Type} (xs : List α) (i : Nat) : Res α :=
  match xs[i]? with
  | some a => .ok a
  | none => .ub

/-- Checked array write: out of bounds is undefined behaviour (as in sort.c:31-54). -/
def wr {α : Type} (xs : List α) (i : Nat) (a : α) : Res (List α) :=
  if i < xs.length then .ok (xs.set i a) else .ub

/-- Bytes of an ASCII C string literal (without the terminating NUL) (for instance text.c:33-34). -/
def ascii (s : String) : List Nat := s.toList.map Char.toNat

end Ocr
