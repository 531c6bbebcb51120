import Verif.Model.Util

/-!
# The comparison routines passed to sort() by the report writers
-/

namespace Ocr

/-- wacrpt.h:38-47 `Term`: a distinct word with its counts. -/
structure Term where
  key    : List Nat
  count  : Int
  missed : Int
  deriving DecidableEq, Repr

/-- accrpt.h:51-54 `Conf`. -/
structure Conf where
  key    : List Nat
  errors : Int
  marked : Int
  deriving DecidableEq, Repr

/-- ngram.c:45-48 `Sequence` (`value` holds the first `n` elements of the array of the same name). -/
structure Sequence where
  key     : List Nat
  value   : List Nat
  count   : Int
  suspect : Int
  deriving DecidableEq, Repr

/-- wacrpt.c:211-215 `compare_term`, identical to wordfreq.c:52-56 `order_by_key`. -/
def compare_term (t1 t2 : Term) : Int := ustrcmp t1.key t2.key

/-- wordfreq.c:59-65 `order_by_count`: the `long` difference is returned as `int`. -/
def wf_order_by_count (t1 t2 : Term) : Int :=
  if t1.count ≠ t2.count then narrow (t2.count - t1.count)
  else compare_term t1 t2

/-- accrpt.c:314-322 `compare_conf`. -/
def compare_conf (c1 c2 : Conf) : Int :=
  if c1.errors ≠ c2.errors then narrow (c2.errors - c1.errors)
  else if c1.marked ≠ c2.marked then narrow (c2.marked - c1.marked)
  else ustrcmp c1.key c2.key

/-- ngram.c:126-129: comparison of the first `n` values. -/
def compareValues : List Nat → List Nat → Int
  | v1 :: vs1, v2 :: vs2 => if v1 = v2 then compareValues vs1 vs2 else if v1 < v2 then -1 else 1
  | _, _ => 0

/-- ngram.c:122-130 `order_by_value`. -/
def ng_order_by_value (s1 s2 : Sequence) : Int := compareValues s1.value s2.value

/-- ngram.c:133-141 `order_by_count`. -/
def ng_order_by_count (s1 s2 : Sequence) : Int :=
  if s1.count ≠ s2.count then narrow (s2.count - s1.count)
  else if s1.suspect ≠ s2.suspect then narrow (s2.suspect - s1.suspect)
  else ng_order_by_value s1 s2

end Ocr
