import Verif.Model.Charclass
import Verif.Model.Compare
import Verif.Model.Store

/-!
# Accuracy data: accrpt.h, and the part of accrpt.c that changes it
-/

namespace Ocr.Acc
open Text Charclass

/-- accrpt.h:35-42 `Accops`. -/
structure Accops where
  ins    : Int
  subst  : Int
  del    : Int
  errors : Int
  deriving DecidableEq, Repr

/-- accrpt.h:44-49 `Accclass`. -/
structure Accclass where
  count  : Int
  missed : Int
  deriving DecidableEq, Repr

/-- accrpt.h:59-79 `Accdata`.  The arrays are functions; the bounds are checked where they are accessed.  `conftable` is
the list of its entries, most recent first. -/
structure Accdata where
  characters        : Int
  errors            : Int
  reject_characters : Int
  suspect_markers   : Int
  false_marks       : Int
  marked_ops        : Accops
  unmarked_ops      : Accops
  total_ops         : Accops
  large_class       : Nat → Accclass
  total_class       : Accclass
  conftable         : List Conf
  small_class       : Nat → Accclass

/-- A zero-initialized (static) `Accdata`: accuracy.c:36, accsum.c:30. -/
def Accdata.zero : Accdata :=
  ⟨0, 0, 0, 0, 0, ⟨0, 0, 0, 0⟩, ⟨0, 0, 0, 0⟩, ⟨0, 0, 0, 0⟩, fun _ => ⟨0, 0⟩, ⟨0, 0⟩, [], fun _ => ⟨0, 0⟩⟩

/-- accrpt.c:48-54 `update_class`. -/
def update_class (c : Accclass) (count missed : Int) : Accclass := ⟨c.count + count, c.missed + missed⟩

/-- accrpt.c:57-65 `add_class`. -/
def add_class (D : Accdata) (value : Nat) (count missed : Int) : Res Accdata := do
  let c ← charclass value
  if c < MAX_CHARCLASSES ∧ value < NUM_CHARVALUES then
    return { D with
      large_class := fun i => if i = c then update_class (D.large_class i) count missed else D.large_class i
      total_class := update_class D.total_class count missed
      small_class := fun i => if i = value then update_class (D.small_class i) count missed else D.small_class i }
  else .ub

/-- accrpt.c:68-88 `add_conf`. -/
def add_conf (D : Accdata) (key : List Nat) (errors marked : Int) : Accdata :=
  let f := fun conf : Conf => { conf with errors := conf.errors + errors, marked := conf.marked + marked }
  { D with conftable := Store.add Conf.key key f ⟨key, errors, marked⟩ D.conftable }

/-- accuracy.c:64-71 `add_ops`. -/
def add_ops (sum ops : Accops) : Accops :=
  ⟨sum.ins + ops.ins, sum.subst + ops.subst, sum.del + ops.del, sum.errors + ops.errors⟩

end Ocr.Acc
