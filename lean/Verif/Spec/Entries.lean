import Verif.Model.Entries

/-!
# Tables of entries as stores

A store is the list of the contents of the entries of a table, most recent first.
-/

namespace Ocr.Table

open Ocr.CList

variable {τ ε : Type} [DecidableEq τ]

/-- The abstract effect on the stores. -/
def estep (keyOf : ε → List Nat) (S : τ → List ε) : EOp τ ε → τ → List ε
  | .add t key f new _ => fun x => if x = t then Store.add keyOf key f new (S t) else S x
  | .inArray _ => S
  | .empty t _ => fun x => if x = t then [] else S x

/-- The address that an operation may allocate. -/
def EOp.addr : EOp τ ε → List Addr
  | .add _ _ _ _ a => [a]
  | _ => []

/-- Created entries have the key asked for, and changes keep it. -/
def EOp.KeyOk (keyOf : ε → List Nat) : EOp τ ε → Prop
  | .add _ key f new _ => keyOf new = key ∧ ∀ e, keyOf (f e) = keyOf e
  | _ => True

end Ocr.Table
