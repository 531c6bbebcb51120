import Verif.Model.Table

/-!
# Specification of table.c: a keyed store

The abstract state of a table is the list of its live entries, most recently inserted first.
-/

namespace Ocr.Table

open Ocr.CList

variable {τ : Type} [DecidableEq τ]

abbrev Live (τ : Type) := τ → List Addr

def specStep (s : Live τ) : Op τ → Live τ
  | .insert t e => fun x => if x = t then e :: s t else s x
  | .remove t e => fun x => if x = t then (s t).filter (· ≠ e) else s x
  | .inArray _ => s
  | .empty t _ => fun x => if x = t then [] else s x

def specAll (s : Live τ) : List (Op τ) → Live τ
  | [] => s
  | op :: ops => specAll (specStep s op) ops

/-- Obligations of the caller: an inserted entry is in no table, a removed one is in the table. -/
def legal (s : Live τ) : Op τ → Prop
  | .insert _ e => ∀ t, e ∉ s t
  | .remove t e => e ∈ s t
  | .inArray _ | .empty _ _ => True

def legalAll (s : Live τ) : List (Op τ) → Prop
  | [] => True
  | op :: ops => legal s op ∧ legalAll (specStep s op) ops

end Ocr.Table
