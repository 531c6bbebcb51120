import Verif.Model.Store

/-!
# Tables of entries with contents

The users of tables keep figures in the entries.  Here the contents of the entries are part of the memory: `val a` is the content,
including the key, of the entry at address `a`.
-/

namespace Ocr.Table

open Ocr.CList

variable {τ ε : Type} [DecidableEq τ]

/-- The tables and the contents of all entries (table.h:58-76). -/
structure EMem (τ ε : Type) where
  tables : TMem τ
  val    : Addr → ε

/-- What users do with a table: find or create the entry for a key and change it, collect the entries in the array, empty the table.
`a` is the address that `NEW` returns if an entry is created (ngram.c:67-90, accrpt.c:67-88, wacrpt.c:47-62, vote.c:130-146). -/
inductive EOp (τ ε : Type) where
  | add (t : τ) (key : List Nat) (f : ε → ε) (new : ε) (a : Addr)
  | inArray (t : τ)
  | empty (t : τ) (junk : Addr → Cell)

/-- Execute one of these (ngram.c:67-90; table.c:101-124). -/
def eexec (keyOf : ε → List Nat) (fuel : Nat) (H : EMem τ ε) : EOp τ ε → Res (EMem τ ε)
  | .add t key f new a => do
    let entry ← table_lookup fuel (fun a => keyOf (H.val a)) H.tables t key
    match entry with
    | some e => return { H with val := fun x => if x = e then f (H.val e) else H.val x }
    | none =>
      let val : Addr → ε := fun x => if x = a then new else H.val x
      return ⟨table_insert (fun a => keyOf (val a)) H.tables t a, val⟩
  | .inArray t => do
    let M ← table_in_array H.tables t
    return { H with tables := M }
  | .empty t junk => do
    let (M, _) ← table_empty junk fuel H.tables t
    return { H with tables := M }

/-- Execute a history (ngram.c:67-90; table.c:101-124). -/
def eexecAll (keyOf : ε → List Nat) (fuel : Nat) (H : EMem τ ε) : List (EOp τ ε) → Res (EMem τ ε)
  | [] => .ok H
  | op :: ops => do
    let H ← eexec keyOf fuel H op
    eexecAll keyOf fuel H ops

end Ocr.Table
