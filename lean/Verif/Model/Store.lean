import Verif.Model.Table

/-!
# Tables as seen by their users

table.c is modelled at pointer level in `Ocr.Table`; C02 shows that a lookup yields the most recent entry with the
given key.  The programs are modelled over the list of the entries of a table, most recent first.
-/

namespace Ocr.Store

variable {ε : Type}

/-- table.c:59-67 `table_lookup` (C02). -/
def lookup (keyOf : ε → List Nat) (key : List Nat) (s : List ε) : Option ε := s.find? (fun e => keyOf e = key)

/-- Apply `f` to the entry that `table_lookup` finds; `none` if there is none (table.c:59-67). -/
def modify (keyOf : ε → List Nat) (key : List Nat) (f : ε → ε) : List ε → Option (List ε)
  | [] => none
  | e :: s => if keyOf e = key then some (f e :: s) else (modify keyOf key f s).map (e :: ·)

/-- The pattern used by all users of tables: look up `key`, change the entry if found, insert `new` otherwise
(for instance ngram.c:67-90). -/
def add (keyOf : ε → List Nat) (key : List Nat) (f : ε → ε) (new : ε) (s : List ε) : List ε :=
  (modify keyOf key f s).getD (new :: s)

/-- table.c:101-112 `table_in_array`: bucket by bucket, most recent first within a bucket. -/
def in_array (keyOf : ε → List Nat) (s : List ε) : List ε :=
  (List.finRange Table.TABLE_SIZE).flatMap (fun i => s.filter (fun e => Table.table_index (keyOf e) = i))

end Ocr.Store
