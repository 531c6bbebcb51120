import Verif.Spec.Accuracy

/-!
# What the confusions of an accuracy report should be
-/

namespace Ocr.Acc
open Text Sync

/-- How a character is named in a report: by itself if it can be printed, a combining character after a dotted circle; a newline as `<\n>`;
any other character by its hexadecimal number. -/
def named (U : Unicode) (v : Nat) : List Nat :=
  if v = 10 then ascii "<\\n>"
  else if is_graphic U v then (if is_combining U v then encode_char 0x25CC else []) ++ encode_char v
  else ascii "<" ++ hexPad (if v < 256 then 2 else 4) v ++ ascii ">"

/-- How many of the characters can be named in 24 bytes. -/
def fitting (U : Unicode) (vs : List Nat) : Nat :=
  ((List.range vs.length).takeWhile (fun k => decide (((vs.take (k + 1)).flatMap (named U)).length ≤ 24))).length

/-- A string of characters in a report: if it is too long, only the beginning, followed by dots. -/
def abbreviated (U : Unicode) (vs : List Nat) : List Nat :=
  (vs.take (fitting U vs)).flatMap (named U) ++ (if fitting U vs < vs.length then ascii "..." else [])

/-- The line of an item: the correct and the generated string. -/
def itemKey (U : Unicode) (t0 t1 : List Ch) (s : Sync) : List Nat :=
  ascii "{" ++ abbreviated U ((piece t0 (s.sub 0)).map Ch.value) ++ ascii "}-{" ++ abbreviated U ((piece t1 (s.sub 1)).map Ch.value) ++ ascii "}\n"

/-- The table has one entry for each of the confusions in the items, with the number of the errors and of those in marked items. -/
structure IsConfusions (U : Unicode) (t0 t1 : List Ch) (items : List Sync) (table : List Conf) : Prop where
  nodup  : (table.map Conf.key).Nodup
  keys   : ∀ k, k ∈ table.map Conf.key ↔ ∃ s ∈ items, 0 < itemErrors t0 s ∧ itemKey U t0 t1 s = k
  errors : ∀ c ∈ table, c.errors = ((items.filter (fun s => decide (itemKey U t0 t1 s = c.key))).map (itemErrors t0)).sum
  marked : ∀ c ∈ table, c.marked =
    ((items.filter (fun s => decide (itemKey U t0 t1 s = c.key) && itemMarked t1 s)).map (itemErrors t0)).sum

end Ocr.Acc
