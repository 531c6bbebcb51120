import Verif.Spec.CList
import Verif.Model.Heap

/-!
# What is allocated

The state of the memory is described with the two lists of objects only: `Item` says what an object holds, `Tidy` that the objects
allocated are those of the lists.
-/

namespace Ocr.Heap
open Sync CList

/-- The object at address `a` is allocated and holds `x`; so is its array of substrings. -/
def Item (h : Heap) (a : Addr) (x : Sync) : Prop :=
  ∃ p, h.sync a = some ⟨p, x.mtch⟩ ∧ h.subs p = some x.substr

/-- List 1 (`true`) consists of the objects `xs`, list 2 (`false`) of the objects `ys`.  No other object is allocated, and no other array
of substrings than those of the objects; no array belongs to two objects. -/
structure Tidy (h : Heap) (xs ys : List Addr) : Prop where
  first    : Shows h.links true xs
  second   : Shows h.links false ys
  distinct : (xs ++ ys).Nodup
  objects  : ∀ a, h.sync a ≠ none ↔ a ∈ xs ++ ys
  arrays   : ∀ p, h.subs p ≠ none ↔ ∃ a o, h.sync a = some o ∧ o.substr = p
  unshared : ∀ a b o o', h.sync a = some o → h.sync b = some o' → o.substr = o'.substr → a = b

/-- The number stored where item `x` points to is `number c` if the item is matched with name `c`. -/
def Numbers (h : Heap) (number : Nat → Int) (x : Sync) : Prop := ∀ c, x.mtch = some c → h.long c = some (number c)

end Ocr.Heap
