import Verif.Model.CList

/-!
# Specification of list.c: sequences

The abstract state gives, for each list, the sequence of item addresses it contains.  The specification of
each call is stated on sequences only; `Shows` says what a user of the structure can observe by walking
pointers.
-/

namespace Ocr.CList

variable {ι : Type} [DecidableEq ι]

/-- Abstract state: the contents of every list. -/
abbrev Abs (ι : Type) := ι → List Addr

def upd (s : Abs ι) (l : ι) (xs : List Addr) : Abs ι := fun k => if k = l then xs else s k

/-- Insert `a` immediately before the (first) occurrence of `ref`. -/
def insBefore (a ref : Addr) : List Addr → List Addr
  | [] => []
  | x :: xs => if x = ref then a :: x :: xs else x :: insBefore a ref xs

/-- Insert `a` immediately after the (first) occurrence of `ref`. -/
def insAfter (a ref : Addr) : List Addr → List Addr
  | [] => []
  | x :: xs => if x = ref then x :: a :: xs else x :: insAfter a ref xs

/-- What each call does to the abstract sequences. -/
def specStep (s : Abs ι) : Op ι → Abs ι
  | .insertFirst l a => upd s l (a :: s l)
  | .insertLast l a => upd s l (s l ++ [a])
  | .insertBefore l a r => upd s l (insBefore a r (s l))
  | .insertAfter l r a => upd s l (insAfter a r (s l))
  | .remove l a => upd s l ((s l).filter (· ≠ a))
  | .inArray _ => s
  | .empty l _ => upd s l []

/-- The caller's obligations (list.h:83-100): an inserted item is not already in a list, a reference item
and a removed item are in the list named. -/
def legal (s : Abs ι) : Op ι → Prop
  | .insertFirst _ a | .insertLast _ a => ∀ k, a ∉ s k
  | .insertBefore l a r | .insertAfter l r a => (∀ k, a ∉ s k) ∧ r ∈ s l
  | .remove l a => a ∈ s l
  | .inArray _ | .empty _ _ => True

def legalAll (s : Abs ι) : List (Op ι) → Prop
  | [] => True
  | op :: ops => legal s op ∧ legalAll (specStep s op) ops

def specAll (s : Abs ι) : List (Op ι) → Abs ι
  | [] => s
  | op :: ops => specAll (specStep s op) ops

/-- `Walk next p xs`: starting at pointer `p` and following `next` until NULL visits exactly `xs`. -/
inductive Walk (next : Addr → Option Addr) : Option Addr → List Addr → Prop
  | nil : Walk next none []
  | cons {a xs} : Walk next (next a) xs → Walk next (some a) (a :: xs)

/-- What can be observed of list `l` in memory `m`: it shows the sequence `xs`. -/
structure Shows (m : Mem ι) (l : ι) (xs : List Addr) : Prop where
  forward  : Walk (fun a => (m.cell a).next) (m.hdr l).first xs
  backward : Walk (fun a => (m.cell a).prev) (m.hdr l).last xs.reverse
  count    : (m.hdr l).count = xs.length
  array    : (m.hdr l).array = none ∨ (m.hdr l).array = some (xs.map some)

end Ocr.CList
