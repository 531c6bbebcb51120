import Verif.Model.TextHeap
import Verif.Spec.CList

/-!
# Specification of the use of memory by texts, word lists and tables

The state a user has in mind: a text, which is a sequence of characters, a list of words and a table.  `Holds` says that the memory
contains exactly this and nothing else; `Agree` says that two computations have the same outcome.
-/

namespace Ocr.TextHeap
open Text Res CList

/-- The same outcome, with related results. -/
def Agree {α β : Type} (R : α → β → Prop) : Res α → Res β → Prop
  | .ok a, .ok b => R a b
  | .err m, .err n => m = n
  | .ub, .ub => True
  | .fuel, .fuel => True
  | _, _ => False

/-- The word at `b` is `w`: no string, or a string of its own that ends with a null character. -/
def IsWord (h : THeap) (b : Addr) : Option (List Nat) → Prop
  | none => h.word b = some none
  | some s => ∃ p, h.word b = some (some p) ∧ h.str p = some (s ++ [0])

/-- The strings of the words at `bs`. -/
def stringsOf (h : THeap) (bs : List Addr) : List Addr := bs.filterMap fun b => (h.word b).join

/-- The memory contains the characters `text` at `as`, the words `words` at `bs`, the strings of the words, and the strings at `keys`;
nothing else is allocated, and no two of these are in the same place. -/
structure Holds (h : THeap) (as bs : List Addr) (text : List Ch) (words : List (Option (List Nat))) (keys : List Addr) : Prop where
  chars       : Shows h.links true as
  list        : Shows h.links false bs
  contents    : as.map h.char = text.map some
  spelled     : List.Forall₂ (IsWord h) bs words
  named       : ∀ k ∈ keys, h.str k ≠ none
  distinct    : (as ++ bs).Nodup ∧ (stringsOf h bs ++ keys).Nodup
  onlyChars   : ∀ a, h.char a ≠ none → a ∈ as
  onlyWords   : ∀ b, h.word b ≠ none → b ∈ bs
  onlyStrings : ∀ p, h.str p ≠ none → p ∈ stringsOf h bs ++ keys

/-- The entries of a table: the key of each is an allocated string. -/
def IsTable {α ε : Type} (h : THeap) (key : ε → List Nat) (data : ε → α) (es : List (Entry α)) (ts : List ε) : Prop :=
  List.Forall₂ (fun e t => h.str e.key = some (key t ++ [0]) ∧ e.data = data t) es ts

/-! ## Any use of the functions -/

/-- What a program does with its text, its word list and its table of terms. -/
inductive Op where
  | read (file : List Nat)
  | findWords
  | addWords
  | emptyText
  | emptyWords

/-- The program, in memory. -/
def run (U : Unicode) (prop : Nat → Word.WB) (nfc : List Nat → Option (List Nat)) (junk : List Nat) (junk' : Nat) :
    List Op → THeap × Textopt × List (Entry (Int × Int)) → Res (THeap × Textopt × List (Entry (Int × Int)))
  | [], s => .ok s
  | .read file :: ops, (h, opt, es) => do
    let (h, opt) ← read_text U junk file opt h
    run U prop nfc junk junk' ops (h, opt, es)
  | .findWords :: ops, (h, opt, es) => do
    let h ← find_words U prop nfc junk' h
    run U prop nfc junk junk' ops (h, opt, es)
  | .addWords :: ops, (h, opt, es) => do
    let (h, es) ← addWords h.next (h.links.hdr false).first es h
    run U prop nfc junk junk' ops (h, opt, es)
  | .emptyText :: ops, (h, opt, es) => do
    let h ← empty_text h
    run U prop nfc junk junk' ops (h, opt, es)
  | .emptyWords :: ops, (h, opt, es) => do
    let h ← empty_words h
    run U prop nfc junk junk' ops (h, opt, es)

/-- The state a user has in mind. -/
structure User where
  text  : List Ch
  words : List (Option (List Nat))
  opt   : Textopt
  terms : List Term

/-- The program, on sequences. -/
def plan (U : Unicode) (prop : Nat → Word.WB) (nfc : List Nat → Option (List Nat)) (junk : List Nat) (junk' : Nat) : List Op → User → Res User
  | [], s => .ok s
  | .read file :: ops, s => do
    let (text, opt) ← Text.read_text U junk s.text file s.opt
    plan U prop nfc junk junk' ops { s with text := text, opt := opt }
  | .findWords :: ops, s => do
    let words ← Word.find_words U prop nfc junk' s.text
    plan U prop nfc junk junk' ops { s with words := s.words ++ words }
  | .addWords :: ops, s => do
    let terms ← Wordfreq.addWords s.words s.terms
    plan U prop nfc junk junk' ops { s with terms := terms }
  | .emptyText :: ops, s => plan U prop nfc junk junk' ops { s with text := [] }
  | .emptyWords :: ops, s => plan U prop nfc junk junk' ops { s with words := [] }

end Ocr.TextHeap
