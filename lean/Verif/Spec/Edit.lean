import Verif.Model.Text

/-!
# Edit scripts: what synchronization costs mean
-/

namespace Ocr

/-- `Edits a b n`: some sequence of `n` single-character substitutions, deletions and insertions turns `a` into `b`; all
other characters are kept, and the reject character `~` is never kept. -/
inductive Edits : List Nat → List Nat → Nat → Prop
  | nil : Edits [] [] 0
  | keep {a b n} (c : Nat) : c ≠ 126 → Edits a b n → Edits (c :: a) (c :: b) n
  | subst {a b n} (x y : Nat) : Edits a b n → Edits (x :: a) (y :: b) (n + 1)
  | del {a b n} (x : Nat) : Edits a b n → Edits (x :: a) b (n + 1)
  | ins {a b n} (y : Nat) : Edits a b n → Edits a (y :: b) (n + 1)

/-- `d` is the edit distance of `a` and `b`. -/
def IsEditDistance (a b : List Nat) (d : Nat) : Prop := Edits a b d ∧ ∀ n, Edits a b n → d ≤ n

end Ocr
