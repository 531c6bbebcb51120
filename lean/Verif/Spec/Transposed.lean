import Verif.Spec.Greedy
import Verif.Spec.EditopTrace
import Verif.Model.Edorpt

/-!
# Matching by longest common strings in any order

What `transpose_sync` is meant to find, told in terms of strings: both texts are cut into pieces; of all strings common to a piece of
the first text and a piece of the second that are not matched yet, a longest one is matched, and so on until there are none.
-/

namespace Ocr.Sync

/-- A piece of a text, with the number of its match, if it is matched. -/
abbrev Piece := Option Nat × List Nat

/-- `w` is a longest string common to unmatched pieces of `P` and `Q`: it occurs in the piece `u` number `p` at `i` and in the piece
`v` number `q` at `j`.  Of several, it is the first in the order of `p`, `q`, `i` and `j`. -/
structure Best (P Q : List Piece) (p q : Nat) (u v : List Nat) (i j : Nat) (w : List Nat) : Prop where
  first    : P[p]? = some (none, u)
  second   : Q[q]? = some (none, v)
  nonempty : w ≠ []
  occurs   : Occurs u v i j w
  longest  : ∀ u' v' i' j' w', (none, u') ∈ P → (none, v') ∈ Q → Occurs u' v' i' j' w' → w'.length ≤ w.length
  earliest : ∀ p' q' u' v' i' j' w', P[p']? = some (none, u') → Q[q']? = some (none, v') → Occurs u' v' i' j' w' →
    w'.length = w.length → p < p' ∨ p = p' ∧ (q < q' ∨ q = q' ∧ (i < i' ∨ i = i' ∧ j ≤ j'))

/-- A piece that is not matched, unless it is empty. -/
def leftover (u : List Nat) : List Piece := if u = [] then [] else [(none, u)]

/-- The piece `u` number `p` is cut in three: what comes before `i`, the match of length `n`, which gets the number `k`, and the rest. -/
def cut (P : List Piece) (p : Nat) (u : List Nat) (i n k : Nat) : List Piece :=
  P.take p ++ leftover (u.take i) ++ [(some k, (u.drop i).take n)] ++ leftover (u.drop (i + n)) ++ P.drop (p + 1)

/-- From the pieces `P` and `Q`, with matches numbered from `k`, the pieces `P'` and `Q'` are obtained. -/
inductive Transposed : (k : Nat) → (P Q P' Q' : List Piece) → Prop
  | done {k P Q} : (∀ u v, (none, u) ∈ P → (none, v) ∈ Q → Apart u v) → Transposed k P Q P Q
  | step {k P Q P' Q' p q u v i j w} : Best P Q p q u v i j w →
      Transposed (k + 1) (cut P p u i w.length k) (cut Q q v j w.length k) P' Q' → Transposed k P Q P' Q'

/-- The pieces that the items of one text describe. -/
def pieces (text : List Nat) (items : List Sync) : List Piece := items.map (fun s => (s.mtch, piece text (s.sub 0)))

/-- The characters of the pieces that are not matched. -/
def rest (P : List Piece) : List Nat := (P.filter (fun x => x.1 = none)).flatMap Prod.snd

/-- The matched pieces of the second text in its order: the place of each among the matched pieces of the first text, from 1, and its
length. -/
def arranged (P Q : List Piece) : List (Nat × Int) :=
  Q.filterMap (fun x => x.1.map (fun k => ((P.filterMap Prod.fst).idxOf k + 1, (x.2.length : Int))))

end Ocr.Sync

namespace Ocr.Edo

/-- The figures that `editop` reports for the correct text `a` and the generated text `b`: the characters of `a` left without a match
(reject characters are not counted) have to be inserted, those of `b` deleted, and the matched pieces of `b` are brought into the order
of `a` by best moves. -/
def Report (a b : List Nat) (D : Edodata) : Prop :=
  ∃ P Q ls tr, Sync.Transposed 0 (Sync.leftover a) (Sync.leftover b) P Q ∧ Trace (joined (Sync.arranged P Q)) ls tr ∧
    D.total_insertions = (Sync.rest P).countP (fun c => c ≠ 126) ∧ D.total_deletions = (Sync.rest Q).length ∧
    D.total_moves = ls.length ∧ ∀ i : Nat, D.moves i = ls.countP (fun l : Int => min l 100 = i)

end Ocr.Edo
