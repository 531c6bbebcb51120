import Verif.Model.Text

/-!
# Model of ngram.c (keys)
-/

namespace Ocr.Ngram
open Text

/-- ngram.c:31 -/
def MAX_N : Nat := 3

/-- ngram.c:107-113: the key of an n-gram: for each character `char_to_string(False, ...)` into `string[STRING_SIZE]`
and `strcat` to `key[size]`. -/
def keyLoop (U : Unicode) (size : Nat) : (key : List Nat) → List Nat → Res (List Nat)
  | key, [] => .ok key
  | key, v :: vs => do
    let string ← char_to_string U STRING_SIZE false v true
    let key := key ++ cstr string
    if key.length + 1 ≤ size then keyLoop U size key vs else .ub

/-- ngram.c:107-113: the key of the n-gram with the given values. -/
def ngramKey (U : Unicode) (vs : List Nat) : Res (List Nat) := keyLoop U (MAX_N * STRING_SIZE) [] vs

end Ocr.Ngram
