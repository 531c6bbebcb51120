import Verif.Model.Store
import Verif.Model.Text
import Verif.Model.Word

/-!
# Model of stopword.c

The state consists of the two static variables `initialized` and `stopwordtable`; an entry of the table is its key.
-/

namespace Ocr.Stopword
open Text

/-- stopword.c:34-35 `stopwordtable` (see `Store`), `initialized`, and the warnings printed so far. -/
structure State where
  initialized : Bool
  table       : List (List Nat)
  warnings    : List (List Nat)
  deriving DecidableEq, Repr

/-- The state at program start (stopword.c:34-35). -/
def State.start : State := ⟨false, [], []⟩

/-- stopword.c:37. -/
def textopt : Textopt := ⟨false, false, 0, true, true, false⟩

/-- stopword.c:41-65 `default_stopword`. -/
def default_stopword : List String := [
  "a", "about", "after", "all", "also", "an", "and", "any", "are", "as",
  "at", "back", "be", "because", "been", "but", "by", "can", "could", "did",
  "do", "does", "down", "each", "first", "for", "from", "get", "good", "had",
  "has", "have", "he", "her", "him", "his", "how", "i", "if", "in",
  "into", "is", "it", "its", "just", "know", "like", "little", "long", "made",
  "make", "man", "many", "may", "me", "more", "most", "my", "new", "no",
  "not", "now", "of", "on", "one", "only", "or", "other", "our", "out",
  "over", "said", "same", "see", "she", "so", "some", "than", "that", "the",
  "their", "them", "then", "there", "these", "they", "this", "to", "too", "two",
  "up", "us", "used", "very", "was", "way", "we", "were", "what", "when",
  "where", "which", "who", "why", "will", "with", "woman", "would", "you", "your"]

/-- stopword.c:69-82 `save_stopword`. -/
def save_stopword (key : List Nat) (S : State) : State :=
  match Store.lookup id key S.table with
  | some _ => { S with warnings := S.warnings ++ [key] }
  | none => { S with table := key :: S.table }

/-- stopword.c:97-98: `save_stopword` for the words of the file; a word that could not be normalized is a null pointer. -/
def saveWords : List (Option (List Nat)) → State → Res State
  | [], S => .ok S
  | none :: _, _ => .ub
  | some w :: ws, S => saveWords ws (save_stopword w S)

/-- stopword.c:85-104 `init_stopwords`; the file is given by its content. -/
def init_stopwords (U : Unicode) (prop : Nat → Word.WB) (nfc : List Nat → Option (List Nat)) (junk : List Nat) (junk' : Nat)
    (file : Option (List Nat)) (S : State) : Res State :=
  if S.initialized then .err "stopwords already initialized"
  else do
    let S ← (match file with
      | some file => do
        let (text, _) ← read_text U junk [] file textopt
        let words ← Word.find_words U prop nfc junk' text
        saveWords words S
      | none => saveWords (default_stopword.map (fun s => some (ascii s))) S)
    return { S with initialized := true }

/-- stopword.c:107-113 `is_stopword`. -/
def is_stopword (string : List Nat) (S : State) : Res Bool :=
  if S.initialized then .ok (Store.lookup id string S.table).isSome
  else .err "stopwords not initialized"

end Ocr.Stopword
