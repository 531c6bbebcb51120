import Verif.Model.WordBreak
import Verif.Model.Text
import Verif.Model.Sync

/-!
# Model of word.c

A `Char *` into a text is the list of the values from that character on; NULL is the empty list.  Two pointers into the
same text are equal if and only if these lists have the same length.  `utf8proc_NFC` is a parameter: its result is `none`
(NULL) for a string that is not valid UTF-8.
-/

namespace Ocr.Word
open WB Text Sync

/-- word.c:35. -/
def AHLetter (prop : WB) : Bool := prop = ALetter || prop = Hebrew_Letter
/-- word.c:36. -/
def MidNumLetQ (prop : WB) : Bool := prop = MidNumLet || prop = Single_Quote
/-- word.c:39. -/
def ExtendOrFormat (prop : WB) : Bool := prop = Extend || prop = Format

/-- word.c:46-67 `search_for_property`.  (`midpoint - 1` wraps around for `midpoint = 0` but is converted to the `int` -1.) -/
def search_for_property (table : List Range) (code_point : Nat) : (fuel : Nat) → (left right : Int) → Res WB
  | fuel, left, right =>
    if right < left then .ok Other
    else do
      let midpoint := left + (right - left) / 2
      let middle ← rdI table midpoint
      if code_point < middle.start then
        match fuel with
        | 0 => .fuel
        | fuel + 1 => search_for_property table code_point fuel left (midpoint - 1)
      else if code_point > middle.stop then
        match fuel with
        | 0 => .fuel
        | fuel + 1 => search_for_property table code_point fuel (midpoint + 1) right
      else return middle.value

/-- word.c:72-77 `property` for a table. -/
def propertyIn (table : List Range) (code_point : Nat) : Res WB :=
  search_for_property table code_point table.length 0 (table.length - 1)

/-- word.c:72-77 `property`. -/
def property (code_point : Nat) : Res WB := propertyIn WORD_BREAK_PROPERTY code_point

/-- word.c:81-88 `char_property`; the property of a value is a parameter. -/
def char_property (prop : Nat → WB) : List Nat → WB
  | [] => eot
  | v :: _ => prop v

/-- word.c:93-104 `skip_to_next`. -/
def skip_to_next (prop : Nat → WB) : List Nat → List Nat
  | [] => []
  | _ :: next => next.dropWhile (fun v => ExtendOrFormat (prop v))

/-- word.c:107-111 `skip_twice`. -/
def skip_twice (prop : Nat → WB) (s : List Nat) : List Nat := skip_to_next prop (skip_to_next prop s)

/-- word.c:115-128 `skip_to_end_of_extend`. -/
def skip_to_end_of_extend (prop : Nat → WB) : List Nat → List Nat
  | [] => []
  | [v] => [v]
  | v :: w :: rest => if ExtendOrFormat (prop w) then skip_to_end_of_extend prop (w :: rest) else v :: w :: rest

/-- word.c:164-233: is one of the `continue` statements of the loop of `find_next_boundary` reached? -/
def continues (lookbehind left right lookahead : WB) : Bool :=
  if left = CR && right = LF then true
  else if left = Newline || left = CR || left = LF then false
  else if right = Newline || right = CR || right = LF then false
  else if AHLetter left && AHLetter right then true
  else if AHLetter left && (right = MidLetter || MidNumLetQ right) && AHLetter lookahead then true
  else if AHLetter lookbehind && (left = MidLetter || MidNumLetQ left) && AHLetter right then true
  else if left = Hebrew_Letter && right = Single_Quote then true
  else if left = Hebrew_Letter && right = Double_Quote && lookahead = Hebrew_Letter then true
  else if lookbehind = Hebrew_Letter && left = Double_Quote && right = Hebrew_Letter then true
  else if left = Numeric && right = Numeric then true
  else if AHLetter left && right = Numeric then true
  else if left = Numeric && AHLetter right then true
  else if lookbehind = Numeric && (left = MidNum || MidNumLetQ left) && right = Numeric then true
  else if left = Numeric && (right = MidNum || MidNumLetQ right) && lookahead = Numeric then true
  else if left = Katakana && right = Katakana then true
  else if (AHLetter left || left = Numeric || left = Katakana || left = ExtendNumLet) && right = ExtendNumLet then true
  else if left = ExtendNumLet && (AHLetter right || right = Numeric || right = Katakana || right = ExtendNumLet) then true
  else if left = Regional_Indicator && right = Regional_Indicator then true
  else false

/-- word.c:155-236, the loop of `find_next_boundary`; the result is `current` after the loop. -/
def boundaryLoop (prop : Nat → WB) : (fuel : Nat) → (current : List Nat) → (left : WB) → Res (List Nat)
  | _, [], _ => .ub
  | _, [v], _ => .ok [v]
  | fuel, v :: w :: rest, left =>
    let current := skip_to_next prop (v :: w :: rest)
    let lookbehind := left
    let left := char_property prop current
    let right := char_property prop (skip_to_next prop current)
    let lookahead := char_property prop (skip_twice prop current)
    if continues lookbehind left right lookahead then
      match fuel with
      | 0 => .fuel
      | fuel + 1 => boundaryLoop prop fuel current left
    else .ok current

/-- word.c:137-239 `find_next_boundary`; the dummy character (its value is not used) precedes the start. -/
def find_next_boundary (prop : Nat → WB) (start : List Nat) : Res (List Nat) :=
  if start = [] then .ok []
  else do
    let current ← boundaryLoop prop start.length (0 :: start) sot
    return skip_to_end_of_extend prop current

/-- word.c:242-260 `find_utf8_length`.  A failing assertion stops the program. -/
def find_utf8_length : (cs : List Nat) → Res Nat
  | [] => .ok 0
  | v :: vs => do
    if (encode_char v).length = 0 then .err "assertion encoded_length > 0 failed"
    else do
      let len ← find_utf8_length vs
      return (encode_char v).length + len

/-- `utf8proc_encode_char(value, &buffer[i])`: the bytes are stored one by one (word.c:271). -/
def storeBytes : (bytes : List Nat) → (i : Nat) → (buffer : List Nat) → Res (List Nat)
  | [], _, buffer => .ok buffer
  | x :: bytes, i, buffer => do
    let buffer ← wr buffer i x
    storeBytes bytes (i + 1) buffer

/-- word.c:262-276 `copy_into_buffer`. -/
def copy_into_buffer : (cs : List Nat) → (i : Nat) → (buffer : List Nat) → Res (List Nat)
  | [], i, buffer => wr buffer i 0
  | v :: vs, i, buffer => do
    let buffer ← storeBytes (encode_char v) i buffer
    copy_into_buffer vs (i + (encode_char v).length) buffer

/-- word.c:280-295 `append_word` for the characters from `start` to `end`: the string of the word.  The content of the
allocated buffer (`junk`) is arbitrary. -/
def append_word (nfc : List Nat → Option (List Nat)) (junk : Nat) (cs : List Nat) : Res (Option (List Nat)) := do
  let len ← find_utf8_length cs
  let buffer ← copy_into_buffer cs 0 (List.replicate (len + 1) junk)
  return nfc (cstr buffer)

/-- word.c:298-322 `is_word_start`. -/
def is_word_start (U : Unicode) (value : Nat) : Bool :=
  match U.cat value with
  | .LU | .LL | .LT | .LM | .LO | .MN | .MC | .ME | .ND | .NL | .NO | .PC | .CO => true
  | _ => false

/-- word.c:325-341 `find_words` from `first` on: the strings of the words appended. -/
def wordsLoop (U : Unicode) (prop : Nat → WB) (nfc : List Nat → Option (List Nat)) (junk : Nat) :
    (fuel : Nat) → (first : List Nat) → Res (List (Option (List Nat)))
  | fuel, first => do
    let last ← find_next_boundary prop first
    match first, last with
    | _, [] => return []
    | [], _ :: _ => .ub
    | v :: _, _ :: next =>
      let new ← (if is_word_start U v then do
          let word ← append_word nfc junk (first.take (first.length - next.length))
          pure [word]
        else pure [])
      match fuel with
      | 0 => .fuel
      | fuel + 1 => do
        let words ← wordsLoop U prop nfc junk fuel next
        return new ++ words

/-- word.c:325-341 `find_words`. -/
def find_words (U : Unicode) (prop : Nat → WB) (nfc : List Nat → Option (List Nat)) (junk : Nat) (text : List Ch) :
    Res (List (Option (List Nat))) :=
  wordsLoop U prop nfc junk text.length (text.map (·.value))

end Ocr.Word
