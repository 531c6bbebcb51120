import Verif.Model.Text

/-!
# Model of cstring_to_text

A `char *` is the memory from that byte on; reading beyond the memory is undefined.
-/

namespace Ocr.Text

/-- `utf8proc_iterate(str, -1, &dst)` with `str` pointing to the given memory (text.c:383): the same as `iterate`, but the
bytes are read one after the other, each only after the ones before it have been found to be in order. -/
def iterateMem (str : List Nat) : Res (Option (Nat × Nat)) := do
  let uc ← rd str 0
  if uc < 0x80 then return some (1, uc)
  else if uc < 0xC2 ∨ uc > 0xF4 then return none
  else do
    let c1 ← rd str 1
    if ¬ utfCont c1 then return none
    else if uc < 0xE0 then return some (2, uc % 32 * 64 + c1 % 64)
    else do
      let c2 ← rd str 2
      if ¬ utfCont c2 then return none
      else if uc < 0xF0 then
        (if uc = 0xED ∧ c1 > 0x9F then return none
        else
          let v := uc % 16 * 4096 + c1 % 64 * 64 + c2 % 64
          if v < 0x800 then return none else return some (3, v))
      else do
        let c3 ← rd str 3
        if ¬ utfCont c3 then return none
        else if uc = 0xF0 ∧ c1 < 0x90 then return none
        else if uc = 0xF4 ∧ c1 > 0x8F then return none
        else return some (4, uc % 8 * 262144 + c1 % 64 * 4096 + c2 % 64 * 64 + c3 % 64)

/-- text.c:47-57 `append_char` (the list as a sequence, C01). -/
def append_char (text : List Ch) (suspect : Bool) (value : Nat) : List Ch := text ++ [⟨suspect, value⟩]

/-- The loop of text.c:381-391. -/
def cstringLoop : (fuel : Nat) → (c : List Nat) → (text : List Ch) → Res (List Ch × Bool)
  | fuel, c, text => do
    let b ← rd c 0
    if b = 0 then return (text, true)
    else
      match (← iterateMem c) with
      | none => return (text, false)
      | some (decode_status, code_point) =>
        match fuel with
        | 0 => .fuel
        | fuel + 1 => cstringLoop fuel (c.drop decode_status) (append_char text false code_point)

/-- text.c:373-394 `cstring_to_text`: the text afterwards and the result; `string` is the memory from the string on. -/
def cstring_to_text (text : List Ch) (string : List Nat) : Res (List Ch × Bool) := cstringLoop string.length string text

end Ocr.Text
