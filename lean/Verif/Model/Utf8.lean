import Verif.Model.CLib

/-!
# The parts of utf8proc used by ocreval

utf8proc is not part of /repo.  `utf8class`, `iterate` and `encode_char` are modelled from the source of utf8proc
2.x (utf8proc.c: `utf8proc_utf8class`, `utf8proc_iterate`, `utf8proc_encode_char`).  The Unicode
data (general category, lower-casing, NFC) are arbitrary parameters collected in `Unicode`.
-/

namespace Ocr

/-- General categories (utf8proc.h `utf8proc_category_t`) (text.c:302-306). -/
inductive Cat where
  | CN | LU | LL | LT | LM | LO | MN | MC | ME | ND | NL | NO | PC | PD | PS | PE | PI | PF | PO
  | SM | SC | SK | SO | ZS | ZL | ZP | CC | CF | CS | CO
  deriving DecidableEq, Repr

/-- Unicode data supplied by utf8proc (text.c:142, 211, 258, 304). -/
structure Unicode where
  cat     : Nat → Cat
  tolower : Nat → Nat

/-- `utf8proc_utf8class`: the length announced by a lead byte, 0 if it cannot start a character (text.c:96). -/
def utf8class (b : Nat) : Nat :=
  if b < 0x80 then 1
  else if b < 0xC0 then 0
  else if b < 0xE0 then 2
  else if b < 0xF0 then 3
  else if b < 0xF8 then 4
  else 0

/-- `utf_cont`: is this a continuation byte? (for text.c:120) -/
def utfCont (b : Nat) : Bool := 0x80 ≤ b && b < 0xC0

/-- `utf8proc_iterate(str, strlen, &dst)` for `str` of `strlen` bytes: `some (n, cp)` for a valid character of `n`
bytes, `none` for `UTF8PROC_ERROR_INVALIDUTF8`; `some (0, _)` cannot occur for nonempty input (text.c:120, 383, accrpt.c:183, 194). -/
def iterate : List Nat → Option (Nat × Nat)
  | [] => none
  | uc :: str =>
    if uc < 0x80 then some (1, uc)
    else if uc < 0xC2 ∨ uc > 0xF4 then none
    else if uc < 0xE0 then
      match str with
      | c1 :: _ => if utfCont c1 then some (2, uc % 32 * 64 + c1 % 64) else none
      | _ => none
    else if uc < 0xF0 then
      match str with
      | c1 :: c2 :: _ =>
        if utfCont c1 ∧ utfCont c2 then
          if uc = 0xED ∧ c1 > 0x9F then none
          else
            let v := uc % 16 * 4096 + c1 % 64 * 64 + c2 % 64
            if v < 0x800 then none else some (3, v)
        else none
      | _ => none
    else
      match str with
      | c1 :: c2 :: c3 :: _ =>
        if utfCont c1 ∧ utfCont c2 ∧ utfCont c3 then
          if uc = 0xF0 ∧ c1 < 0x90 then none
          else if uc = 0xF4 ∧ c1 > 0x8F then none
          else some (4, uc % 8 * 262144 + c1 % 64 * 4096 + c2 % 64 * 64 + c3 % 64)
        else none
      | _ => none

/-- `utf8proc_encode_char`: the bytes written (none for a value that cannot be encoded; surrogates are encoded like
other three-byte values) (text.c:243, word.c:253, 271). -/
def encode_char (uc : Nat) : List Nat :=
  if uc < 0x80 then [uc]
  else if uc < 0x800 then [0xC0 + uc / 64, 0x80 + uc % 64]
  else if uc < 0x10000 then [0xE0 + uc / 4096, 0x80 + uc / 64 % 64, 0x80 + uc % 64]
  else if uc < 0x110000 then
    [0xF0 + uc / 262144, 0x80 + uc / 4096 % 64, 0x80 + uc / 64 % 64, 0x80 + uc % 64]
  else []

end Ocr
