import Verif.Model.Utf8

/-!
# Model of text.c

A text is the list of its characters (the refinement of list.c by sequences is `Ocr.CList`).  A file is the list
of its bytes.
-/

namespace Ocr.Text

/-- text.h:65-68 `Char`. -/
structure Ch where
  suspect : Bool
  value   : Nat
  deriving DecidableEq, Repr

/-- text.h:40 -/
def BLANK : Nat := 32
/-- text.h:41 -/
def NEWLINE : Nat := 10
/-- text.h:42 -/
def LINE_TABULATION : Nat := 0x0B
/-- text.h:43 -/
def FORM_FEED : Nat := 0x0C
/-- text.h:44 -/
def CARRIAGE_RETURN : Nat := 0x0D
/-- text.h:45 -/
def NON_BREAKING_SPACE : Nat := 0xA0
/-- text.h:46  '~' -/
def REJECT_CHARACTER : Nat := 126
/-- text.h:47  '^' -/
def SUSPECT_MARKER : Nat := 94
/-- text.c:37, text.h:48 -/
def DOTTED_CIRCLE : Nat := 0x25CC
/-- text.h:56: `NUM_CHARVALUES  0x10FFFF` (one less than the number of code points). -/
def NUM_CHARVALUES : Nat := 0x10FFFF
/-- text.h:63: `max(sizeof("^◌𐇽"), sizeof("<10FFFF>"))` = max(1+3+4+1, 8+1). -/
def STRING_SIZE : Nat := 9

/-- text.c:33 with OCREVAL_VERSION "7.0". -/
def TITLE : List Nat := ascii "ocreval Vendor-Independent Interface Version 7.0\n"
/-- text.c:34. -/
def DIVIDER : List Nat := ascii "------------------------------------------------\n"

/-! ## Reading -/

/-- text.c:87-131: the reading loop.  `buf` is the content of the 4-byte buffer left over from the previous
character (arbitrary at the start), `suspect` the pending mark.  `fuel` bounds the number of characters. -/
def readLoop (find_markers : Bool) (marker : Nat) :
    (fuel : Nat) → (file buf : List Nat) → (suspect : Bool) → Res (List Ch)
  | _, [], _, _ => .ok []
  | 0, _ :: _, _, _ => .fuel
  | fuel + 1, byte :: rest, buf, suspect =>
    let size := utf8class byte
    if size < 1 then .err "invalid UTF-8 character"
    else
      let more := rest.take (size - 1)
      if more.length ≠ size - 1 then .err "unexpected end of input"
      else
        let buf := byte :: more ++ buf.drop size
        match iterate buf with
        | none => .err "utf8proc_errmsg"
        | some (n, cp) =>
          if n ≠ size then .err "utf8proc_errmsg"
          else
            let rest := rest.drop (size - 1)
            if find_markers ∧ cp = marker then readLoop find_markers marker fuel rest buf true
            else do
              let cs ← readLoop find_markers marker fuel rest buf false
              return ⟨suspect, cp⟩ :: cs

/-- text.c:78-133 `read_contents`: the characters appended to the text. -/
def read_contents (file : List Nat) (find_markers : Bool) (marker : Nat) (junk : List Nat) :
    Res (List Ch) :=
  readLoop find_markers marker file.length file junk false

/-- text.c:139-167 `is_blank`. -/
def is_blank (U : Unicode) (c : Nat) : Bool :=
  if c = NEWLINE then false
  else if c = 9 ∨ c = LINE_TABULATION ∨ c = FORM_FEED ∨ c = CARRIAGE_RETURN ∨ c = NON_BREAKING_SPACE then true
  else match U.cat c with
    | .ZS | .ZL | .ZP => true
    | _ => false

/-- text.c:183-201: the second loop of `compress_spacing`.  The list argument is the chain from `c` on. -/
def compressLoop (found : Bool) : List Ch → List Ch
  | [] => []
  | c :: rest =>
    let next := rest.head?
    if (c.value = BLANK ∧ (found = false ∨ next = none ∨
          next.any (fun n => n.value = BLANK ∨ n.value = NEWLINE))) ∨
        (c.value = NEWLINE ∧ found = false) then
      match rest with
      | [] => []
      | n :: rest =>
        if found = true ∧ n.value = BLANK then
          compressLoop found ({ n with suspect := n.suspect || c.suspect } :: rest)
        else compressLoop found (n :: rest)
    else
      c :: compressLoop (if c.value = NEWLINE then false else true) rest
  termination_by l => l.length

/-- text.c:172-202 `compress_spacing`, applied to the part of the text that starts at `start`. -/
def compress_spacing (U : Unicode) (cs : List Ch) : List Ch :=
  compressLoop false (cs.map (fun c => if is_blank U c.value then { c with value := BLANK } else c))

/-- text.c:205-212 `lowercase`. -/
def lowercase (U : Unicode) (cs : List Ch) : List Ch :=
  cs.map (fun c => { c with value := U.tolower c.value })

/-! ## The header -/

/-- `fgets(line, size, f)` with `size - 1 = n`: the line read and the rest of the file; `none` at end of file
(text.c:65, 68, accrpt.c:94, edorpt.c:39, wacrpt.c:68). -/
def fgets : (n : Nat) → List Nat → Option (List Nat × List Nat)
  | _, [] => none
  | n, file =>
    let rec go : Nat → List Nat → List Nat × List Nat
      | 0, file => ([], file)
      | _, [] => ([], [])
      | n + 1, b :: file => if b = 10 then ([b], file) else
          let (l, r) := go n file
          (b :: l, r)
    some (go n file)

/-- The C string stored in a buffer: the bytes before the first NUL (for instance text.c:321). -/
def cstr (line : List Nat) : List Nat := line.takeWhile (· ≠ 0)

/-- text.c:69-71: skip lines up to and including the second divider. -/
def skipHeader : (fuel count : Nat) → List Nat → Res (List Nat)
  | fuel, count, file =>
    if count < 2 then
      match fgets 98 file with
      | none => .ok file
      | some (line, rest) =>
        match fuel with
        | 0 => .fuel
        | fuel + 1 => skipHeader fuel (if cstr line = DIVIDER then count + 1 else count) rest
    else .ok file

/-- text.c:60-75 `read_header`: whether a header was found, and where reading continues.  `fgets` is called with
`sizeof(line) - 1 = 99`, so it stores at most 98 bytes; the last four characters of TITLE (the version) are not
compared. -/
def read_header (file : List Nat) : Res (Bool × List Nat) :=
  match fgets 98 file with
  | some (line, rest) =>
    if (cstr line).take (TITLE.length - 4) = TITLE.take (TITLE.length - 4) then do
      let body ← skipHeader file.length 0 rest
      return (true, body)
    else .ok (false, file)
  | none => .ok (false, file)

/-- text.h:76-98 `Textopt` (the deprecated `find_hex_values` is ignored by the code). -/
structure Textopt where
  find_header      : Bool
  find_markers     : Bool
  suspect_marker   : Nat
  normalize        : Bool
  case_insensitive : Bool
  found_header     : Bool
  deriving DecidableEq, Repr

/-- text.c:216-236 `read_text`: returns the text with the characters of the file appended, and the options with
`found_header` set.  (The check for a missing file name is not modelled: a file is always given.) -/
def read_text (U : Unicode) (junk : List Nat) (text : List Ch) (file : List Nat) (opt : Textopt) :
    Res (List Ch × Textopt) := do
  let (opt, body) ← (if opt.find_header then do
      let (found, body) ← read_header file
      pure ({ opt with found_header := found }, body)
    else pure (opt, file))
  let new ← read_contents body opt.find_markers
    (if opt.suspect_marker ≠ 0 then opt.suspect_marker else SUSPECT_MARKER) junk
  let new := if opt.normalize then compress_spacing U new else new
  let new := if opt.case_insensitive then lowercase U new else new
  return (text ++ new, opt)

/-! ## Writing -/

/-- text.c:255-294 `is_graphic_character`. -/
def is_graphic (U : Unicode) (c : Nat) : Bool :=
  if c = 32 then true
  else match U.cat c with
    | .LU | .LL | .LT | .LM | .LO | .MN | .MC | .ME | .ND | .NL | .NO | .PC | .PD | .PS | .PE | .PI | .PF | .PO
    | .SM | .SC | .SK | .SO | .CO => true
    | _ => false

/-- text.c:301-312 `is_combining_character`. -/
def is_combining (U : Unicode) (c : Nat) : Bool :=
  match U.cat c with
  | .MN | .MC | .ME => true
  | _ => false

/-- text.c:239-249 `encode_or_die`. -/
def encode_or_die (cp : Nat) : Res (List Nat) :=
  match encode_char cp with
  | [] => .err "could not encode UTF-8"
  | bs => .ok bs

/-- Upper-case hexadecimal digit (text.c:340, 342). -/
def hexDigit (d : Nat) : Nat := if d < 10 then 48 + d else 55 + d

/-- `printf("%X")` (text.c:340, 342). -/
def hexUpper (v : Nat) : List Nat :=
  if v < 16 then [hexDigit v] else hexUpper (v / 16) ++ [hexDigit (v % 16)]

/-- `printf("%0<w>X")` (text.c:340, 342). -/
def hexPad (w v : Nat) : List Nat := List.replicate (w - (hexUpper v).length) 48 ++ hexUpper v

/-- text.c:315-344 `char_to_string`: the bytes stored before the terminating NUL. -/
def charString (U : Unicode) (suspect : Bool) (value : Nat) (fake_newline : Bool) : Res (List Nat) := do
  let mark ← (if suspect then encode_or_die SUSPECT_MARKER else pure [])
  if value = NEWLINE then
    return mark ++ (if fake_newline then ascii "<\\n>" else ascii "\n")
  else if is_graphic U value then
    let base ← (if is_combining U value then encode_or_die DOTTED_CIRCLE else pure [])
    let bs ← encode_or_die value
    return mark ++ base ++ bs
  else if value < 256 then
    return mark ++ (ascii "<" ++ hexPad 2 value ++ ascii ">")
  else
    return mark ++ (ascii "<" ++ hexPad 4 value ++ ascii ">")

/-- `char_to_string` writing into a buffer of `size` bytes: overrunning it (including the NUL) is undefined (text.c:315-344). -/
def char_to_string (U : Unicode) (size : Nat) (suspect : Bool) (value : Nat) (fake_newline : Bool) :
    Res (List Nat) := do
  let s ← charString U suspect value fake_newline
  if s.length + 1 ≤ size then return s else .ub

/-- The loop of text.c:363-367. -/
def writeLoop (U : Unicode) : List Ch → Res (List Nat)
  | [] => .ok []
  | c :: cs => do
    let s ← char_to_string U STRING_SIZE c.suspect c.value false
    let rest ← writeLoop U cs
    return cstr s ++ rest

/-- text.c:347-369 `write_text`: the bytes of the file; `header` is what `write_header` writes, if given. -/
def write_text (U : Unicode) (text : List Ch) (header : Option (List Nat)) : Res (List Nat) := do
  let body ← writeLoop U text
  return (match header with
    | some h => TITLE ++ DIVIDER ++ h ++ DIVIDER
    | none => []) ++ body

end Ocr.Text
