import Verif.Model.Args
import Verif.Model.Stdio
import Verif.Model.Sync

/-!
# Model of synctext.c

Each writing function returns the bytes it writes.  A file is given by its bytes; `fs` stands for the files that can be opened.
-/

namespace Ocr.Synctext
open Text Sync

/-- synctext.c:29. -/
def textopt : Textopt := ⟨true, true, 0, true, false, false⟩

/-- synctext.c:44-50 `write_separator`. -/
def write_separator : List Nat := List.replicate 79 61 ++ [10]

/-- synctext.c:66-71 and 130-140, the loop over the characters of a substring.  `pad` is what is written after a newline. -/
def spanLoop (U : Unicode) (show_suspect : Bool) (pad : List Nat) (text : List Ch) (stop : Int) : (fuel : Nat) → (i : Int) →
    Res (List Nat)
  | 0, _ => .fuel
  | fuel + 1, i =>
    if i ≤ stop then do
      let c ← rdI text i
      let string ← char_to_string U STRING_SIZE (show_suspect && c.suspect) c.value false
      let rest ← spanLoop U show_suspect pad text stop fuel (i + 1)
      return cstr string ++ (if c.value = NEWLINE then pad else []) ++ rest
    else .ok []

/-- synctext.c:62-74, the loop of `write_transposed`. -/
def transposedLoop (U : Unicode) (show_suspect : Bool) (cells : Nat → Int) (text : List Ch) : List Sync → Res (List Nat)
  | [] => .ok []
  | sync :: l => do
    let s ← sync.only
    let chars ← spanLoop U show_suspect [] text s.stop (text.length + 1) s.start
    let rest ← transposedLoop U show_suspect cells text l
    match sync.mtch with
    | some cell => return ascii "{" ++ fmtInt (cells cell) ++ ascii ":" ++ chars ++ ascii "}" ++ rest
    | none => return chars ++ rest

/-- synctext.c:53-76 `write_transposed`. -/
def write_transposed (U : Unicode) (show_suspect : Bool) (cells : Nat → Int) (l : List Sync) (text : List Ch) : Res (List Nat) := do
  let body ← transposedLoop U show_suspect cells text l
  return write_separator ++ [10] ++ body ++ [10]

/-- synctext.c:96-98: is the character at offset `i` suspect in one of the texts? -/
def suspectLoop (i : Int) : (texts : List (List Ch)) → (substr : List Substr) → Res Bool
  | [], _ => .ok false
  | _ :: _, [] => .ub
  | t :: ts, s :: ss => do
    let c ← rdI t (s.start + i)
    if c.suspect then return true else suspectLoop i ts ss

/-- synctext.c:92-102, the loop over the characters of a match; `count` iterations from `i` on. -/
def matchLoop (U : Unicode) (show_suspect : Bool) (texts : List (List Ch)) (substr : List Substr) : (count : Nat) → (i : Int) →
    Res (List Nat)
  | 0, _ => .ok []
  | count + 1, i => do
    let suspect ← (if show_suspect then suspectLoop i texts substr else return false : Res Bool)
    let text0 ← rd texts 0
    let s0 ← rd substr 0
    let c ← rdI text0 (s0.start + i)
    let string ← char_to_string U STRING_SIZE suspect c.value false
    let rest ← matchLoop U show_suspect texts substr count (i + 1)
    return cstr string ++ rest

/-- synctext.c:90-104, the loop of `write_matches`. -/
def matchesLoop (U : Unicode) (show_suspect : Bool) (texts : List (List Ch)) : List Sync → (footnote : Nat) → Res (List Nat)
  | [], _ => .ok []
  | sync :: l, footnote =>
    match sync.mtch with
    | some _ => do
      let s0 ← rd sync.substr 0
      let chars ← matchLoop U show_suspect texts sync.substr s0.length.toNat 0
      let rest ← matchesLoop U show_suspect texts l footnote
      return chars ++ rest
    | none => do
      let rest ← matchesLoop U show_suspect texts l (footnote + 1)
      return ascii "{" ++ decDigits (footnote + 1) ++ ascii "}" ++ rest

/-- synctext.c:79-106 `write_matches`. -/
def write_matches (U : Unicode) (show_suspect : Bool) (l : List Sync) (texts : List (List Ch)) : Res (List Nat) := do
  let body ← matchesLoop U show_suspect texts l 0
  return write_separator ++ [10] ++ body ++ [10]

/-- synctext.c:118-119: the length of the longest file name. -/
def maxLen (filenames : List (List Nat)) : Nat := filenames.foldl (fun m s => max m s.length) 0

/-- `printf(format, s)` with the format of synctext.c:120, `%-<maxlen>s`. -/
def padRight (maxlen : Nat) (s : List Nat) : List Nat := s ++ List.replicate (maxlen - s.length) 32

/-- synctext.c:126-142, the loop over the texts. -/
def versionsLoop (U : Unicode) (show_suspect : Bool) (maxlen : Nat) : (texts : List (List Ch)) → (substr : List Substr) →
    (filenames : List (List Nat)) → Res (List Nat)
  | [], _, _ => .ok []
  | t :: ts, s :: ss, f :: fs => do
    let chars ← spanLoop U show_suspect (padRight maxlen [] ++ ascii "  ") t s.stop (t.length + 1) s.start
    let rest ← versionsLoop U show_suspect maxlen ts ss fs
    return padRight maxlen f ++ ascii " {" ++ chars ++ ascii "}\n" ++ rest
  | _ :: _, _, _ => .ub

/-- synctext.c:121-143, the loop of `write_differences`. -/
def differencesLoop (U : Unicode) (show_suspect : Bool) (maxlen : Nat) (texts : List (List Ch)) (filenames : List (List Nat)) :
    List Sync → (footnote : Nat) → Res (List Nat)
  | [], _ => .ok []
  | sync :: l, footnote =>
    match sync.mtch with
    | some _ => differencesLoop U show_suspect maxlen texts filenames l footnote
    | none => do
      let versions ← versionsLoop U show_suspect maxlen texts sync.substr filenames
      let rest ← differencesLoop U show_suspect maxlen texts filenames l (footnote + 1)
      return write_separator ++ ascii "{" ++ decDigits (footnote + 1) ++ ascii "}\n" ++ versions ++ rest

/-- synctext.c:109-144 `write_differences`.  `%-0s`, the format for empty file names only, has no defined meaning; nor has a
format longer than the buffer of 20 bytes. -/
def write_differences (U : Unicode) (show_suspect : Bool) (l : List Sync) (texts : List (List Ch)) (filenames : List (List Nat)) :
    Res (List Nat) :=
  if maxLen filenames = 0 ∨ (ascii "%-" ++ decDigits (maxLen filenames) ++ ascii "s").length + 1 > 20 then .ub
  else differencesLoop U show_suspect (maxLen filenames) texts filenames l 0

/-- synctext.c:158-159: reading the texts. -/
def readTexts (U : Unicode) (junk : List Nat) (fs : List Nat → Option (List Nat)) : (filenames : List (List Nat)) → (opt : Textopt) →
    Res (List (List Ch))
  | [], _ => .ok []
  | f :: filenames, opt =>
    match fs f with
    | none => .err "unable to open file"
    | some file => do
      let (text, opt) ← read_text U junk [] file opt
      let rest ← readTexts U junk fs filenames opt
      return text :: rest

/-- synctext.c:146-176 `main`, after `initialize`. -/
def run (U : Unicode) (junk : List Nat) (fs : List Nat → Option (List Nat)) (heuristic case_insensitive show_suspect transpose : Bool)
    (argv : List (List Nat)) : Res (List Nat) := do
  if argv.length < 2 ∨ (transpose = true ∧ argv.length > 2) then .err "invalid number of text files"
  else do
    let texts ← readTexts U junk fs argv { textopt with case_insensitive := case_insensitive }
    let text0 ← rd texts 0
    let text1 ← rd texts 1
    if transpose then do
      let r ← transpose_sync (text0.map Ch.value) (text1.map Ch.value)
      let out1 ← write_transposed U show_suspect r.cells r.items1 text0
      let out2 ← write_transposed U show_suspect r.cells r.items2 text1
      return out1 ++ out2 ++ write_separator
    else do
      let r ← (if heuristic = true ∨ argv.length > 2 then synchronize (texts.map (fun t => t.map Ch.value)) else fastukk_sync text0 text1)
      let out1 ← write_matches U show_suspect r.items texts
      let out2 ← write_differences U show_suspect r.items texts argv
      return out1 ++ out2 ++ write_separator

/-- synctext.c:147-177 `main`. -/
def synctextMain (U : Unicode) (junk : List Nat) (fs : List Nat → Option (List Nat)) (argv : List (List Nat)) : Res (List Nat) := do
  let (_, argv, V) ← Args.initialize_ (some Args.synctextOptions) true argv ⟨fun _ => none, fun _ => false⟩
  run U junk fs (V.boolean 0) (V.boolean 1) (V.boolean 2) (V.boolean 3) argv

end Ocr.Synctext
