import Verif.Model.CList
import Verif.Model.NgramMain
import Verif.Model.Stopword
import Verif.Model.Wordfreq

/-!
# Texts, word lists and the keys of tables on a heap

`Model/Text.lean` and `Model/Word.lean` have texts and word lists as sequences.  Here they are linked lists of objects that are
allocated and freed, and so are the strings of words and the keys of tables.  Using or freeing what is not allocated is undefined
behaviour.  The lists are named `true` (the text) and `false` (the word list); their items share one address space, the arrays of
bytes have another.  The bound of a loop along a list is the number of items allocated so far; that of `find_words` is the number of
characters in the text.
-/

namespace Ocr.TextHeap
open Text CList

/-- The objects of text.h:65-68 and word.h:34-37, and arrays of bytes. -/
structure THeap where
  links   : Mem Bool
  char    : Addr → Option Ch
  word    : Addr → Option (Option Addr)
  str     : Addr → Option (List Nat)
  next    : Nat
  nextStr : Nat

/-- The lists are static and empty when a program starts (as in wordfreq.c:31-33). -/
def THeap.start : THeap := ⟨⟨fun _ => ⟨none, none⟩, fun _ => ⟨none, none, none, 0⟩⟩, fun _ => none, fun _ => none, fun _ => none, 0, 0⟩

/-! ## Objects -/

/-- `*c` (as in text.c:181). -/
def getChar (h : THeap) (a : Addr) : Res Ch :=
  match h.char a with
  | some c => .ok c
  | none => .ub

/-- Assignment to a member of `*c` (as in text.c:182). -/
def setChar (h : THeap) (a : Addr) (c : Ch) : Res THeap := do
  let _ ← getChar h a
  return { h with char := fun x => if x = a then some c else h.char x }

/-- `word->string` (as in wordfreq.c:46). -/
def getWord (h : THeap) (a : Addr) : Res (Option Addr) :=
  match h.word a with
  | some p => .ok p
  | none => .ub

/-- Assignment to `word->string` (word.c:292). -/
def setWord (h : THeap) (a : Addr) (p : Option Addr) : Res THeap := do
  let _ ← getWord h a
  return { h with word := fun x => if x = a then some p else h.word x }

/-- The array of bytes at `p` (as in word.c:271). -/
def getStr (h : THeap) (p : Addr) : Res (List Nat) :=
  match h.str p with
  | some s => .ok s
  | none => .ub

/-- Assignment to elements of the array at `p` (as in word.c:271). -/
def setStr (h : THeap) (p : Addr) (s : List Nat) : Res THeap := do
  let _ ← getStr h p
  return { h with str := fun x => if x = p then some s else h.str x }

/-- The string at `p`, as read by `strcmp` and `strdup` (as in wacrpt.c:54, 58). -/
def string (h : THeap) (p : Option Addr) : Res (List Nat) :=
  match p with
  | none => .ub
  | some p => do
    let s ← getStr h p
    if 0 ∈ s then return cstr s else .ub

/-- `free(c)` for a character (as in text.c:195). -/
def freeChar (h : THeap) (a : Addr) : Res THeap := do
  let _ ← getChar h a
  return { h with char := fun x => if x = a then none else h.char x }

/-- `free(word)` (word.c:348). -/
def freeWordObj (h : THeap) (a : Addr) : Res THeap := do
  let _ ← getWord h a
  return { h with word := fun x => if x = a then none else h.word x }

/-- `free` of an array of bytes; nothing is done for NULL (as in word.c:294, 347). -/
def freeStr (h : THeap) (p : Option Addr) : Res THeap :=
  match p with
  | none => .ok h
  | some p => do
    let _ ← getStr h p
    return { h with str := fun x => if x = p then none else h.str x }

/-- `NEW(Char)` (text.c:53): filled with zeros. -/
def newChar (h : THeap) : Addr × THeap :=
  (h.next, { h with
    links := setCell h.links h.next ⟨none, none⟩
    char := fun x => if x = h.next then some ⟨false, 0⟩ else h.char x
    next := h.next + 1 })

/-- `NEW(Word)` (word.c:290): filled with zeros. -/
def newWord (h : THeap) : Addr × THeap :=
  (h.next, { h with
    links := setCell h.links h.next ⟨none, none⟩
    word := fun x => if x = h.next then some none else h.word x
    next := h.next + 1 })

/-- A new array of bytes with the given content (word.c:287, 292, wacrpt.c:58). -/
def newStr (s : List Nat) (h : THeap) : Addr × THeap :=
  (h.nextStr, { h with str := fun x => if x = h.nextStr then some s else h.str x, nextStr := h.nextStr + 1 })

/-! ## Lists -/

/-- A pointer that is NULL or to an allocated item of list `l` (as in list.c:61-68). -/
def live (h : THeap) (l : Bool) (p : Option Addr) : Bool :=
  match p with
  | none => true
  | some a => if l then (h.char a).isSome else (h.word a).isSome

/-- list.c:56-72 `list_insert`. -/
def insert (h : THeap) (l : Bool) (ref1 : Option Addr) (item : Addr) (ref2 : Option Addr) : Res THeap :=
  if live h l ref1 ∧ live h l (some item) ∧ live h l ref2 then .ok { h with links := list_insert h.links l ref1 item ref2 } else .ub

/-- list.c:83-88 `list_insert_last`. -/
def insert_last (h : THeap) (l : Bool) (item : Addr) : Res THeap := insert h l (h.links.hdr l).last item none

/-- list.c:107-122 `list_remove`. -/
def remove (h : THeap) (l : Bool) (item : Addr) : Res THeap :=
  if live h l (some item) ∧ live h l (h.links.cell item).prev ∧ live h l (h.links.cell item).next then
    .ok { h with links := list_remove h.links l item }
  else .ub

/-- `item->next` (as in text.c:187, wordfreq.c:45). -/
def nextOf (h : THeap) (l : Bool) (a : Addr) : Res (Option Addr) :=
  if live h l (some a) then .ok (h.links.cell a).next else .ub

/-- list.c:138-150 `list_empty(list, free_item)`. -/
def empty (l : Bool) (free_item : Addr → THeap → Res THeap) : (fuel : Nat) → THeap → Res THeap
  | fuel, h =>
    match (h.links.hdr l).first with
    | none => .ok h
    | some a => do
      let h ← remove h l a
      let h ← free_item a h
      match fuel with
      | 0 => .fuel
      | fuel + 1 => empty l free_item fuel h

/-- `list_empty(&text, free)` (as in wordfreq.c:47). -/
def empty_text (h : THeap) : Res THeap := empty true (fun a h => freeChar h a) h.next h

/-- word.c:344-349 `free_word`. -/
def free_word (a : Addr) (h : THeap) : Res THeap := do
  let p ← getWord h a
  let h ← freeStr h p
  freeWordObj h a

/-- `list_empty(&wordlist, free_word)` (as in wordfreq.c:48). -/
def empty_words (h : THeap) : Res THeap := empty false free_word h.next h

/-! ## text.c -/

/-- text.c:47-57 `append_char`. -/
def append_char (suspect : Bool) (value : Nat) (h : THeap) : Res THeap := do
  let (c, h) := newChar h
  let x ← getChar h c
  let h ← setChar h c { x with suspect := suspect }
  let x ← getChar h c
  let h ← setChar h c { x with value := value }
  insert_last h true c

/-- text.c:87-131, the loop of `read_contents` (see `Text.readLoop`). -/
def readLoop (find_markers : Bool) (marker : Nat) :
    (fuel : Nat) → (file buf : List Nat) → (suspect : Bool) → THeap → Res THeap
  | _, [], _, _, h => .ok h
  | 0, _ :: _, _, _, _ => .fuel
  | fuel + 1, byte :: rest, buf, suspect, h =>
    let size := utf8class byte
    if size < 1 then .err "invalid UTF-8 character"
    else
      let more := rest.take (size - 1)
      if more.length ≠ size - 1 then .err "unexpected end of input"
      else
        let buf := byte :: more ++ buf.drop size
        match iterate buf with
        | none => .err "utf8proc_errmsg"
        | some (n, cp) =>
          if n ≠ size then .err "utf8proc_errmsg"
          else
            let rest := rest.drop (size - 1)
            if find_markers ∧ cp = marker then readLoop find_markers marker fuel rest buf true h
            else do
              let h ← append_char suspect cp h
              readLoop find_markers marker fuel rest buf false h

/-- text.c:180-182 and 209-211: the value of each character from `c` on is changed. -/
def valueLoop (f : Nat → Nat) : (fuel : Nat) → (c : Option Addr) → THeap → Res THeap
  | _, none, h => .ok h
  | fuel, some a, h => do
    let x ← getChar h a
    let h ← setChar h a { x with value := f x.value }
    let c ← nextOf h true a
    match fuel with
    | 0 => .fuel
    | fuel + 1 => valueLoop f fuel c h

/-- text.c:188-189: the characters read if the ones before do not decide. -/
def drops (h : THeap) (found : Bool) (c : Ch) (next : Option Addr) : Res Bool :=
  if c.value = BLANK then
    if found = false then .ok true
    else match next with
      | none => .ok true
      | some n => do
        let x ← getChar h n
        if x.value = BLANK then return true
        else if x.value = NEWLINE then return true
        else return decide (c.value = NEWLINE ∧ found = false)
  else .ok (decide (c.value = NEWLINE ∧ found = false))

/-- text.c:187-200: one pass through the second loop of `compress_spacing`. -/
def compressStep (a : Addr) (found : Bool) (h : THeap) : Res (Option Addr × Bool × THeap) := do
  let next ← nextOf h true a
  let x ← getChar h a
  let d ← drops h found x next
  if d then do
    let h ← (if found then
        match next with
        | none => pure h
        | some n => do
          let y ← getChar h n
          if y.value = BLANK then setChar h n { y with suspect := y.suspect || x.suspect } else pure h
      else pure h)
    let h ← remove h true a
    let h ← freeChar h a
    return (next, found, h)
  else return (next, if x.value = NEWLINE then false else true, h)

/-- text.c:184-201: the second loop of `compress_spacing`. -/
def compressLoop : (fuel : Nat) → (c : Option Addr) → (found : Bool) → THeap → Res THeap
  | _, none, _, h => .ok h
  | 0, some _, _, _ => .fuel
  | fuel + 1, some a, found, h => do
    let (next, found, h) ← compressStep a found h
    compressLoop fuel next found h

/-- text.c:172-202 `compress_spacing`. -/
def compress_spacing (U : Unicode) (start : Option Addr) (h : THeap) : Res THeap := do
  let h ← valueLoop (fun v => if is_blank U v then BLANK else v) h.next start h
  compressLoop h.next start false h

/-- text.c:205-212 `lowercase`. -/
def lowercase (U : Unicode) (start : Option Addr) (h : THeap) : Res THeap := valueLoop U.tolower h.next start h

/-- `last ? last->next : text->first` (text.c:233, 235). -/
def startOf (last : Option Addr) (h : THeap) : Res (Option Addr) :=
  match last with
  | some a => nextOf h true a
  | none => .ok (h.links.hdr true).first

/-- text.c:216-236 `read_text`. -/
def read_text (U : Unicode) (junk : List Nat) (file : List Nat) (opt : Textopt) (h : THeap) : Res (THeap × Textopt) := do
  let last := (h.links.hdr true).last
  let (opt, body) ← (if opt.find_header then do
      let (found, body) ← read_header file
      pure ({ opt with found_header := found }, body)
    else pure (opt, file))
  let h ← readLoop opt.find_markers (if opt.suspect_marker ≠ 0 then opt.suspect_marker else SUSPECT_MARKER) body.length body junk false h
  let h ← (if opt.normalize then do
      let start ← startOf last h
      compress_spacing U start h
    else pure h)
  let h ← (if opt.case_insensitive then do
      let start ← startOf last h
      lowercase U start h
    else pure h)
  return (h, opt)

/-! ## word.c -/

/-- A `Char *` in `find_next_boundary`: NULL, the address of the local variable `dummy`, or a character (word.c:142-144). -/
inductive Cur where
  | null
  | dummy
  | at (a : Addr)
  deriving DecidableEq, Repr

/-- A pointer to a character (word.c:157). -/
def Cur.of : Option Addr → Cur
  | none => .null
  | some a => .at a

/-- `from->next`; `dummy.next` is `start` (word.c:101, 143). -/
def Cur.next (h : THeap) (start : Option Addr) : Cur → Res (Option Addr)
  | .null => .ub
  | .dummy => .ok start
  | .at a => nextOf h true a

/-- word.c:81-88 `char_property`; it is not called for the address of `dummy`, whose value is not set. -/
def char_property (h : THeap) (prop : Nat → Word.WB) : Cur → Res Word.WB
  | .null => .ok .eot
  | .dummy => .ub
  | .at a => do
    let c ← getChar h a
    return prop c.value

/-- word.c:102: the condition of the loop, and the next passes. -/
def skipLoop (h : THeap) (prop : Nat → Word.WB) : (fuel : Nat) → (p : Option Addr) → Res (Option Addr)
  | _, none => .ok none
  | fuel, some a => do
    let w ← char_property h prop (.at a)
    if Word.ExtendOrFormat w then do
      let n ← nextOf h true a
      match fuel with
      | 0 => .fuel
      | fuel + 1 => skipLoop h prop fuel n
    else return some a

/-- word.c:93-104 `skip_to_next`. -/
def skip_to_next (h : THeap) (prop : Nat → Word.WB) (start : Option Addr) (cur : Cur) : Res (Option Addr) :=
  if cur = .null then .ok none
  else do
    let n ← cur.next h start
    skipLoop h prop h.next n

/-- word.c:107-111 `skip_twice`. -/
def skip_twice (h : THeap) (prop : Nat → Word.WB) (start : Option Addr) (cur : Cur) : Res (Option Addr) := do
  let p ← skip_to_next h prop start cur
  skip_to_next h prop start (.of p)

/-- word.c:123-127: the loop of `skip_to_end_of_extend`. -/
def endLoop (h : THeap) (prop : Nat → Word.WB) (start : Option Addr) : (fuel : Nat) → Cur → Res Cur
  | fuel, cur => do
    let n ← cur.next h start
    match n with
    | none => return cur
    | some b => do
      let w ← char_property h prop (.at b)
      if Word.ExtendOrFormat w then
        match fuel with
        | 0 => .fuel
        | fuel + 1 => endLoop h prop start fuel (.at b)
      else return cur

/-- word.c:115-128 `skip_to_end_of_extend`. -/
def skip_to_end_of_extend (h : THeap) (prop : Nat → Word.WB) (start : Option Addr) (cur : Cur) : Res Cur :=
  if cur = .null then .ok .null else endLoop h prop start h.next cur

/-- word.c:155-234: one pass through the loop of `find_next_boundary`: the new values of `current` and `left`, and whether the loop goes
on. -/
def boundaryStep (h : THeap) (prop : Nat → Word.WB) (start : Option Addr) (cur : Cur) (left : Word.WB) : Res (Cur × Word.WB × Bool) := do
  let n ← cur.next h start
  if n = none then return (cur, left, false)
  else do
    let p ← skip_to_next h prop start cur
    let new ← char_property h prop (.of p)
    let q ← skip_to_next h prop start (.of p)
    let right ← char_property h prop (.of q)
    let q ← skip_twice h prop start (.of p)
    let lookahead ← char_property h prop (.of q)
    return (.of p, new, Word.continues left new right lookahead)

/-- word.c:155-236: the loop of `find_next_boundary`. -/
def boundaryLoop (h : THeap) (prop : Nat → Word.WB) (start : Option Addr) : (fuel : Nat) → Cur → (left : Word.WB) → Res Cur
  | 0, cur, left => do
    let s ← boundaryStep h prop start cur left
    if s.2.2 then .fuel else return s.1
  | fuel + 1, cur, left => do
    let s ← boundaryStep h prop start cur left
    if s.2.2 then boundaryLoop h prop start fuel s.1 s.2.1 else return s.1

/-- word.c:137-239 `find_next_boundary`.  The address of the local variable is of no use to the caller. -/
def find_next_boundary (h : THeap) (prop : Nat → Word.WB) (start : Option Addr) : Res (Option Addr) :=
  if start = none then .ok none
  else do
    let cur ← boundaryLoop h prop start h.next .dummy .sot
    let cur ← skip_to_end_of_extend h prop start cur
    match cur with
    | .null => return none
    | .dummy => .ub
    | .at a => return some a

/-- word.c:242-260 `find_utf8_length`. -/
def find_utf8_length (h : THeap) (after : Option Addr) : (fuel : Nat) → (current : Option Addr) → Res Nat
  | fuel, current =>
    if current = after then .ok 0
    else match current with
      | none => .err "assertion current != NULL failed"
      | some a => do
        let c ← getChar h a
        if (encode_char c.value).length = 0 then .err "assertion encoded_length > 0 failed"
        else do
          let n ← nextOf h true a
          match fuel with
          | 0 => .fuel
          | fuel + 1 => do
            let len ← find_utf8_length h after fuel n
            return (encode_char c.value).length + len

/-- word.c:262-276 `copy_into_buffer`. -/
def copy_into_buffer (buffer : Addr) (after : Option Addr) : (fuel : Nat) → (current : Option Addr) → (i : Nat) → THeap → Res THeap
  | fuel, current, i, h =>
    if current = after then do
      let s ← getStr h buffer
      let s ← wr s i 0
      setStr h buffer s
    else match current with
      | none => .err "assertion current != NULL failed"
      | some a => do
        let c ← getChar h a
        let s ← getStr h buffer
        let s ← Word.storeBytes (encode_char c.value) i s
        let h ← setStr h buffer s
        let n ← nextOf h true a
        match fuel with
        | 0 => .fuel
        | fuel + 1 => copy_into_buffer buffer after fuel n (i + (encode_char c.value).length) h

/-- word.c:280-295 `append_word`.  `utf8proc_NFC` returns a new NUL-terminated string, or NULL. -/
def append_word (nfc : List Nat → Option (List Nat)) (junk : Nat) (start last : Addr) (h : THeap) : Res THeap := do
  let after ← nextOf h true last
  let len ← find_utf8_length h after h.next (some start)
  let (buffer, h) := newStr (List.replicate (len + 1) junk) h
  let h ← copy_into_buffer buffer after h.next (some start) 0 h
  let (word, h) := newWord h
  let s ← string h (some buffer)
  let (p, h) := (match nfc s with
    | none => (none, h)
    | some t => (some (newStr (t ++ [0]) h).1, (newStr (t ++ [0]) h).2))
  let h ← setWord h word p
  let h ← insert_last h false word
  freeStr h (some buffer)

/-- word.c:325-341: the loop of `find_words`. -/
def wordsLoop (U : Unicode) (prop : Nat → Word.WB) (nfc : List Nat → Option (List Nat)) (junk : Nat) :
    (fuel : Nat) → (first : Option Addr) → THeap → Res THeap
  | fuel, first, h => do
    let last ← find_next_boundary h prop first
    match first, last with
    | _, none => return h
    | none, some _ => .ub
    | some a, some b => do
      let c ← getChar h a
      let h ← (if Word.is_word_start U c.value then append_word nfc junk a b h else pure h)
      let n ← nextOf h true b
      match fuel with
      | 0 => .fuel
      | fuel + 1 => wordsLoop U prop nfc junk fuel n h

/-- word.c:325-341 `find_words`. -/
def find_words (U : Unicode) (prop : Nat → Word.WB) (nfc : List Nat → Option (List Nat)) (junk : Nat) (h : THeap) : Res THeap :=
  wordsLoop U prop nfc junk (h.links.hdr true).count.toNat (h.links.hdr true).first h

/-! ## Tables

An entry has a key, which is a pointer, and other members.  (The entries and table.c itself are the subject of `Model/Table.lean`;
here the keys of all entries are compared, as far as they are needed.) -/

/-- table.h:59-64 with the members added by the users of tables. -/
structure Entry (α : Type) where
  key  : Addr
  data : α

/-- `table_lookup` and a change of the entry found (table.c:59-67, for instance wacrpt.c:54, 61). -/
def modify {α : Type} (h : THeap) (key : Res (List Nat)) (f : α → α) : List (Entry α) → Res (Option (List (Entry α)))
  | [] => do
    let _ ← key
    return none
  | e :: es => do
    let s ← key
    let k ← string h (some e.key)
    if k = s then return some ({ e with data := f e.data } :: es)
    else do
      let r ← modify h key f es
      return r.map (e :: ·)

/-- `table_lookup`; if there is no entry, a new one with a copy of the key (wacrpt.c:48-62, ngram.c:67-90). -/
def add {α : Type} (key : THeap → Res (List Nat)) (f : α → α) (new : α) (es : List (Entry α)) (h : THeap) :
    Res (THeap × List (Entry α)) := do
  let r ← modify h (key h) f es
  match r with
  | some es => return (h, es)
  | none => do
    let s ← key h
    let (p, h) := newStr (s ++ [0]) h
    return (h, ⟨p, new⟩ :: es)

/-! ## wordfreq.c -/

/-- wordfreq.c:45-46: the counts of a term are `count` and `missed`. -/
def addWords : (fuel : Nat) → (word : Option Addr) → List (Entry (Int × Int)) → THeap → Res (THeap × List (Entry (Int × Int)))
  | _, none, es, h => .ok (h, es)
  | fuel, some a, es, h => do
    let p ← getWord h a
    let (h, es) ← add (fun h => string h p) (fun (c, m) => (c + 1, m + 0)) (1, 0) es h
    let n ← nextOf h false a
    match fuel with
    | 0 => .fuel
    | fuel + 1 => addWords fuel n es h

/-- wordfreq.c:39-49 `process_file` for the files in turn. -/
def wordfreqFiles (U : Unicode) (prop : Nat → Word.WB) (nfc : List Nat → Option (List Nat)) (junk : List Nat) (junk' : Nat) :
    (opt : Textopt) → (files : List (List Nat)) → List (Entry (Int × Int)) → THeap → Res (THeap × List (Entry (Int × Int)))
  | _, [], es, h => .ok (h, es)
  | opt, file :: files, es, h => do
    let (h, opt) ← read_text U junk file opt h
    let h ← find_words U prop nfc junk' h
    let (h, es) ← addWords h.next (h.links.hdr false).first es h
    let h ← empty_text h
    let h ← empty_words h
    wordfreqFiles U prop nfc junk junk' opt files es h

/-! ## ngram.c -/

/-- ngram.c:43-48 `Sequence` without the key. -/
structure Gram where
  value   : List Nat
  count   : Int
  suspect : Int
  deriving DecidableEq, Repr

/-- ngram.c:107-116, the inner loop of `process_file` (see `Ngram.gramLoop`). -/
def gramLoop (U : Unicode) (h : THeap) : (n : Nat) → (c : Option Addr) → (key value : List Nat) → (suspect : Bool) →
    Res (Option (List Nat × List Nat × Bool))
  | 0, _, key, value, suspect => .ok (some (key, value, suspect))
  | _ + 1, none, _, _, _ => .ok none
  | n + 1, some a, key, value, suspect => do
    let c ← getChar h a
    let string ← char_to_string U STRING_SIZE false c.value true
    let key := key ++ cstr string
    if key.length + 1 ≤ Ngram.MAX_N * STRING_SIZE then do
      let next ← nextOf h true a
      gramLoop U h n next key (value ++ [c.value]) (suspect || c.suspect)
    else .ub

/-- ngram.c:103-118, the outer loop of `process_file`; the totals are left out. -/
def startLoop (U : Unicode) (n : Nat) : (fuel : Nat) → (start : Option Addr) → List (Entry Gram) → THeap → Res (THeap × List (Entry Gram))
  | _, none, es, h => .ok (h, es)
  | fuel, some a, es, h => do
    let g ← gramLoop U h n (some a) [] [] false
    match g with
    | none => return (h, es)
    | some (key, value, suspect) => do
      let (h, es) ← add (fun _ => .ok key) (fun s => { s with count := s.count + 1, suspect := if suspect then s.suspect + 1 else s.suspect })
        ⟨value, 1, if suspect then 1 else 0⟩ es h
      let next ← nextOf h true a
      match fuel with
      | 0 => .fuel
      | fuel + 1 => startLoop U n fuel next es h

/-- ngram.c:93-119 `process_file` for the files in turn. -/
def ngramFiles (U : Unicode) (junk : List Nat) (n : Nat) :
    (opt : Textopt) → (files : List (List Nat)) → List (Entry Gram) → THeap → Res (THeap × List (Entry Gram))
  | _, [], es, h => .ok (h, es)
  | opt, file :: files, es, h => do
    let h ← empty_text h
    let (h, opt) ← read_text U junk file opt h
    let (h, es) ← startLoop U n h.next (h.links.hdr true).first es h
    ngramFiles U junk n opt files es h

/-! ## stopword.c -/

/-- stopword.c:69-82 `save_stopword`: the key is not copied.  The second result is the warnings, in order. -/
def save_stopword (key : Option Addr) (es : List (Entry Unit)) (warnings : List (List Nat)) (h : THeap) :
    Res (List (Entry Unit) × List (List Nat)) := do
  let s ← string h key
  let r ← modify h (.ok s) id es
  match r, key with
  | some es, _ => return (es, warnings ++ [s])
  | none, none => .ub
  | none, some p => return (⟨p, ()⟩ :: es, warnings)

/-- stopword.c:97-98. -/
def saveWords (h : THeap) : (fuel : Nat) → (word : Option Addr) → List (Entry Unit) → List (List Nat) →
    Res (List (Entry Unit) × List (List Nat))
  | _, none, es, ws => .ok (es, ws)
  | fuel, some a, es, ws => do
    let p ← getWord h a
    let (es, ws) ← save_stopword p es ws h
    let n ← nextOf h false a
    match fuel with
    | 0 => .fuel
    | fuel + 1 => saveWords h fuel n es ws

/-- stopword.c:92-99, the branch of `init_stopwords` for a file. -/
def init_stopwords (U : Unicode) (prop : Nat → Word.WB) (nfc : List Nat → Option (List Nat)) (junk : List Nat) (junk' : Nat)
    (file : List Nat) (h : THeap) : Res (THeap × List (Entry Unit) × List (List Nat)) := do
  let (h, _) ← read_text U junk file Stopword.textopt h
  let h ← find_words U prop nfc junk' h
  let h ← empty_text h
  let (es, ws) ← saveWords h h.next (h.links.hdr false).first [] []
  return (h, es, ws)

end Ocr.TextHeap
