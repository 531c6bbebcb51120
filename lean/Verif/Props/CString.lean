import Verif.Proof.CString
import Verif.Props.Text
import Verif.Props.Word

/-!
# C70: cstring_to_text, and the unit tests of the project

/repo/test/text_test.c and word_test.c call `cstring_to_text`, `char_to_string` and `find_words`.  The tests are restated
here as computations of the model: they check the model, not the theorems.
-/

namespace Ocr.Text

/-- C70.  For every string in memory, whatever follows its NUL: the characters appended are those of the longest part at the
start that is UTF-8, and the result says whether this is the whole string.  Nothing after the NUL is read. -/
theorem c70_cstring (text : List Ch) (s after : List Nat) (h0 : 0 ∉ s) (hb : Bytes s) :
    ∃ cs rest, s = utf8 cs ++ rest ∧ (∀ c, ¬ utf8 [c] <+: rest) ∧
      cstring_to_text text (s ++ 0 :: after) = .ok (text ++ cs.map (fun c => ⟨false, c.toNat⟩), decide (rest = [])) := by
  obtain ⟨cs, rest, h1, h2, h3⟩ := cstringLoop_spec s.length (s ++ 0 :: after).length s after text (le_refl _)
    (by simp) h0 hb
  exact ⟨cs, rest, h1, h3, h2⟩

/-- C70 (the part is determined).  A string has at most one such longest part. -/
theorem c70_unique (cs cs' : List Char) (rest rest' : List Nat) (h : utf8 cs ++ rest = utf8 cs' ++ rest')
    (hr : ∀ c, ¬ utf8 [c] <+: rest) (hr' : ∀ c, ¬ utf8 [c] <+: rest') : cs = cs' ∧ rest = rest' := by
  induction cs generalizing cs' with
  | nil =>
    cases cs' with
    | nil => exact ⟨rfl, by simpa [utf8] using h⟩
    | cons c cs' =>
      refine absurd ?_ (hr c)
      rw [utf8_cons] at h
      have : utf8 [c] = encode_char c.toNat := by rw [utf8_cons]; exact List.append_nil _
      rw [this, show rest = encode_char c.toNat ++ (utf8 cs' ++ rest') by rw [← List.append_assoc, ← h]; rfl]
      exact List.prefix_append _ _
  | cons c cs ih =>
    have one : ∀ c : Char, utf8 [c] = encode_char c.toNat := fun c => by rw [utf8_cons]; exact List.append_nil _
    cases cs' with
    | nil =>
      refine absurd ?_ (hr' c)
      rw [utf8_cons] at h
      rw [one, show rest' = encode_char c.toNat ++ (utf8 cs ++ rest) by rw [← List.append_assoc, h]; rfl]
      exact List.prefix_append _ _
    | cons c' cs' =>
      rw [utf8_cons, utf8_cons, List.append_assoc, List.append_assoc] at h
      have e1 := iterate_encode (scalar_char c) (utf8 cs ++ rest)
      have e2 := iterate_encode (scalar_char c') (utf8 cs' ++ rest')
      rw [h, e2] at e1
      have hv : c'.toNat = c.toNat := (Prod.mk.inj (Option.some.inj e1)).2
      have hc : c = c' := Char.ext (UInt32.toNat_inj.1 hv.symm)
      subst hc
      obtain ⟨e3, e4⟩ := ih cs' (List.append_cancel_left h)
      exact ⟨by rw [e3], e4⟩

/-- C70 (agreement with read_text).  The string of a text without NUL is read as the file with the same content. -/
theorem c70_same (U : Unicode) (junk : List Nat) (text : List Ch) (cs : List Char) (after : List Nat)
    (h : ∀ c ∈ cs, c ≠ '\x00') :
    ∃ t, cstring_to_text text (utf8 cs ++ 0 :: after) = .ok (t, true) ∧
      read_text U junk text (utf8 cs) plainOpt = .ok (t, plainOpt) := by
  refine ⟨_, ?_, c06_decodes U junk text cs⟩
  have hb : Bytes (utf8 cs) := by
    intro b hb
    simp only [utf8, List.mem_flatMap, enc_eq] at hb
    obtain ⟨c, _, h⟩ := hb
    exact encode_bytes _ b h
  have h0 : 0 ∉ utf8 cs := by
    intro hm
    simp only [utf8, List.mem_flatMap, enc_eq] at hm
    obtain ⟨c, hc, hz⟩ := hm
    refine AnyReport.encode_ne0 (v := c.toNat) (fun e => h c hc ?_) hz
    exact Char.ext (UInt32.toNat_inj.1 e)
  obtain ⟨cs', rest, e1, e2, e3⟩ := c70_cstring text (utf8 cs) after h0 hb
  have hn : ∀ c, ¬ utf8 [c] <+: [] := fun c hc => by
    have := List.prefix_nil.1 hc
    rw [utf8_cons] at this
    simp only [List.append_eq_nil_iff] at this
    exact encode_ne_nil (by have := scalar_char c; unfold Scalar at this; omega) this.1
  obtain ⟨f1, f2⟩ := c70_unique cs cs' [] rest (by rw [List.append_nil]; exact e1) hn e2
  rw [e3, ← f1, ← f2]
  rfl

/-- A string cut within a character: the characters before it, and false. -/
example : cstring_to_text [⟨true, 33⟩] ([97, 0xE5, 0x83] ++ 0 :: [0xBD]) = .ok ([⟨true, 33⟩, ⟨false, 97⟩], false) := by
  decide +kernel

/-! ## /repo/test/text_test.c -/

/-- The memory of a string literal. -/
def literal (s : String) : List Nat := utf8 s.toList ++ [0]

/-- The categories of the characters in the tests. -/
def testUnicode : Unicode where
  cat := fun c =>
    if c < 32 then .CC else if c = 32 then .ZS
    else if 48 ≤ c ∧ c ≤ 57 then .ND else if 65 ≤ c ∧ c ≤ 90 then .LU else if 97 ≤ c ∧ c ≤ 122 then .LL
    else if c = 0x24 then .SC else if c = 0x28 then .PS else if c = 0x29 then .PE else if c = 0x2D then .PD
    else if c < 127 then .PO
    else if c ∈ [0xE4, 0xEE, 0xF1, 0xF3, 0x101, 0x113, 0x142, 0x16B, 0x17A, 0x29F, 0x1D00] then .LL
    else if c ∈ [0x306E, 0x30A4, 0x30AB, 0x30BA, 0x30E9, 0x30ED, 0x4F1D, 0x50CD, 0x8AAC] then .LO
    else if c ∈ [0x2CA, 0x1D4B, 0x30FC] then .LM
    else if c ∈ [0x309, 0x31B, 0x323, 0x101FD] then .MN
    else if c ∈ [0x101E1, 0x1F36E, 0x25CC] then .SO
    else if c = 0x2019 then .PF else if c = 0xA1 then .PO else .CN
  tolower := id

def read (s : String) : Res (List Ch × Bool) := cstring_to_text [] (literal s)

example : (do let (t, r) ← read "hello"; return (t.length, r)) = Res.ok (5, true) := by decide +kernel
example : (do let (t, r) ← read "łódź"; return (t.length, r)) = Res.ok (4, true) := by decide +kernel
example : (do let (t, r) ← read "働"; return (t.length, r)) = Res.ok (1, true) := by decide +kernel
example : (do let (t, r) ← read "🍮"; return (t.length, r)) = Res.ok (1, true) := by decide +kernel

example : char_to_string testUnicode STRING_SIZE false 0x20 false = .ok (utf8 " ".toList) := by decide +kernel
example : char_to_string testUnicode STRING_SIZE false 0x25 false = .ok (utf8 "%".toList) := by decide +kernel
example : char_to_string testUnicode STRING_SIZE false 0x07 false = .ok (utf8 "<07>".toList) := by decide +kernel
example : char_to_string testUnicode STRING_SIZE false 0x50CD false = .ok (utf8 "働".toList) := by decide +kernel
example : char_to_string testUnicode STRING_SIZE false 0x101E1 false = .ok (utf8 "𐇡".toList) := by decide +kernel
example : char_to_string testUnicode STRING_SIZE false 0x309 false = .ok (utf8 "◌̉".toList) := by decide +kernel
example : char_to_string testUnicode STRING_SIZE false 0x101FD false = .ok (utf8 "◌𐇽".toList) := by decide +kernel

/-! ## /repo/test/word_test.c -/

/-- The words of a string. -/
def wordsOf (nfc : List Nat → Option (List Nat)) (string : List Nat) : Res (List (Option (List Nat))) := do
  let (text, _) ← cstring_to_text [] string
  Word.find_words testUnicode Word.wbProp nfc 0 text

/-- The words of the tests but one are in NFC. -/
def words (s : String) : Res (List (Option (List Nat))) := wordsOf some (literal s)

def expect (ws : List String) : Res (List (Option (List Nat))) := .ok (ws.map (fun w => some (utf8 w.toList)))

example : words "C11" = expect ["C11"] := by decide +kernel
/-- With the composition of the three characters at the end of the word. -/
example : wordsOf
    (fun w => if w = [0x70, 0x68, 0x6F, 0xCC, 0x9B, 0xCC, 0x89] then some [0x70, 0x68, 0xE1, 0xBB, 0x9F] else none)
    [0x70, 0x68, 0x6F, 0xCC, 0x9B, 0xCC, 0x89, 0] = .ok [some [0x70, 0x68, 0xE1, 0xBB, 0x9F]] := by decide +kernel
example : words "#$#@! #@!\n#@!!!$#" = expect [] := by decide +kernel
example : words "The quick (\"brown\") fox can’t jump 32.3 feet, right?" =
    expect ["The", "quick", "brown", "fox", "can’t", "jump", "32.3", "feet", "right"] := by decide +kernel
example : words "¡Feliz año nuevo!" = expect ["Feliz", "año", "nuevo"] := by decide +kernel
example : words "PLASTIK-KARTON BARDA %18 *1,75" = expect ["PLASTIK", "KARTON", "BARDA", "18", "1,75"] := by decide +kernel
example : words "ローカライズの伝説" = expect ["ローカライズ", "の", "伝", "説"] := by decide +kernel
example : words "Wᴀˊstᴀ haˊoîsîn ᵋāl ʟēˊłas ʟ̣ū haoîsîˊn\nl’ sᵋaiˊᵋänᴀn." =
    expect ["Wᴀˊstᴀ", "haˊoîsîn", "ᵋāl", "ʟēˊłas", "ʟ̣ū", "haoîsîˊn", "l", "sᵋaiˊᵋänᴀn"] := by decide +kernel
example : words "\x03" = expect [] := by decide +kernel

end Ocr.Text
