/-!
# UTF-8, independently of utf8proc

`String.utf8EncodeChar` is the encoder of Lean's core library; a Lean `Char` is a Unicode scalar value.
-/

namespace Ocr

/-- The UTF-8 encoding of a sequence of Unicode scalar values, as byte values. -/
def utf8 (cs : List Char) : List Nat := cs.flatMap (fun c => (String.utf8EncodeChar c).map UInt8.toNat)

/-- A list of byte values. -/
def Bytes (bs : List Nat) : Prop := ∀ b ∈ bs, b < 256

end Ocr
