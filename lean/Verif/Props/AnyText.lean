import Verif.Proof.AnyText

/-!
# C72: any file read as a text

With and without a header, complete or not, and whatever the bytes.
-/

namespace Ocr.AnyText
open Text Res Spec AnyReport

/-- C72 (reading).  A file of any bytes is read as the text it holds, and it is noted whether it begins with the title. -/
theorem c72_read (U : Unicode) (junk : List Nat) (hj : Bytes junk) (fold found : Bool) (file : List Nat) (hf : Bytes file) (t : List Ch)
    (opt : Textopt) : read_text U junk [] file { pageText fold with found_header := found } = .ok (t, opt) ↔
      TextOf U fold file t ∧ opt = { pageText fold with found_header := decide (Headed file) } :=
  read_any U junk fold found file hf hj t opt

/-- C72 (refusing).  It is refused with a message exactly if what remains without the header is not well-formed UTF-8. -/
theorem c72_refused (U : Unicode) (junk : List Nat) (hj : Bytes junk) (fold found : Bool) (file : List Nat) (hf : Bytes file) :
    (∃ msg, read_text U junk [] file { pageText fold with found_header := found } = .err msg) ↔ ¬ WellFormed file := by
  refine ⟨?_, read_refused U junk fold found file hf hj⟩
  rintro ⟨msg, e⟩ h
  obtain ⟨t, ht⟩ := (textOf_iff U fold file).2 h
  rw [(read_any U junk fold found file hf hj t _).2 ⟨ht, rfl⟩] at e
  cases e

/-- C72 (one text).  A file holds a text exactly if what remains without the header is well-formed UTF-8, and then only one. -/
theorem c72_one (U : Unicode) (fold : Bool) (file : List Nat) :
    ((∃ t, TextOf U fold file t) ↔ WellFormed file) ∧ ∀ t t', TextOf U fold file t → TextOf U fold file t' → t = t' :=
  ⟨textOf_iff U fold file, fun _ _ => textOf_unique⟩

/-- C72 (the header).  What is left of a file is its end, and all of it if there is no title. -/
theorem c72_body (file : List Nat) : bodyOf file <:+ file ∧ (¬ Headed file → bodyOf file = file) :=
  ⟨bodyOf_suffix file, fun h => by rw [bodyOf, if_neg h]⟩

/-- C72 (agreement).  The files that hold a text in the narrower sense of C57, where the header is complete and its lines are short,
hold the same text here. -/
theorem c72_holds (U : Unicode) (fold : Bool) (file : List Nat) (hf : Bytes file) (t : List Ch) (h : HoldsText U fold file t) :
    TextOf U fold file t := holdsText_textOf hf h

/-! ## Non-vacuity -/

/-- A header that never ends: everything is header, even bytes that are not UTF-8. -/
def endless : List Nat := TITLE ++ DIVIDER ++ ascii "a\n" ++ [255]
theorem endless_body : Headed endless ∧ bodyOf endless = [] := by decide +kernel
example : TextOf sampleUnicode false endless [] := by
  unfold TextOf
  rw [endless_body.2]
  exact ⟨[], [], [], by decide, by simp [Gap], by simp, rfl, by simp [normalized]⟩

/-- A line that is too long is cut, and what follows the cut is compared by itself: here it is a divider. -/
def odd : List Nat := TITLE ++ List.replicate 98 120 ++ DIVIDER ++ ascii "a^b\n" ++ DIVIDER ++ ascii "c ^d"
theorem odd_body : Headed odd ∧ bodyOf odd = ascii "c ^d" := by decide +kernel
example : TextOf sampleUnicode false odd [⟨false, 99⟩, ⟨false, 32⟩, ⟨true, 100⟩] := by
  unfold TextOf
  rw [odd_body.2]
  refine ⟨"c ^d".toList, [], [(⟨false, 99⟩, [⟨false, 32⟩]), (⟨true, 100⟩, [])], by decide +kernel, ?_, ?_, by decide +kernel, by decide +kernel⟩
  · intro c hc; cases hc
  · simp only [Gap, Visible, blankish]; decide +kernel

/-- A file that is not well-formed. -/
example : ¬ WellFormed [97, 255] :=
  (c72_refused sampleUnicode [] (by simp [Bytes]) false false [97, 255] (by simp [Bytes])).1 ⟨_, rfl⟩

end Ocr.AnyText
