import Verif.Proof.Written

/-!
# C57: any file is read or refused
-/

namespace Ocr.Text
open Res Spec

/-- C57 (pages).  A file of any bytes, without a header, is read as a page exactly if it is well-formed UTF-8, and then gives the
text that `IsPage` describes. -/
theorem c57_page (U : Unicode) (junk : List Nat) (hj : Bytes junk) (fold : Bool) (file : List Nat) (hf : Bytes file)
    (hh : ¬ Headed file) (t : List Ch) (opt : Textopt) :
    read_text U junk [] file (pageText fold) = .ok (t, opt) ↔ IsPage U fold file t ∧ opt = pageText fold :=
  read_page U junk fold file hf hj hh t opt

/-- C57 (totality).  Reading any file of bytes with any options ends with a text or with a message. -/
theorem c57_total (U : Unicode) (junk : List Nat) (hj : Bytes junk) (text : List Ch) (file : List Nat) (hf : Bytes file)
    (opt : Textopt) :
    (∃ r, read_text U junk text file opt = .ok r) ∨ ∃ msg, read_text U junk text file opt = .err msg :=
  read_total U junk text file opt hf hj

/-- C57 (headers).  A file that holds a text, with or without a header, is read as this text; that a header was found is noted
exactly if the file begins with the title. -/
theorem c57_text (U : Unicode) (junk : List Nat) (fold : Bool) (file : List Nat) (t : List Ch) (h : HoldsText U fold file t) :
    ∃ opt, read_text U junk [] file (pageText fold) = .ok (t, opt) ∧ (opt.found_header = true ↔ Headed file) ∧
      opt = { pageText fold with found_header := opt.found_header } := by
  obtain ⟨found, e, hf⟩ := read_holds (junk := junk) h
  exact ⟨_, e, hf, rfl⟩

/-- C57 (lists).  A file of any bytes is read as a list of words or of characters exactly if it is well-formed UTF-8, and then gives
the text that `IsList` describes. -/
theorem c57_list (U : Unicode) (junk : List Nat) (hj : Bytes junk) (file : List Nat) (hf : Bytes file) (t : List Ch) (opt : Textopt) :
    (read_text U junk [] file wordList = .ok (t, opt) ↔ IsList U false true file t ∧ opt = wordList) ∧
    (read_text U junk [] file charList = .ok (t, opt) ↔ IsList U true false file t ∧ opt = charList) :=
  ⟨read_list U junk false true file hf hj t opt, read_list U junk true false file hf hj t opt⟩

/-- C57 (writing).  If all characters of a page are newlines or printable and not combining, the file written for its text is again
a page with this text. -/
theorem c57_written (U : Unicode) (file : List Nat) (t : List Ch) (h : IsPage U false file t) (hw : ∀ c ∈ t, Writable U c.value) :
    ∃ file', write_text U t none = .ok file' ∧ IsPage U false file' t := written_page hw (page_normal h)

/-! Non-vacuity -/

/-- A page with a mark and superfluous spacing. -/
theorem sample_page : IsPage sampleUnicode false (ascii "  a ^b\n\n c ") [⟨false, 97⟩, ⟨false, 32⟩, ⟨true, 98⟩, ⟨false, 10⟩, ⟨false, 99⟩] := by
  refine ⟨"  a ^b\n\n c ".toList, [⟨false, 32⟩, ⟨false, 32⟩],
    [(⟨false, 97⟩, [⟨false, 32⟩]), (⟨true, 98⟩, [⟨false, 10⟩, ⟨false, 10⟩, ⟨false, 32⟩]), (⟨false, 99⟩, [⟨false, 32⟩])],
    by decide +kernel, ?_, ?_, by decide +kernel, by decide +kernel⟩
  · intro c hc; simp at hc; subst hc; exact .inl (.inl rfl)
  · simp only [Gap, Visible, blankish]; decide +kernel

/-- The same file as a list of words: the mark is a character, letters become lower-case. -/
example : IsList sampleUnicode false true (ascii " A ^b") [⟨false, 97⟩, ⟨false, 32⟩, ⟨false, 94⟩, ⟨false, 98⟩] := by
  refine ⟨" A ^b".toList, [⟨false, 32⟩], [(⟨false, 65⟩, [⟨false, 32⟩]), (⟨false, 94⟩, []), (⟨false, 98⟩, [])],
    by decide +kernel, ?_, ?_, by decide +kernel, by decide +kernel⟩
  · intro c hc; simp at hc; subst hc; exact .inl (.inl rfl)
  · simp only [Gap, Visible, blankish]; decide +kernel

example : write_text sampleUnicode [⟨false, 97⟩, ⟨false, 32⟩, ⟨true, 98⟩, ⟨false, 10⟩, ⟨false, 99⟩] none = .ok (ascii "a ^b\nc") ∧
    ∀ c ∈ [(⟨false, 97⟩ : Ch), ⟨false, 32⟩, ⟨true, 98⟩, ⟨false, 10⟩, ⟨false, 99⟩], Writable sampleUnicode c.value := by
  constructor
  · decide +kernel
  · simp only [Writable, Scalar]; decide +kernel

example : ¬ Headed (ascii "  a ^b\n\n c ") := by unfold Headed; decide +kernel

/-- The same page with a header. -/
example : HoldsText sampleUnicode false (ascii "ocreval Vendor-Independent Interface Version 6.1" ++ [10] ++ DIVIDER ++ ascii "by hand\n" ++ DIVIDER ++
    ascii "  a ^b\n\n c ") [⟨false, 97⟩, ⟨false, 32⟩, ⟨true, 98⟩, ⟨false, 10⟩, ⟨false, 99⟩] := by
  refine .inr ⟨_, ⟨ascii "ocreval Vendor-Independent Interface Version 6.1", [], [ascii "by hand"], by decide +kernel, by decide +kernel,
    by decide +kernel, by simp, ?_, by decide +kernel⟩, sample_page⟩
  intro l hl
  simp only [List.mem_singleton] at hl
  subst hl
  unfold PlainLine
  decide +kernel

end Ocr.Text
