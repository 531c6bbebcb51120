import Verif.Proof.AnyWac
import Verif.Proof.AnyAcc
import Verif.Proof.Numerals

/-!
# C69: reading any file as a report

What a file means when it is read as a report is defined in `Spec/AnyReport.lean` on its lines.  Here it is shown, for all
files, that the readers compute exactly this, when they refuse a file, and when they access memory outside of an array or
line.
-/

namespace Ocr.AnyReport
open Text Report Res Ocr.Acc

/-- C69 (lines).  The pieces are the file; they are not empty and not longer than 98 bytes; a newline ends a piece; and a
piece before another one ends with a newline or has 98 bytes. -/
theorem c69_lines (file : List Nat) :
    (pieces [] file).flatten = file ∧
    (∀ l ∈ pieces [] file, l ≠ [] ∧ l.length ≤ 98 ∧ 10 ∉ l.dropLast) ∧
    (∀ a l b, pieces [] file = a ++ l :: b → b ≠ [] → l.getLast? = some 10 ∨ l.length = 98) := by
  suffices h : ∀ (file cur : List Nat), cur.length ≤ 97 → 10 ∉ cur → (pieces cur file).flatten = cur ++ file ∧
      (∀ l ∈ pieces cur file, l ≠ [] ∧ l.length ≤ 98 ∧ 10 ∉ l.dropLast) ∧
      (∀ a l b, pieces cur file = a ++ l :: b → b ≠ [] → l.getLast? = some 10 ∨ l.length = 98) from
    h file [] (by simp) (by simp)
  intro file
  induction file with
  | nil =>
    intro cur hl hn
    cases cur with
    | nil => simp [pieces]
    | cons c cur =>
      rw [pieces_nil (by simp)]
      refine ⟨by simp, ?_, ?_⟩
      · intro l h
        simp only [List.mem_singleton] at h
        subst h
        exact ⟨by simp, by omega, fun h => hn ((List.dropLast_sublist _).mem h)⟩
      · intro a l b h hb
        cases a with
        | nil => simp at h; exact absurd h.2.symm (by simpa using hb)
        | cons x a => simp at h
  | cons x file ih =>
    intro cur hl hn
    rw [pieces_cons]
    by_cases hx : x = 10 ∨ cur.length = 97
    · rw [if_pos hx]
      obtain ⟨i1, i2, i3⟩ := ih [] (by simp) (by simp)
      refine ⟨by simp [i1], ?_, ?_⟩
      · intro l h
        rcases List.mem_cons.1 h with rfl | h
        · exact ⟨by simp, by simp; omega, by simpa using hn⟩
        · exact i2 l h
      · intro a l b h hb
        cases a with
        | nil =>
          simp only [List.nil_append, List.cons.injEq] at h
          rw [← h.1]
          rcases hx with hx | hx
          · exact Or.inl (by simp [hx])
          · exact Or.inr (by simp; omega)
        | cons y a =>
          simp only [List.cons_append, List.cons.injEq] at h
          exact i3 a l b h.2 hb
    · rw [if_neg hx]
      have h10 : x ≠ 10 ∧ cur.length ≠ 97 := by tauto
      obtain ⟨i1, i2, i3⟩ := ih (cur ++ [x]) (by simp; omega) (by simp [hn]; exact fun h => h10.1 h.symm)
      exact ⟨by rw [i1]; simp, i2, i3⟩

/-- C69 (edit operations).  For every file: it is refused if and only if the title, the divider or one of the three figures
is missing; otherwise the figures and the rows of moves are added, unless a length is not between 0 and 100. -/
theorem c69_editop (D : Edo.Edodata) (file : List Nat) :
    match editop (lines file) with
    | none => Edo.read_edorpt D file = .err "invalid format in"
    | some (ins, del, moves, R) =>
      ((∀ r ∈ R, 0 ≤ r.second ∧ r.second ≤ 100) → Edo.read_edorpt D file =
        .ok ⟨D.total_insertions + ins, D.total_deletions + del, D.total_moves + moves,
          fun i => D.moves i + firsts (fun r => r.second = i) R⟩) ∧
      ((∃ r ∈ R, ¬ (0 ≤ r.second ∧ r.second ≤ 100)) → Edo.read_edorpt D file = .ub) := read_edorpt_spec D file

/-- C69 (word accuracy).  For every file: it is refused if and only if the title, the divider, one of the two figures or the
two lines after them are missing; otherwise the figures and words of the sections are added, unless a row is too short or
is about something outside of its array. -/
theorem c69_wordacc (D : Wac.Wacdata) (file : List Nat) :
    match wordacc (lines file) with
    | none => Wac.read_wacrpt D file = .err "invalid format in"
    | some p => (p.Sound → ∃ E, Wac.read_wacrpt D file = .ok E ∧ p.Adds D E) ∧
        (¬ p.Sound → Wac.read_wacrpt D file = .ub) := read_wacrpt_spec D file

/-- C69 (accuracy).  For every file: it is refused as a report if and only if one of the lines at the top is not as expected;
otherwise the figures, the confusions and the characters are added, unless a row of a confusion is too short; and the first
row whose character is not known, or outside of the table, ends the program in the one way or the other. -/
theorem c69_accuracy (D : Accdata) (file : List Nat) (hb : Bytes file) :
    match accuracy (lines file) with
    | none => read_accrpt D file = .err "invalid format in"
    | some p =>
      (¬ HasNames 20 p.confs → read_accrpt D file = .ub) ∧
      (HasNames 20 p.confs →
        (∀ vs, About p.classes vs → ∃ E, read_accrpt D file = .ok E ∧ p.Adds vs D E) ∧
        (∀ pre r post us, p.classes = pre ++ r :: post → About pre us →
          (Refused r → read_accrpt D file = .err "invalid character in") ∧ (Outside r → read_accrpt D file = .ub))) :=
  read_accrpt_spec D file hb

/-- C69 (no other case).  Either all rows are about characters in the table, or there is a first one that is refused or
outside. -/
theorem c69_rows (R : List Row) : (∃ vs, About R vs) ∨
    ∃ pre r post us, R = pre ++ r :: post ∧ About pre us ∧ (Refused r ∨ Outside r) := first_fault R

/-- C69 (characters).  `read_char` on any string: the character written there; otherwise none.  Only for a lone brace does
it look behind the end of the string. -/
theorem c69_char (s : List Nat) (h0 : 0 ∉ s) (hb : Bytes s) :
    (∀ v, Names s v → read_char (s ++ [0]) = .ok v) ∧
    (s ≠ ascii "{" → (¬ ∃ v, Names s v) → read_char (s ++ [0]) = .ok INVALID_CHARVALUE) ∧
    (s = ascii "{" → read_char (s ++ [0]) = .ub) := by
  refine ⟨fun v h => read_char_names h h0, fun hne hno => ?_, fun h => ?_⟩
  · rw [brace] at hne
    obtain ⟨v, h1, h2⟩ := read_char_total h0 hb hne
    rcases h2 with h2 | h2
    · exact absurd ⟨v, h2⟩ hno
    · rw [h1, h2]
  · rw [h, brace]; exact read_char_bare

/-- C69 (one meaning).  No string names two characters. -/
theorem c69_unique (s : List Nat) (h0 : 0 ∉ s) (v w : Nat) (hv : Names s v) (hw : Names s w) : v = w := by
  have h1 := read_char_names hv h0
  rw [read_char_names hw h0] at h1
  exact (Res.ok.inj h1).symm

/-- C69 (decimal numbers).  The numbers of the rows and figures are found as the C standard says: white space, a sign and decimal
digits up to the first byte that is not one. -/
theorem c69_decimal (s : List Nat) (v : Int) (rest : List Nat) : scanLong s = some (v, rest) ↔ Numerals.Decimal s v rest :=
  Numerals.scanLong_iff s v rest

/-- C69 (several numbers).  One number after the other. -/
theorem c69_decimals (n : Nat) (s : List Nat) (vs : List Int) : scanLongs n s = some vs ↔
    (n = 0 ∧ vs = []) ∨ ∃ v rest ws, 1 ≤ n ∧ vs = v :: ws ∧ Numerals.Decimal s v rest ∧ scanLongs (n - 1) rest = some ws := by
  cases n with
  | zero => simp [scanLongs, eq_comm]
  | succ n =>
    simp only [scanLongs, ← c69_decimal, Nat.add_one_ne_zero, false_and, false_or, Nat.add_sub_cancel]
    cases h : scanLong s with
    | none => simp
    | some r =>
      obtain ⟨v, rest⟩ := r
      simp only [Option.bind_eq_bind, Option.bind_some, Option.some.injEq, Prod.mk.injEq]
      cases h' : scanLongs n rest with
      | none =>
        simp only [Option.bind_none]
        constructor
        · intro e; simp at e
        · rintro ⟨_, _, ws, _, _, ⟨_, rfl⟩, e⟩; rw [h'] at e; simp at e
      | some ws =>
        simp only [Option.bind_some, Option.some.injEq]
        constructor
        · rintro rfl; exact ⟨v, rest, ws, by omega, rfl, ⟨rfl, rfl⟩, h'⟩
        · rintro ⟨_, _, ws', _, rfl, ⟨rfl, rfl⟩, e⟩; rw [h'] at e; rw [Option.some.inj e]

/-- C69 (hexadecimal numbers).  The number of a character is found as the C standard says, and so is the number of bytes. -/
theorem c69_hexadecimal (s : List Nat) (v n : Nat) : scanHex s = some (v, n) ↔ Numerals.Hexadecimal s v n :=
  Numerals.scanHex_iff s v n

/-- C69 (numbers printed).  What the programs print for a number is that number, right-justified and without superfluous zeros;
followed by something that is not a digit it is read as the same number. -/
theorem c69_printed (w : Nat) (v : Int) : Numerals.Printed w v (fmtLong w v) ∧
    ∀ rest, Numerals.Ended 10 rest → scanLong (fmtLong w v ++ rest) = some (v, rest) :=
  ⟨Numerals.fmtLong_spec w v, fun rest hr => (c69_decimal _ _ _).2 ((Numerals.fmtLong_spec w v).decimal hr)⟩

/-! ## Non-vacuity -/

example : scanLongs 2 (ascii "\t +12-7x") = some [12, -7] ∧ scanHex (ascii " -0X1fz") = some (2 ^ 32 - 31, 6) ∧
    scanHex (ascii "0xg") = none ∧ scanLong (ascii "- 3") = none := by decide +kernel

example : fmtLong 8 (-120) = ascii "    -120" ∧ fmtLong 2 0 = ascii " 0" ∧ fmtLong 2 12345 = ascii "12345" := by decide +kernel

deriving instance DecidableEq for Acc.Head
deriving instance DecidableEq for AccuracyParts

/-- A file no program wrote: another version, a comment after a figure, numbers out of line, a length twice, and a last line
without newline. -/
def oddEditop : List Nat := Edo.TITLE.dropLast.dropLast ++ ascii "9\n" ++ Edo.DIVIDER ++
  ascii "3 insertions, corrected by hand\n\t-1\n+2\n\n\n\n1 7\n 4   100 x\n1 7"

/-- It is read, with the lengths 7 and 100. -/
example : ∃ E, Edo.read_edorpt Edo.Edodata.zero oddEditop = .ok E ∧ E.total_insertions = 3 ∧ E.total_deletions = -1 ∧
    E.total_moves = 2 ∧ E.moves 7 = 2 ∧ E.moves 100 = 4 := by
  have h := c69_editop Edo.Edodata.zero oddEditop
  have e : editop (lines oddEditop) = some (3, -1, 2,
      [⟨1, 7, ascii "1 7\n"⟩, ⟨4, 100, ascii " 4   100 x\n"⟩, ⟨1, 7, ascii "1 7"⟩]) := by decide +kernel
  rw [e] at h
  exact ⟨_, h.1 (by decide), rfl, rfl, rfl, by decide, by decide⟩

/-- With a length of 101 the program writes beyond the array. -/
example : Edo.read_edorpt Edo.Edodata.zero (oddEditop ++ ascii "\n1 101\n") = .ub := by
  have h := c69_editop Edo.Edodata.zero (oddEditop ++ ascii "\n1 101\n")
  have e : editop (lines (oddEditop ++ ascii "\n1 101\n")) = some (3, -1, 2,
      [⟨1, 7, ascii "1 7\n"⟩, ⟨4, 100, ascii " 4   100 x\n"⟩, ⟨1, 7, ascii "1 7\n"⟩, ⟨1, 101, ascii "1 101\n"⟩]) := by
    decide +kernel
  rw [e] at h
  exact h.2 (by decide)

/-- A report with a figure missing is refused. -/
example : Edo.read_edorpt Edo.Edodata.zero (Edo.TITLE ++ Edo.DIVIDER ++ ascii "1\n2\nthree\n") = .err "invalid format in" := by
  have h := c69_editop Edo.Edodata.zero (Edo.TITLE ++ Edo.DIVIDER ++ ascii "1\n2\nthree\n")
  have e : editop (lines (Edo.TITLE ++ Edo.DIVIDER ++ ascii "1\n2\nthree\n")) = none := by decide +kernel
  rw [e] at h
  exact h

/-- A line of 100 bytes is two pieces. -/
example : pieces [] (List.replicate 100 65 ++ [10, 66]) = [List.replicate 98 65, [65, 65, 10], [66]] := by decide +kernel

/-- A word accuracy report without headings whose last line has no newline. -/
def oddWordacc : List Nat := Wac.TITLE ++ Wac.DIVIDER ++
  ascii "   3\n1\n\n\n\n\n       2        1    50.00        4\n       2        1    50.00    Total\n\n" ++
  ascii "\n\n\n" ++ ascii "\n\n\n" ++ ascii "\n\n\n" ++
  ascii "\n\n       1        1     0.00   the\n       1        0   100.00   at"

/-- It is read; the last word loses its last letter. -/
example : ∃ E, Wac.read_wacrpt Wac.Wacdata.zero oddWordacc = .ok E ∧ E.total = ⟨3, 1⟩ ∧ E.stopword 4 = ⟨2, 1⟩ ∧
    Wac.termCount (ascii "the") E.stopword_table = 1 ∧ Wac.termCount (ascii "a") E.stopword_table = 1 ∧
    ascii "at" ∉ E.stopword_table.map Term.key := by
  have h := c69_wordacc Wac.Wacdata.zero oddWordacc
  have e : wordacc (lines oddWordacc) = some ⟨3, 1,
      [⟨2, 1, ascii "       2        1    50.00        4\n"⟩, ⟨2, 1, ascii "       2        1    50.00    Total\n"⟩], [], [], [],
      [⟨1, 1, ascii "       1        1     0.00   the\n"⟩, ⟨1, 0, ascii "       1        0   100.00   at"⟩], []⟩ := by
    decide +kernel
  rw [e] at h
  obtain ⟨E, h1, h2⟩ := h.1 ⟨by unfold InArray; decide +kernel, by unfold InArray; decide +kernel,
    by unfold InArray; decide +kernel, by unfold InArray; decide +kernel, by unfold HasNames; decide +kernel,
    by unfold HasNames; decide +kernel⟩
  refine ⟨E, h1, h2.total, (h2.stop 4).trans (by decide +kernel), (h2.terms1.count _).trans (by decide +kernel),
    (h2.terms1.count _).trans (by decide +kernel), fun h => ?_⟩
  rcases (h2.terms1.keys _).1 h with h | h
  · exact absurd h (by decide)
  · revert h; decide +kernel

/-- With stopwords of 51 errors the program writes beyond the array. -/
example : Wac.read_wacrpt Wac.Wacdata.zero (Wac.TITLE ++ Wac.DIVIDER ++
    ascii "3\n1\n\n\n\n\n       2        1    50.00       51\n\n") = .ub := by
  have h := c69_wordacc Wac.Wacdata.zero (Wac.TITLE ++ Wac.DIVIDER ++
    ascii "3\n1\n\n\n\n\n       2        1    50.00       51\n\n")
  have e : wordacc (lines (Wac.TITLE ++ Wac.DIVIDER ++
      ascii "3\n1\n\n\n\n\n       2        1    50.00       51\n\n")) = some ⟨3, 1,
        [⟨2, 1, ascii "       2        1    50.00       51\n"⟩], [], [], [], [], []⟩ := by
    decide +kernel
  rw [e] at h
  exact h.2 fun hs => by have := hs.stop; revert this; unfold InArray; decide +kernel

/-- The top of an accuracy report, with the words left out. -/
def oddTop : List Nat := Acc.TITLE ++ Acc.DIVIDER ++
  ascii "3\n1\n\n\n0\n0\n0\n\n\n\n\n0 0 0 0\n1 0 0 1\n1 0 0 1\n\n\n\n1 0 of what    {a}-{b}\n\n\n"

def oddHead : Acc.Head := ⟨3, 1, 0, 0, 0, ⟨0, 0, 0, 0⟩, ⟨1, 0, 0, 1⟩, ⟨1, 0, 0, 1⟩⟩

/-- The row of `{é}` is about that character, and a row in hexadecimal about another. -/
example : ∃ E, read_accrpt Accdata.zero (oddTop ++ ascii "       2        1    50.00   {" ++ [195, 169] ++ ascii "}\n" ++
      ascii "       1        0   100.00   {<7>}") = .ok E ∧
    E.characters = 3 ∧ (E.small_class 0xE9).count = 2 ∧ (E.small_class 7).count = 1 ∧ (E.small_class 8).count = 0 := by
  have h := c69_accuracy Accdata.zero (oddTop ++ ascii "       2        1    50.00   {" ++ [195, 169] ++ ascii "}\n" ++
      ascii "       1        0   100.00   {<7>}") (by unfold Bytes; decide +kernel)
  have e : accuracy (lines (oddTop ++ ascii "       2        1    50.00   {" ++ [195, 169] ++ ascii "}\n" ++
      ascii "       1        0   100.00   {<7>}")) = some ⟨oddHead, [⟨1, 0, ascii "1 0 of what    {a}-{b}\n"⟩],
        [⟨2, 1, ascii "       2        1    50.00   {" ++ [195, 169] ++ ascii "}\n"⟩,
         ⟨1, 0, ascii "       1        0   100.00   {<7>}"⟩]⟩ := by decide +kernel
  rw [e] at h
  have n1 : Names ((ascii "       2        1    50.00   {" ++ [195, 169] ++ ascii "}\n").drop 29) 0xE9 := by
    have := Names.char 'é' (ascii "\n") (by decide) (by decide)
    exact (by decide +kernel : (ascii "       2        1    50.00   {" ++ [195, 169] ++ ascii "}\n").drop 29 =
      ascii "{" ++ utf8 ['é'] ++ ascii "}" ++ ascii "\n") ▸ this
  have n2 : Names ((ascii "       1        0   100.00   {<7>}").drop 29) 7 := by
    have := Names.hex (ascii "7>}") [] 7 1 (by decide +kernel) (by decide +kernel)
    exact (by decide +kernel : (ascii "       1        0   100.00   {<7>}").drop 29 = ascii "{<" ++ ascii "7>}") ▸ this
  obtain ⟨E, h1, h2⟩ := (h.2 (by unfold HasNames; decide +kernel)).1 [0xE9, 7]
    (.cons ⟨by decide +kernel, n1, by decide⟩ (.cons ⟨by decide +kernel, n2, by decide⟩ .nil))
  exact ⟨E, h1, h2.characters, (h2.small _).1.trans (by decide +kernel), (h2.small _).1.trans (by decide +kernel),
    (h2.small _).1.trans (by decide +kernel)⟩

/-- A row ending after the brace is read beyond its end. -/
example : read_accrpt Accdata.zero (oddTop ++ ascii "       2        1    50.00   {") = .ub := by
  have h := c69_accuracy Accdata.zero (oddTop ++ ascii "       2        1    50.00   {") (by unfold Bytes; decide +kernel)
  have e : accuracy (lines (oddTop ++ ascii "       2        1    50.00   {")) =
      some ⟨oddHead, [⟨1, 0, ascii "1 0 of what    {a}-{b}\n"⟩], [⟨2, 1, ascii "       2        1    50.00   {"⟩]⟩ := by
    decide +kernel
  rw [e] at h
  exact ((h.2 (by unfold HasNames; decide +kernel)).2 [] _ [] [] rfl .nil).2 (Or.inr (Or.inl (by decide +kernel)))

/-- A file with the title of another report is refused. -/
example : read_accrpt Accdata.zero (Wac.TITLE ++ Acc.DIVIDER ++ ascii "1\n") = .err "invalid format in" := by
  have h := c69_accuracy Accdata.zero (Wac.TITLE ++ Acc.DIVIDER ++ ascii "1\n") (by unfold Bytes; decide +kernel)
  have e : accuracy (lines (Wac.TITLE ++ Acc.DIVIDER ++ ascii "1\n")) = none := by decide +kernel
  rw [e] at h
  exact h

example : read_char (ascii "{<20ac>} (euro)" ++ [0]) = .ok 0x20AC :=
  (c69_char _ (by decide +kernel) (by unfold Bytes; decide +kernel)).1 _
    ((by decide +kernel : ascii "{<20ac>} (euro)" = ascii "{<" ++ ascii "20ac>} (euro)") ▸
      Names.hex (ascii "20ac>} (euro)") (ascii " (euro)") 0x20AC 4 (by decide +kernel) (by decide +kernel))

end Ocr.AnyReport
