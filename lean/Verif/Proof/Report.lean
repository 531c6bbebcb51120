import Verif.Model.Report
import Verif.Proof.Header

namespace Ocr.Report
open Text Res

/-! ## Numbers -/

theorem decDigits_digit (v : Nat) : ∀ b ∈ decDigits v, isdigit b = true := by
  induction v using Nat.strongRecOn with
  | ind v ih =>
    rw [decDigits]
    split
    · intro b hb; simp at hb; subst hb; simp [isdigit]; omega
    · intro b hb
      rcases List.mem_append.1 hb with hb | hb
      · exact ih (v / 10) (by omega) b hb
      · simp at hb; subst hb; simp [isdigit]; omega

theorem decDigits_ne (v : Nat) : decDigits v ≠ [] := by
  rw [decDigits]; split <;> simp

theorem decVal_append (a : List Nat) (d : Nat) : decVal (a ++ [d]) = 10 * decVal a + (d - 48) := by simp [decVal]

theorem decVal_decDigits (v : Nat) : decVal (decDigits v) = v := by
  induction v using Nat.strongRecOn with
  | ind v ih =>
    rw [decDigits]
    split
    · simp [decVal]
    · rw [decVal_append, ih (v / 10) (by omega)]; omega

theorem decDigits_len (k : Nat) : ∀ v, v < 10 ^ (k + 1) → (decDigits v).length ≤ k + 1 := by
  induction k with
  | zero => intro v h; rw [decDigits, if_pos (by simpa using h)]; simp
  | succ k ih =>
    intro v h
    rw [decDigits]
    split
    · simp
    · rw [List.length_append]
      have := ih (v / 10) (by rw [Nat.div_lt_iff_lt_mul (by omega)]; rw [pow_succ] at h; omega)
      simp; omega

theorem takeWhile_digits {ds rest : List Nat} (h : ∀ b ∈ ds, isdigit b = true) (hr : ∀ b ∈ rest.head?, isdigit b = false) :
    (ds ++ rest).takeWhile isdigit = ds ∧ (ds ++ rest).dropWhile isdigit = rest := by
  induction ds with
  | nil =>
    cases rest with
    | nil => simp
    | cons b r => have := hr b (by simp); simp [this]
  | cons a ds ih =>
    have ha := h a (by simp)
    have := ih (fun b hb => h b (by simp [hb]))
    simp [ha, this]

theorem dropWhile_spaces (k : Nat) {s : List Nat} (h : ∀ b ∈ s.head?, isspace b = false) :
    (List.replicate k 32 ++ s).dropWhile isspace = s := by
  induction k with
  | zero =>
    cases s with
    | nil => simp
    | cons b r => have := h b (by simp); simp [this]
  | succ k ih =>
    rw [List.replicate_succ, List.cons_append, List.dropWhile_cons_of_pos (by decide)]
    exact ih

/-- Reading back a printed number. -/
theorem scan_fmt (k w : Nat) (v : Int) (rest : List Nat) (hr : ∀ b ∈ rest.head?, isdigit b = false) :
    scanLong (List.replicate k 32 ++ fmtLong w v ++ rest) = some (v, rest) := by
  unfold scanLong fmtLong
  have e : List.replicate k 32 ++ (List.replicate (w - (fmtInt v).length) 32 ++ fmtInt v) ++ rest =
      List.replicate (k + (w - (fmtInt v).length)) 32 ++ (fmtInt v ++ rest) := by
    rw [List.replicate_add]; simp only [List.append_assoc]
  have hne := decDigits_ne v.natAbs
  have hd := decDigits_digit v.natAbs
  have hv := decVal_decDigits v.natAbs
  rw [e]
  unfold fmtInt
  by_cases h : v < 0
  · rw [if_pos h, dropWhile_spaces _ (by intro b hb; simp at hb; subst hb; decide)]
    simp only [List.cons_append, scanSign, if_true]
    obtain ⟨h1, h2⟩ := takeWhile_digits hd hr
    rw [h1, h2, if_neg hne, hv]
    simp only [Option.some.injEq, Prod.mk.injEq, and_true, if_true]; omega
  · rw [if_neg h]
    generalize decDigits v.natAbs = ds at *
    cases ds with
    | nil => contradiction
    | cons d ds =>
      have hd0 := hd d (by simp)
      simp only [isdigit, Bool.and_eq_true, decide_eq_true_eq] at hd0
      rw [dropWhile_spaces _ (by intro b hb; simp at hb; subst hb; simp [isspace]; omega)]
      simp only [List.cons_append, scanSign, show d ≠ 45 by omega, show d ≠ 43 by omega, if_false]
      obtain ⟨h1, h2⟩ := takeWhile_digits hd hr
      rw [List.cons_append] at h1 h2
      rw [h1, h2, if_neg hne, hv]
      simp; omega

theorem fmtInt_bytes (v : Int) : ∀ b ∈ fmtInt v, b ≠ 10 ∧ b ≠ 0 := by
  intro b hb
  have hd := decDigits_digit v.natAbs
  unfold fmtInt at hb
  have key : b = 45 ∨ isdigit b = true := by
    split at hb
    · rcases List.mem_cons.1 hb with h | h
      · exact .inl h
      · exact .inr (hd b h)
    · exact .inr (hd b hb)
  rcases key with rfl | h
  · omega
  · simp [isdigit] at h; omega

theorem fmtLong_bytes (w : Nat) (v : Int) : ∀ b ∈ fmtLong w v, b ≠ 10 ∧ b ≠ 0 := by
  intro b hb
  rcases List.mem_append.1 hb with h | h
  · have := List.eq_of_mem_replicate h; omega
  · exact fmtInt_bytes v b h

theorem fmtInt_len {v : Int} (h : IsLong v) : (fmtInt v).length ≤ 20 := by
  unfold IsLong at h
  have := decDigits_len 18 v.natAbs (by omega)
  unfold fmtInt; split
  · simp; omega
  · omega

theorem fmtLong_len {v : Int} (h : IsLong v) : (fmtLong 8 v).length ≤ 20 := by
  have := fmtInt_len h
  unfold fmtLong; rw [List.length_append, List.length_replicate]; omega

/-- A number that fits the column takes exactly the column. -/
theorem fmtLong_len8 {v : Int} (h0 : 0 ≤ v) (h : v < 10 ^ 8) : (fmtLong 8 v).length = 8 := by
  have := decDigits_len 7 v.natAbs (by omega)
  have e : fmtInt v = decDigits v.natAbs := by unfold fmtInt; rw [if_neg (by omega)]
  unfold fmtLong; rw [List.length_append, List.length_replicate, e]; omega

/-! ## Lines -/

/-- A line that fits into the buffer (without its newline). -/
structure Line (l : List Nat) : Prop where
  nl  : 10 ∉ l
  nul : 0 ∉ l
  len : l.length ≤ 97

theorem read_line_eq {l : List Nat} (h : Line l) (r : List Nat) : read_line (l ++ 10 :: r) = some (l ++ [10], r) := by
  unfold read_line
  rw [fgets_line l r 98 h.nl (by have := h.len; omega)]
  simp only [Option.map_some]
  rw [Ngram.cstr_self]
  intro b hb
  rcases List.mem_append.1 hb with hb | hb
  · rintro rfl; exact h.nul hb
  · simp at hb; omega

theorem read_line_nil : read_line [] = none := rfl

theorem fgets_shorter {n : Nat} (hn : 0 < n) {file line rest : List Nat} (h : fgets n file = some (line, rest)) :
    rest.length < file.length := by
  have go_le : ∀ (n : Nat) (file : List Nat), (fgets.go n file).2.length ≤ file.length := by
    intro n
    induction n with
    | zero => intro file; simp [fgets.go]
    | succ n ih =>
      intro file
      cases file with
      | nil => simp [fgets.go]
      | cons b f =>
        rw [fgets.go]
        split
        · simp
        · have := ih f; simp only [List.length_cons]; omega
  cases file with
  | nil => simp [fgets] at h
  | cons b f =>
    cases n with
    | zero => omega
    | succ n =>
      rw [fgets_cons] at h
      have h := Option.some.inj h
      rw [fgets.go] at h
      split at h
      · rw [← (Prod.mk.inj h).2]; simp
      · have := go_le n f
        rw [← (Prod.mk.inj h).2]; simp only [List.length_cons]; omega

theorem read_line_shorter {file line rest : List Nat} (h : read_line file = some (line, rest)) : rest.length < file.length := by
  unfold read_line at h
  simp only [Option.map_eq_some_iff] at h
  obtain ⟨⟨l, r⟩, h1, h2⟩ := h
  simp only [Prod.mk.injEq] at h2
  rw [← h2.2]; exact fgets_shorter (by omega) h1

theorem read_two_shorter {file rest : List Nat} {p} (h : read_two file = some (p, rest)) : rest.length < file.length := by
  unfold read_two at h
  simp only [Option.bind_eq_bind, Option.bind_eq_some_iff] at h
  obtain ⟨⟨l, r⟩, h1, h2⟩ := h
  have := read_line_shorter h1
  simp only at h2
  split at h2
  · simp only [Option.some.injEq, Prod.mk.injEq] at h2
    obtain ⟨-, rfl⟩ := h2; exact this
  · simp at h2

theorem skip_lines_eq {l : List Nat} (h : Line l) (n : Nat) (r : List Nat) : skip_lines (n + 1) (l ++ 10 :: r) = skip_lines n r := by
  rw [skip_lines, read_line_eq h]; rfl

theorem scanLongs_one {l rest : List Nat} {v : Int} (h : scanLong l = some (v, rest)) : scanLongs 1 l = some [v] := by
  simp [scanLongs, h]

theorem scanLongs_two {l r1 r2 : List Nat} {v w : Int} (h : scanLong l = some (v, r1)) (h' : scanLong r1 = some (w, r2)) :
    scanLongs 2 l = some [v, w] := by
  simp [scanLongs, h, h']

/-- Reading a line written by `write_value`. -/
theorem read_value_eq {v : Int} (hv : IsLong v) {s : String} (hs : Line (ascii s)) (hl : (ascii s).length ≤ 40) (r : List Nat) :
    read_value (write_value v s ++ r) = some (v, r) := by
  have e : write_value v s ++ r = (fmtLong 8 v ++ ascii "   " ++ ascii s) ++ 10 :: r := by simp [write_value]
  have e3 : ascii "   " = [32, 32, 32] := by decide
  rw [e]
  unfold read_value
  rw [read_line_eq]
  · simp only [Option.bind_eq_bind, Option.bind_some]
    have : scanLong (fmtLong 8 v ++ ascii "   " ++ ascii s ++ [10]) = some (v, ascii "   " ++ ascii s ++ [10]) := by
      have := scan_fmt 0 8 v (ascii "   " ++ ascii s ++ [10]) (by rw [e3]; simp [isdigit])
      simpa using this
    rw [scanLongs_one this]
  · have hb := fmtLong_bytes 8 v
    have hl8 := fmtLong_len hv
    refine ⟨?_, ?_, ?_⟩
    · rw [e3]; simp only [List.mem_append, not_or]
      exact ⟨⟨fun h => (hb _ h).1 rfl, by simp⟩, hs.nl⟩
    · rw [e3]; simp only [List.mem_append, not_or]
      exact ⟨⟨fun h => (hb _ h).2 rfl, by simp⟩, hs.nul⟩
    · rw [e3]; simp only [List.length_append, List.length_cons, List.length_nil]; omega

/-- Reading a line that starts with two numbers. -/
theorem read_two_eq {v w : Int} {tail : List Nat} (hl : Line (fmtLong 8 v ++ [32] ++ fmtLong 8 w ++ tail))
    (ht : ∀ b ∈ tail.head?, isdigit b = false) (r : List Nat) :
    read_two (fmtLong 8 v ++ [32] ++ fmtLong 8 w ++ tail ++ 10 :: r) =
      some ((v, w, fmtLong 8 v ++ [32] ++ fmtLong 8 w ++ tail ++ [10]), r) := by
  unfold read_two
  rw [read_line_eq hl]
  simp only [Option.bind_eq_bind, Option.bind_some]
  have h1 : scanLong (fmtLong 8 v ++ [32] ++ fmtLong 8 w ++ tail ++ [10]) = some (v, [32] ++ fmtLong 8 w ++ tail ++ [10]) := by
    have := scan_fmt 0 8 v ([32] ++ fmtLong 8 w ++ tail ++ [10]) (by simp [isdigit])
    simpa using this
  have h2 : scanLong ([32] ++ fmtLong 8 w ++ tail ++ [10]) = some (w, tail ++ [10]) := by
    have := scan_fmt 1 8 w (tail ++ [10]) (by
      cases tail with
      | nil => simp [isdigit]
      | cons b t => simpa using ht)
    simpa using this
  rw [scanLongs_two h1 h2]

theorem read_title_eq {title divider : List Nat} (h1 : Line title) (h2 : Line divider) (r : List Nat) :
    read_title (title ++ [10]) (divider ++ [10]) (title ++ [10] ++ (divider ++ [10]) ++ r) = some r := by
  have e : title ++ [10] ++ (divider ++ [10]) ++ r = title ++ 10 :: (divider ++ 10 :: r) := by simp
  unfold read_title
  rw [e, read_line_eq h1]
  simp only [Option.bind_eq_bind, Option.bind_some, if_true]
  rw [read_line_eq h2]
  simp

/-- An empty line ends a table. -/
theorem read_two_blank (r : List Nat) : read_two (10 :: r) = none := by
  unfold read_two
  have := read_line_eq (l := []) ⟨by simp, by simp, by simp⟩ r
  simp only [List.nil_append] at this
  rw [this]
  simp only [Option.bind_eq_bind, Option.bind_some]
  have : scanLongs 2 [10] = none := by decide
  rw [this]

theorem read_two_nil : read_two [] = none := rfl

end Ocr.Report
