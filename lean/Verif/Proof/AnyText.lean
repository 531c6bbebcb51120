import Verif.Spec.AnyText
import Verif.Proof.AnyReport
import Verif.Proof.Page

namespace Ocr.AnyText
open Text Res Spec AnyReport

theorem flatten_pieces (file cur : List Nat) : (pieces cur file).flatten = cur ++ file := by
  induction file generalizing cur with
  | nil =>
    cases cur with
    | nil => rfl
    | cons a c => rw [pieces_nil (by simp)]; simp
  | cons b file ih =>
    rw [pieces_cons]
    split
    · rw [List.flatten_cons, ih]; simp
    · rw [ih]; simp

theorem fgets_pieces (b : Nat) (f : List Nat) :
    pieces [] (b :: f) = (fgets.go 98 (b :: f)).1 :: pieces [] (fgets.go 98 (b :: f)).2 := by
  have := pieces_go (b :: f) [] (by simp) (by simp)
  simpa using this

theorem go_newline : ∀ (n : Nat) (file : List Nat), 10 ∉ (fgets.go n file).1.dropLast
  | 0, file => by simp [fgets.go]
  | n + 1, [] => by simp [fgets.go]
  | n + 1, b :: file => by
    rw [fgets.go]
    split
    · simp
    · rename_i hb
      have ih := go_newline n file
      show 10 ∉ (b :: (fgets.go n file).1).dropLast
      revert ih
      generalize (fgets.go n file).1 = l
      intro ih
      cases l with
      | nil => simp
      | cons c l =>
        rw [List.dropLast_cons_of_ne_nil (by simp)]
        simp only [List.mem_cons, not_or]
        exact ⟨fun h => hb h.symm, ih⟩

/-- A NUL does not hide anything behind a divider. -/
theorem cstr_divider (n : Nat) (file : List Nat) : cstr (fgets.go n file).1 = DIVIDER ↔ (fgets.go n file).1 = DIVIDER := by
  have h10 := go_newline n file
  revert h10
  generalize (fgets.go n file).1 = l
  intro h10
  constructor
  · intro h
    have hs : l = DIVIDER ++ l.dropWhile (· ≠ 0) := by
      rw [← h]
      exact (List.takeWhile_append_dropWhile).symm
    cases hr : l.dropWhile (· ≠ 0) with
    | nil => rw [hr, List.append_nil] at hs; exact hs
    | cons a r =>
      rw [hr] at hs
      rw [hs, List.dropLast_append_of_ne_nil (by simp)] at h10
      exact absurd (List.mem_append_left _ (by decide)) h10
  · rintro rfl
    decide

/-- Skipping one more divider. -/
theorem afterDivider_cons (l : List Nat) (ls : List (List Nat)) :
    afterDivider (l :: ls) = if l = DIVIDER then ls else afterDivider ls := by
  unfold afterDivider
  by_cases h : l = DIVIDER
  · rw [if_pos h, List.dropWhile_cons_of_neg (by simpa using h)]; rfl
  · rw [if_neg h, List.dropWhile_cons_of_pos (by simpa using h)]

theorem skip_pieces : ∀ (fuel count : Nat) (file : List Nat), file.length ≤ fuel → skipHeader fuel count file =
    .ok (if count = 0 then (afterDivider (afterDivider (pieces [] file))).flatten else
      if count = 1 then (afterDivider (pieces [] file)).flatten else file) := by
  intro fuel
  induction fuel with
  | zero =>
    intro count file h
    have : file = [] := List.length_eq_zero_iff.1 (by omega)
    subst this
    rw [skipHeader.eq_def]
    simp only [fgets_nil]
    split <;> simp [pieces, afterDivider]
  | succ fuel ih =>
    intro count file h
    rw [skipHeader.eq_def]
    simp only
    by_cases hc : count < 2
    · rw [if_pos hc]
      cases file with
      | nil => simp [fgets_nil, pieces, afterDivider]
      | cons b f =>
        rw [fgets_cons, fgets_pieces]
        simp only
        have hl : (fgets.go 98 (b :: f)).2.length ≤ fuel := by
          have : (fgets.go 98 (b :: f)).2.length ≤ f.length := go_shorter 97 b f
          simp at h
          omega
        rw [ih _ _ hl]
        simp only [cstr_divider]
        generalize (fgets.go 98 (b :: f)).2 = rest
        generalize (fgets.go 98 (b :: f)).1 = line
        rw [afterDivider_cons]
        obtain rfl | rfl : count = 0 ∨ count = 1 := by omega
        · by_cases hd : line = DIVIDER
          · simp [hd]
          · simp [hd]
        · by_cases hd : line = DIVIDER
          · simp [hd, flatten_pieces]
          · simp [hd]
    · rw [if_neg hc, if_neg (by omega), if_neg (by omega)]

/-- The header of any file. -/
theorem read_header_any (file : List Nat) : read_header file = .ok (decide (Headed file), bodyOf file) := by
  by_cases h : Headed file
  · have hne : file ≠ [] := by rintro rfl; revert h; unfold Headed; decide
    obtain ⟨b, f, rfl⟩ := List.exists_cons_of_ne_nil hne
    unfold read_header
    rw [fgets_cons]
    simp only
    have hl : (TITLE.take (TITLE.length - 4)).length = 45 := by decide
    have := go_prefix (TITLE.take (TITLE.length - 4)) (by decide) (by decide) (b :: f) 98 (by decide)
    rw [hl] at this
    have e : TITLE.length - 4 = 45 := by decide
    rw [e] at this ⊢
    rw [if_pos (by rw [this]; exact h), skip_pieces _ _ _ (go_suffix 98 (b :: f)).length_le]
    simp only [bind_ok, pure_eq, decide_eq_true h, bodyOf, if_pos h, if_true]
    rw [fgets_pieces]
    rfl
  · rw [read_header_not h, bodyOf, if_neg h, decide_eq_false h]

theorem bodyOf_suffix (file : List Nat) : bodyOf file <:+ file := read_header_suffix (read_header_any file)

/-- What is done with the body. -/
theorem read_split (U : Unicode) (junk : List Nat) (fold b : Bool) (file : List Nat) :
    read_text U junk [] file { pageText fold with found_header := b } =
      read_text U junk [] (bodyOf file) { pageText fold with find_header := false, found_header := false } >>= fun a =>
        .ok (a.1, { pageText fold with found_header := decide (Headed file) }) := by
  unfold read_text
  simp only [pageText, read_header_any, bind_ok, pure_eq, if_true, if_false, Bool.false_eq_true]
  cases read_contents (bodyOf file) true (if (0 : Nat) ≠ 0 then 0 else SUSPECT_MARKER) junk <;> rfl

theorem isPage_isList (U : Unicode) (fold : Bool) (file : List Nat) (t : List Ch) : IsPage U fold file t ↔ IsList U true fold file t := by
  unfold IsPage IsList
  simp only [if_true]

/-- Any file is read as the text it holds. -/
theorem read_any (U : Unicode) (junk : List Nat) (fold b : Bool) (file : List Nat) (hf : Bytes file) (hj : Bytes junk)
    (t : List Ch) (opt : Textopt) : read_text U junk [] file { pageText fold with found_header := b } = .ok (t, opt) ↔
      TextOf U fold file t ∧ opt = { pageText fold with found_header := decide (Headed file) } := by
  rw [read_split, TextOf, isPage_isList]
  have k := fun opt' => read_list U junk true fold (bodyOf file) (Bytes_suffix (bodyOf_suffix file) hf) hj t opt'
  constructor
  · intro h
    obtain ⟨⟨t', o⟩, h1, h2⟩ := bind_eq_ok.1 h
    simp only [Res.ok.injEq, Prod.mk.injEq] at h2
    obtain ⟨rfl, rfl⟩ := h2
    exact ⟨((k o).1 h1).1, rfl⟩
  · rintro ⟨h, rfl⟩
    have := (k _).2 ⟨h, rfl⟩
    show (read_text U junk [] (bodyOf file) ⟨false, true, 0, true, fold, false⟩ >>= _) = _
    rw [this, bind_ok]

theorem textOf_iff (U : Unicode) (fold : Bool) (file : List Nat) : (∃ t, TextOf U fold file t) ↔ WellFormed file := by
  constructor
  · rintro ⟨t, cs, g0, parts, h, _⟩
    exact ⟨cs, h⟩
  · rintro ⟨cs, h⟩
    obtain ⟨g0, parts, hp, hm⟩ := parts_exist U (marked 94 (cs.map Char.toNat))
    exact ⟨_, cs, g0, parts, h, hp.1, hp.2, hm, rfl⟩

theorem textOf_unique {U : Unicode} {fold : Bool} {file : List Nat} {t t' : List Ch} (h : TextOf U fold file t)
    (h' : TextOf U fold file t') : t = t' := by
  have e := page_contents (junk := []) h
  have e' := page_contents (junk := []) h'
  rw [e] at e'
  cases e'
  rfl

/-- A file that is not text is refused. -/
theorem read_refused (U : Unicode) (junk : List Nat) (fold b : Bool) (file : List Nat) (hf : Bytes file) (hj : Bytes junk)
    (h : ¬ WellFormed file) : ∃ msg, read_text U junk [] file { pageText fold with found_header := b } = .err msg := by
  rcases read_total U junk [] file { pageText fold with found_header := b } hf hj with ⟨⟨t, o⟩, e⟩ | h'
  · exact absurd ((textOf_iff U fold file).1 ⟨t, ((read_any U junk fold b file hf hj t o).1 e).1⟩) h
  · exact h'

theorem holdsText_textOf {U : Unicode} {fold : Bool} {file : List Nat} {t : List Ch} (hf : Bytes file) (h : HoldsText U fold file t) :
    TextOf U fold file t := by
  obtain ⟨found, e, _⟩ := read_holds (junk := []) h
  exact ((read_any U [] fold false file hf (by simp [Bytes]) t _).1 e).1

end Ocr.AnyText
