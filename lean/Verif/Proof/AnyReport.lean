import Verif.Spec.AnyReport
import Verif.Proof.Accsum
import Verif.Proof.AccOrder
import Verif.Proof.Wacsum
import Verif.Proof.ReadChar

namespace Ocr.AnyReport
open Text Report Res

/-! ## Lines -/

theorem pieces_cons (cur : List Nat) (b : Nat) (file : List Nat) : pieces cur (b :: file) =
    if b = 10 ∨ cur.length = 97 then (cur ++ [b]) :: pieces [] file else pieces (cur ++ [b]) file := by
  cases cur <;> rfl

theorem pieces_nil {cur : List Nat} (h : cur ≠ []) : pieces cur [] = [cur] := by
  cases cur with
  | nil => exact absurd rfl h
  | cons a c => rfl

theorem pieces_go : ∀ (file cur : List Nat), cur.length ≤ 97 → (cur ≠ [] ∨ file ≠ []) →
    pieces cur file = (cur ++ (fgets.go (98 - cur.length) file).1) :: pieces [] (fgets.go (98 - cur.length) file).2 := by
  intro file
  induction file with
  | nil =>
    intro cur h hne
    obtain ⟨n, hn⟩ : ∃ n, 98 - cur.length = n + 1 := ⟨97 - cur.length, by omega⟩
    have hc : cur ≠ [] := by simpa using hne
    rw [pieces_nil hc, hn]
    simp [fgets.go, pieces]
  | cons b file ih =>
    intro cur h _
    obtain ⟨n, hn⟩ : ∃ n, 98 - cur.length = n + 1 := ⟨97 - cur.length, by omega⟩
    rw [pieces_cons, hn, fgets.go]
    by_cases hb : b = 10
    · rw [if_pos (Or.inl hb), if_pos hb]
    · rw [if_neg hb]
      by_cases hl : cur.length = 97
      · rw [if_pos (Or.inr hl)]
        have : n = 0 := by omega
        subst this
        simp [fgets.go]
      · rw [if_neg (by tauto)]
        have e : 98 - (cur ++ [b]).length = n := by simp; omega
        have := ih (cur ++ [b]) (by simp; omega) (by simp)
        rw [this, e]
        simp

theorem lines_nil : lines [] = [] := rfl

theorem read_line_lines {file : List Nat} (h : file ≠ []) :
    ∃ l r, read_line file = some (l, r) ∧ lines file = l :: lines r ∧ r.length < file.length := by
  obtain ⟨b, f, rfl⟩ := List.exists_cons_of_ne_nil h
  have e : read_line (b :: f) = some (cstr (fgets.go 98 (b :: f)).1, (fgets.go 98 (b :: f)).2) := rfl
  refine ⟨_, _, e, ?_, read_line_shorter e⟩
  unfold lines
  rw [pieces_go (b :: f) [] (by simp) (by simp)]
  simp [cstr]

theorem lines_eq_nil {file : List Nat} (h : lines file = []) : file = [] := by
  by_contra hne
  obtain ⟨l, r, _, h2, _⟩ := read_line_lines hne
  rw [h] at h2; simp at h2

theorem read_line_some {file l : List Nat} {ls : List (List Nat)} (h : lines file = l :: ls) :
    ∃ r, read_line file = some (l, r) ∧ lines r = ls ∧ r.length < file.length := by
  have hne : file ≠ [] := by rintro rfl; simp [lines_nil] at h
  obtain ⟨l', r, h1, h2, h3⟩ := read_line_lines hne
  rw [h] at h2
  obtain ⟨rfl, rfl⟩ := List.cons.inj h2
  exact ⟨r, h1, rfl, h3⟩

theorem read_line_none {file : List Nat} (h : lines file = []) : read_line file = none := by rw [lines_eq_nil h]; rfl

/-! ## Rows -/

theorem rows_nil : rows [] = [] := rfl
theorem afterRows_nil : afterRows [] = [] := rfl
theorem rows_some {l : List Nat} {ls : List (List Nat)} {r : Row} (h : row? l = some r) : rows (l :: ls) = r :: rows ls := by
  simp [rows, h]
theorem rows_none {l : List Nat} {ls : List (List Nat)} (h : row? l = none) : rows (l :: ls) = [] := by
  simp [rows, h]
theorem afterRows_some {l : List Nat} {ls : List (List Nat)} {r : Row} (h : row? l = some r) : afterRows (l :: ls) = afterRows ls := by
  simp [afterRows, h]
theorem afterRows_none {l : List Nat} {ls : List (List Nat)} (h : row? l = none) : afterRows (l :: ls) = ls := by
  simp [afterRows, h]

theorem row?_line {l : List Nat} {r : Row} (h : row? l = some r) : r.line = l := by
  unfold row? at h; split at h
  · rw [← Option.some.inj h]
  · simp at h

theorem read_two_none {file : List Nat} (h : ∀ l ls, lines file = l :: ls → row? l = none) : read_two file = none := by
  unfold read_two
  cases hl : lines file with
  | nil => rw [read_line_none hl]; rfl
  | cons l ls =>
    obtain ⟨r, h1, _, _⟩ := read_line_some hl
    have := h l ls hl
    rw [h1]
    simp only [Option.bind_eq_bind, Option.bind_some]
    unfold row? at this
    split at this
    · simp at this
    · rename_i hx
      split
      · rename_i v w hs; exact absurd hs (hx v w)
      · rfl

theorem read_two_some {file l : List Nat} {ls : List (List Nat)} {r : Row} (h : lines file = l :: ls) (hr : row? l = some r) :
    ∃ f, read_two file = some ((r.first, r.second, r.line), f) ∧ lines f = ls ∧ f.length < file.length := by
  obtain ⟨f, h1, h2, h3⟩ := read_line_some h
  refine ⟨f, ?_, h2, h3⟩
  unfold read_two
  rw [h1]
  simp only [Option.bind_eq_bind, Option.bind_some]
  unfold row? at hr
  split at hr
  · rename_i a b hs
    rw [hs]
    rw [← Option.some.inj hr]
  · simp at hr

theorem after_line_eq {file l : List Nat} {ls : List (List Nat)} (h : lines file = l :: ls) : lines (Acc.after_line file) = ls := by
  obtain ⟨r, h1, h2, _⟩ := read_line_some h
  unfold Acc.after_line; rw [h1]; exact h2

theorem after_line_nil {file : List Nat} (h : lines file = []) : lines (Acc.after_line file) = [] := by
  rw [lines_eq_nil h]; rfl

/-! ## Heads -/

theorem number_eq (l : List Nat) : number l = (match scanLongs 1 l with | some [v] => some v | _ => none) := by
  unfold number
  simp only [scanLongs, Option.bind_eq_bind]
  cases scanLong l <;> rfl

theorem read_value_nil {file : List Nat} (h : lines file = []) : read_value file = none := by
  unfold read_value; rw [read_line_none h]; rfl

theorem read_value_cons {file l : List Nat} {ls : List (List Nat)} (h : lines file = l :: ls) :
    ∃ f, lines f = ls ∧ read_value file = (number l).map (fun v => (v, f)) := by
  obtain ⟨f, h1, h2, _⟩ := read_line_some h
  refine ⟨f, h2, ?_⟩
  unfold read_value
  rw [h1, number_eq]
  simp only [Option.bind_eq_bind, Option.bind_some]
  generalize scanLongs 1 l = o
  rcases o with _ | _ | ⟨v, _ | _⟩ <;> rfl

theorem skip_lines_spec : ∀ (n : Nat) (file : List Nat),
    if n ≤ (lines file).length then ∃ f, Report.skip_lines n file = some f ∧ lines f = (lines file).drop n else Report.skip_lines n file = none := by
  intro n
  induction n with
  | zero => intro file; simp [Report.skip_lines]
  | succ n ih =>
    intro file
    cases hl : lines file with
    | nil => simp [Report.skip_lines, read_line_none hl]
    | cons l ls =>
      obtain ⟨f, h1, h2, _⟩ := read_line_some hl
      have := ih f
      rw [h2] at this
      simp only [List.length_cons, Nat.add_le_add_iff_right, List.drop_succ_cons]
      rw [Report.skip_lines, h1]
      exact this

theorem skip_none {n : Nat} {file : List Nat} (h : (lines file).length < n)  : Report.skip_lines n file = none := by
  have := skip_lines_spec n file; rw [if_neg (by omega)] at this; exact this

theorem skip_some {n : Nat} {file : List Nat} (h : n ≤ (lines file).length) :
    ∃ f, Report.skip_lines n file = some f ∧ lines f = (lines file).drop n := by
  have := skip_lines_spec n file; rw [if_pos h] at this; exact this

theorem prefix_take {a b : List Nat} {n : Nat} (hn : n ≤ a.length) : b.take n = a.take n ↔ a.take n <+: b := by
  constructor
  · intro h; rw [← h]; exact List.take_prefix _ _
  · intro h
    have := List.prefix_iff_eq_take.1 h
    rw [List.length_take, min_eq_left hn] at this
    exact this.symm

theorem read_title_spec (title divider file : List Nat) :
    match titled title divider (lines file) with
    | none => read_title title divider file = none
    | some ls => ∃ f, read_title title divider file = some f ∧ lines f = ls := by
  unfold read_title
  cases hl : lines file with
  | nil => rw [read_line_none hl]; rfl
  | cons t ls =>
    obtain ⟨f, h1, h2, _⟩ := read_line_some hl
    rw [h1]
    simp only [Option.bind_eq_bind, Option.bind_some]
    cases ls with
    | nil =>
      simp only [titled]
      rw [read_line_none h2]
      split <;> rfl
    | cons d rest =>
      obtain ⟨g, g1, g2, _⟩ := read_line_some h2
      simp only [titled]
      rw [g1]
      simp only [Option.bind_some]
      have e := prefix_take (a := title) (b := t) (n := title.length - 2) (by omega)
      by_cases hp : title.take (title.length - 2) <+: t
      · by_cases hd : d = divider
        · rw [if_pos ⟨hp, hd⟩, if_pos (e.2 hp), if_pos hd]; exact ⟨g, rfl, g2⟩
        · rw [if_neg (by tauto), if_pos (e.2 hp), if_neg hd]
      · rw [if_neg (by tauto), if_neg (by tauto)]

end Ocr.AnyReport
