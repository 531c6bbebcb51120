import Verif.Proof.Ngram

namespace Ocr.Text

theorem go_line : ∀ (l r : List Nat) (n : Nat), 10 ∉ l → l.length + 1 ≤ n →
    fgets.go n (l ++ 10 :: r) = (l ++ [10], r) := by
  intro l
  induction l with
  | nil => intro r n _ hn; cases n with
    | zero => omega
    | succ n => simp [fgets.go]
  | cons a l ih =>
    intro r n hl hn
    cases n with
    | zero => omega
    | succ n =>
      have ha : a ≠ 10 := by rintro rfl; simp at hl
      have := ih r n (by simp at hl; exact hl.2) (by simpa using hn)
      simp [fgets.go, ha, this]

theorem fgets_line (l r : List Nat) (n : Nat) (hl : 10 ∉ l) (hn : l.length + 1 ≤ n) :
    fgets n (l ++ 10 :: r) = some (l ++ [10], r) := by
  have h := go_line l r n hl hn
  cases l with
  | nil => simpa [fgets] using h
  | cons a l => simpa [fgets] using h

theorem go_prefix : ∀ (p : List Nat), 10 ∉ p → 0 ∉ p → ∀ (file : List Nat) (n : Nat), p.length ≤ n →
    ((cstr (fgets.go n file).1).take p.length = p ↔ file.take p.length = p) := by
  intro p
  induction p with
  | nil => intros; simp
  | cons a p ih =>
    intro h10 h0 file n hn
    cases n with
    | zero => simp at hn
    | succ n =>
      cases file with
      | nil => simp [fgets.go, cstr]
      | cons b file =>
        have ha : a ≠ 10 ∧ a ≠ 0 := by
          constructor
          · rintro rfl; simp at h10
          · rintro rfl; simp at h0
        by_cases hb : b = 10
        · subst hb
          simp only [fgets.go, if_true, cstr]
          simp
          intro h; omega
        · simp only [fgets.go, hb, if_false]
          by_cases hb0 : b = 0
          · subst hb0
            simp [cstr]
            intro h; omega
          · have := ih (by simp at h10; exact h10.2) (by simp at h0; exact h0.2) file n (by simpa using hn)
            simp only [cstr] at this ⊢
            rw [List.takeWhile_cons_of_pos (by simpa using hb0)]
            simp only [List.length_cons, List.take_succ_cons, List.cons.injEq, this]

theorem fgets_nil (n : Nat) : fgets n [] = none := rfl
theorem fgets_cons (n : Nat) (b : Nat) (f : List Nat) : fgets n (b :: f) = some (fgets.go n (b :: f)) := rfl

/-- Whether a header is recognized: the first 45 bytes of the title. -/
theorem read_header_not {file : List Nat} (h : file.take 45 ≠ TITLE.take 45) :
    read_header file = .ok (false, file) := by
  unfold read_header
  cases file with
  | nil => rw [fgets_nil]
  | cons b f =>
    rw [fgets_cons]
    simp only
    have hl : (TITLE.take (TITLE.length - 4)).length = 45 := by decide
    have := go_prefix (TITLE.take (TITLE.length - 4)) (by decide) (by decide) (b :: f) 98 (by decide)
    rw [hl] at this
    have e : TITLE.length - 4 = 45 := by decide
    rw [e] at this ⊢
    rw [if_neg (by rw [this]; exact h)]

/-- A line of the header: no newline inside, short enough for the buffer, not a divider. -/
def HeaderLine (l : List Nat) : Prop := 10 ∉ l ∧ l.length ≤ 97 ∧ l ++ [10] ≠ DIVIDER

theorem cstr_line_ne {l : List Nat} (h : HeaderLine l) : cstr (l ++ [10]) ≠ DIVIDER := by
  intro e
  by_cases h0 : 0 ∈ l
  · have h10 : 10 ∈ cstr (l ++ [10]) := by rw [e]; decide
    unfold cstr at h10
    have e2 : (l ++ [10]).takeWhile (fun x => decide (x ≠ 0)) = l.takeWhile (fun x => decide (x ≠ 0)) := by
      obtain ⟨a, b, rfl⟩ := List.append_of_mem h0
      have : ∀ (a b : List Nat), (a ++ 0 :: b).takeWhile (fun x => decide (x ≠ 0)) =
          a.takeWhile (fun x => decide (x ≠ 0)) := by
        intro a b
        induction a with
        | nil => simp
        | cons x a ih =>
          simp only [List.cons_append, List.takeWhile_cons, ih]
      rw [List.append_assoc, List.cons_append, this, this]
    rw [e2] at h10
    exact h.1 (List.takeWhile_subset _ h10)
  · rw [Ngram.cstr_self (by
      intro b hb
      rcases List.mem_append.1 hb with hb | hb
      · rintro rfl; exact h0 hb
      · simp at hb; omega)] at e
    exact h.2.2 e

theorem skip_two (fuel : Nat) (file : List Nat) : skipHeader fuel 2 file = .ok file := by
  rw [skipHeader.eq_def]; simp

theorem skip_line {fuel count : Nat} {l r : List Nat} (hc : count < 2) (h10 : 10 ∉ l) (hl : l.length ≤ 97) :
    skipHeader (fuel + 1) count (l ++ 10 :: r) =
      skipHeader fuel (if cstr (l ++ [10]) = DIVIDER then count + 1 else count) r := by
  rw [skipHeader.eq_def]
  simp only [hc, if_true]
  rw [fgets_line l r 98 h10 (by omega)]

theorem skip_lines {count : Nat} (hc : count < 2) (r : List Nat) : ∀ (ls : List (List Nat)) (fuel : Nat),
    (∀ l ∈ ls, HeaderLine l) →
    skipHeader (fuel + ls.length) count (ls.flatMap (· ++ [10]) ++ r) = skipHeader fuel count r := by
  intro ls
  induction ls with
  | nil => intro fuel _; simp
  | cons l ls ih =>
    intro fuel h
    have hl := h l (by simp)
    rw [List.flatMap_cons, List.length_cons, ← Nat.add_assoc, List.append_assoc, List.append_assoc,
      List.singleton_append, skip_line hc hl.1 hl.2.1, if_neg (cstr_line_ne hl)]
    exact ih fuel (fun l hl => h l (by simp [hl]))

theorem DIVIDER_line : DIVIDER = List.replicate 48 45 ++ [10] := by decide

theorem skip_divider {fuel count : Nat} {r : List Nat} (hc : count < 2) :
    skipHeader (fuel + 1) count (DIVIDER ++ r) = skipHeader fuel (count + 1) r := by
  conv => lhs; rw [DIVIDER_line]
  rw [List.append_assoc, List.singleton_append, skip_line hc (by decide) (by simp)]
  rw [if_pos (by decide)]

theorem flatMap_len (ls : List (List Nat)) : ls.length ≤ (ls.flatMap (· ++ [10])).length := by
  induction ls with
  | nil => simp
  | cons l ls ih => simp only [List.flatMap_cons, List.length_append, List.length_cons, List.length_nil]; omega

theorem read_header_yes {title : List Nat} {before after : List (List Nat)} {body : List Nat}
    (ht : title.take 45 = TITLE.take 45) (ht10 : 10 ∉ title) (htl : title.length ≤ 97)
    (hb : ∀ l ∈ before, HeaderLine l) (ha : ∀ l ∈ after, HeaderLine l) :
    read_header (title ++ [10] ++ before.flatMap (· ++ [10]) ++ DIVIDER ++ after.flatMap (· ++ [10]) ++ DIVIDER ++ body)
      = .ok (true, body) := by
  have e45 : TITLE.length - 4 = 45 := by decide
  have hfile : title ++ [10] ++ before.flatMap (· ++ [10]) ++ DIVIDER ++ after.flatMap (· ++ [10]) ++ DIVIDER ++ body
      = title ++ 10 :: (before.flatMap (· ++ [10]) ++ (DIVIDER ++ (after.flatMap (· ++ [10]) ++ (DIVIDER ++ body)))) := by
    simp
  rw [hfile]
  unfold read_header
  rw [fgets_line _ _ 98 ht10 (by omega)]
  simp only [e45]
  have hl45 : (TITLE.take 45).length = 45 := by decide
  have htlen : 45 ≤ title.length := by
    have := congrArg List.length ht
    rw [hl45, List.length_take] at this; omega
  have hcs : (cstr (title ++ [10])).take 45 = TITLE.take 45 := by
    have := go_prefix (TITLE.take 45) (by decide) (by decide) (title ++ 10 :: []) 98 (by decide)
    rw [go_line title [] 98 ht10 (by omega), hl45] at this
    rw [this, List.take_append_of_le_length htlen]
    exact ht
  rw [if_pos hcs]
  have hlb := flatMap_len before
  have hla := flatMap_len after
  have hd : DIVIDER.length = 49 := by decide
  obtain ⟨fuel, hfuel⟩ : ∃ fuel, (title ++ 10 :: (before.flatMap (· ++ [10]) ++ (DIVIDER ++
      (after.flatMap (· ++ [10]) ++ (DIVIDER ++ body))))).length = (fuel + 1 + after.length) + 1 + before.length := by
    refine ⟨(title ++ 10 :: (before.flatMap (· ++ [10]) ++ (DIVIDER ++
      (after.flatMap (· ++ [10]) ++ (DIVIDER ++ body))))).length - (1 + after.length + 1 + before.length), ?_⟩
    simp only [List.length_append, List.length_cons, hd] at *
    omega
  rw [hfuel, skip_lines (by omega) _ _ _ hb, skip_divider (by omega), skip_lines (by omega) _ _ _ ha,
    skip_divider (by omega), skip_two]
  rfl

/-! ## Writing and reading back -/

theorem scalars_char (cps : List Nat) (h : ∀ c ∈ cps, Scalar c) :
    ∃ cs : List Char, cs.map Char.toNat = cps ∧ utf8 cs = cps.flatMap encode_char := by
  induction cps with
  | nil => exact ⟨[], rfl, rfl⟩
  | cons c cps ih =>
    obtain ⟨cs, h1, h2⟩ := ih (fun x hx => h x (by simp [hx]))
    have hs := h c (by simp)
    have hvalid : c.isValidChar := by unfold Scalar at hs; simp [Nat.isValidChar]; omega
    have hch : (Char.ofNat c).toNat = c := by
      simp [Char.ofNat, hvalid, Char.ofNatAux, Char.toNat]
    exact ⟨Char.ofNat c :: cs, by simp [hch, h1], by rw [utf8_cons, hch, h2]; rfl⟩

/-- Characters that survive writing and reading: newline, or printable, not combining, not the marker. -/
def Writable (U : Unicode) (v : Nat) : Prop :=
  Scalar v ∧ v ≠ 0 ∧ v ≠ SUSPECT_MARKER ∧ (v = NEWLINE ∨ (is_graphic U v = true ∧ is_combining U v = false))

theorem writeLoop_eq {U} : ∀ (text : List Ch), (∀ c ∈ text, Writable U c.value) →
    writeLoop U text = .ok ((text.flatMap (fun c => markBytes c.suspect ++ [c.value])).flatMap encode_char) := by
  intro text
  induction text with
  | nil => intro _; rfl
  | cons c text ih =>
    intro h
    obtain ⟨hsc, h0, hm, hw⟩ := h c (by simp)
    have hv : c.value < 0x110000 := by unfold Scalar at hsc; omega
    have hcs : charString U c.suspect c.value false = .ok ((markBytes c.suspect ++ [c.value]).flatMap encode_char) := by
      rcases hw with hw | ⟨hg, hc⟩
      · unfold charString; rw [mark_eq, hw]
        cases c.suspect <;> rfl
      · by_cases hn : c.value = NEWLINE
        · unfold charString; rw [mark_eq, hn]
          cases c.suspect <;> rfl
        · rw [charString_graphic (by simp [Escaped, hn, hg]) hv]
          simp only [baseCps, hc]
          cases c.suspect <;> simp [markBytes, encode_char]
    obtain ⟨s, hs, hl⟩ := charString_len (U := U) hv c.suspect false
    have hs' := hs
    rw [hcs] at hs'
    have hs' := Res.ok.inj hs'
    have hl := hl.2 (by
      rintro ⟨-, h1, h2, -⟩
      rcases hw with hw | ⟨hg, -⟩
      · exact h1 hw
      · rw [hg] at h2; simp at h2)
    have hcstr : cstr s = s := by
      apply Ngram.cstr_self
      intro b hb
      rw [← hs'] at hb
      obtain ⟨x, hx, hb⟩ := List.mem_flatMap.1 hb
      refine Ngram.encode_nz ?_ b hb
      rcases List.mem_append.1 hx with hx | hx
      · unfold markBytes at hx; split at hx
        · simp at hx; omega
        · simp at hx
      · simp at hx; omega
    unfold writeLoop char_to_string
    rw [hs]
    simp only [Res.bind_ok, if_pos hl, Res.pure_eq, ih (fun x hx => h x (by simp [hx])), hcstr]
    rw [← hs']
    simp [List.flatMap_append]

theorem marked_written {U} : ∀ (text : List Ch) (b : Option Nat), b ≠ some SUSPECT_MARKER →
    (∀ c ∈ text, Writable U c.value) →
    markedFrom SUSPECT_MARKER b (text.flatMap (fun c => markBytes c.suspect ++ [c.value])) = text := by
  intro text
  induction text with
  | nil => intro b _ _; exact markedFrom_nil _ _
  | cons c text ih =>
    intro b hb h
    obtain ⟨hsc, h0, hm, hw⟩ := h c (by simp)
    have ih' := ih (some c.value) (by simpa using hm) (fun x hx => h x (by simp [hx]))
    obtain ⟨sus, v⟩ := c
    simp only at hm ih'
    have m0 : markBytes false = [] := rfl
    have m1 : markBytes true = [SUSPECT_MARKER] := rfl
    cases sus
    · simp only [List.flatMap_cons, m0, if_false, List.nil_append, List.cons_append,
        markedFrom_cons, hm, ih']
      simp [hb]
    · simp only [List.flatMap_cons, m1, List.nil_append, List.cons_append]
      rw [markedFrom_cons, markedFrom_cons]
      simp only [if_true, hm, if_false, ih']
      simp

theorem written_scalar {U} (text : List Ch) (h : ∀ c ∈ text, Writable U c.value) :
    ∀ x ∈ text.flatMap (fun c => markBytes c.suspect ++ [c.value]), Scalar x := by
  intro x hx
  obtain ⟨c, hc, hx⟩ := List.mem_flatMap.1 hx
  rcases List.mem_append.1 hx with hx | hx
  · unfold markBytes at hx; split at hx
    · simp at hx; subst hx; unfold Scalar; omega
    · simp at hx
  · simp at hx; subst hx; exact (h c hc).1

end Ocr.Text
