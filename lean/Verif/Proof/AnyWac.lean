import Verif.Proof.AnyEdo

namespace Ocr.AnyReport
open Text Report Res

/-! ## Figures -/

theorem lineIndex_spec (r : Row) :
    Wac.lineIndex (r.line.drop 29) = (index r, decide (r.line.drop 29 = ascii " Total\n")) := by
  have ea : ∀ s, Wac.atoi s = (number s).getD 0 := fun s => rfl
  unfold Wac.lineIndex index
  rw [ea]
  by_cases h0 : (number (r.line.drop 29)).getD 0 = 0
  · by_cases ht : r.line.drop 29 = ascii " Total\n"
    · rw [if_pos h0, if_pos (show r.line.drop 29 = Wac.TOTAL from ht)]
      simp [ht]
      intro h; exact absurd (by decide +kernel) h
    · rw [if_pos h0, if_neg (show ¬ r.line.drop 29 = Wac.TOTAL from ht)]
      simp [ht, h0]
      rfl
  · rw [if_neg h0]
    have : r.line.drop 29 ≠ ascii " Total\n" := by
      intro e; apply h0; rw [e]; decide +kernel
    simp [this, h0]

/-- The total found by the loop that starts with `t`. -/
def totalFrom (t : Int) (R : List Row) : Int :=
  match (R.filter (fun r => r.line.drop 29 = ascii " Total\n")).getLast? with
  | some r => r.first
  | none => t

theorem totalFrom_cons (t : Int) (r : Row) (R : List Row) :
    totalFrom t (r :: R) = totalFrom (if r.line.drop 29 = ascii " Total\n" then r.first else t) R := by
  unfold totalFrom
  by_cases h : r.line.drop 29 = ascii " Total\n"
  · simp only [h, decide_true, List.filter_cons_of_pos, if_true]
    cases hl : (R.filter (fun r => decide (r.line.drop 29 = ascii " Total\n"))) with
    | nil => simp
    | cons a b =>
      rw [List.getLast?_cons_cons]
      rfl
  · simp [h]

/-- The array after adding the rows. -/
def addRows (R : List Row) (w : Nat → Wac.Wac) : Nat → Wac.Wac := fun i : Nat =>
  ⟨(w i).count + firsts (fun r => index r = i) R, (w i).missed + seconds (fun r => index r = i) R⟩

theorem addRows_nil (w : Nat → Wac.Wac) : addRows [] w = w := by
  funext i; simp [addRows, firsts_nil, seconds_nil]

theorem numbersLoop_spec (size : Nat) : ∀ (ls : List (List Nat)) (file : List Nat) (fuel : Nat) (w : Nat → Wac.Wac) (t : Int),
    lines file = ls → file.length ≤ fuel →
    (InArray size (rows ls) → ∃ f, Wac.numbersLoop size fuel file w t = .ok (addRows (rows ls) w, totalFrom t (rows ls), f) ∧
      lines f = afterRows ls) ∧
    (¬ InArray size (rows ls) → Wac.numbersLoop size fuel file w t = .ub) := by
  intro ls
  induction ls with
  | nil =>
    intro file fuel w t hl _
    rw [Wac.numbersLoop, read_two_none (by simp [hl])]
    refine ⟨fun _ => ⟨Acc.after_line file, ?_, after_line_nil hl⟩, fun h => absurd (by simp [InArray, rows_nil]) h⟩
    rw [rows_nil, addRows_nil]; rfl
  | cons l ls ih =>
    intro file fuel w t hl hf
    cases hr : row? l with
    | none =>
      rw [Wac.numbersLoop, read_two_none (by intro l' ls' h; rw [hl] at h; rw [← (List.cons.inj h).1]; exact hr)]
      refine ⟨fun _ => ⟨Acc.after_line file, ?_, ?_⟩, fun h => absurd (by simp [InArray, rows_none hr]) h⟩
      · rw [rows_none hr, addRows_nil]; rfl
      · rw [after_line_eq hl, afterRows_none hr]
    | some r =>
      obtain ⟨f, h1, h2, h3⟩ := read_two_some hl hr
      obtain ⟨n, rfl⟩ : ∃ n, fuel = n + 1 := ⟨fuel - 1, by omega⟩
      rw [Wac.numbersLoop, h1, rows_some hr, afterRows_some hr]
      simp only
      unfold Acc.strAt
      by_cases hlen : 29 ≤ r.line.length
      · rw [if_pos (show Wac.OFFSET ≤ r.line.length from hlen), bind_ok,
          show r.line.drop Wac.OFFSET = r.line.drop 29 from rfl, lineIndex_spec]
        simp only
        unfold Wac.incrementAt
        by_cases hi : 0 ≤ index r ∧ index r < size
        · rw [if_pos hi, bind_ok]
          simp only [decide_eq_true_eq]
          obtain ⟨i1, i2⟩ := ih f n (fun i => if i = (index r).toNat then Wac.increment_wac (w i) r.first r.second else w i)
            (if r.line.drop 29 = ascii " Total\n" then r.first else t) h2 (by omega)
          constructor
          · intro h
            obtain ⟨g, g1, g2⟩ := i1 (fun x hx => h x (by simp [hx]))
            refine ⟨g, ?_, g2⟩
            rw [g1, totalFrom_cons]
            have e : addRows (rows ls) (fun i => if i = (index r).toNat then Wac.increment_wac (w i) r.first r.second else w i) =
                addRows (r :: rows ls) w := by
              funext i
              unfold addRows
              simp only [firsts_cons, seconds_cons]
              by_cases hc : i = (index r).toNat
              · rw [if_pos hc, if_pos (by omega), if_pos (by omega)]
                simp only [Wac.increment_wac, Wac.Wac.mk.injEq]; omega
              · rw [if_neg hc, if_neg (by omega), if_neg (by omega)]
                simp only [Wac.Wac.mk.injEq]; omega
            rw [e]
          · intro h
            apply i2
            intro h'; apply h
            intro x hx
            rcases List.mem_cons.1 hx with rfl | hx
            · exact ⟨hlen, hi⟩
            · exact h' x hx
        · rw [if_neg hi, bind_ub]
          exact ⟨fun h => absurd (h r (by simp)).2 hi, fun _ => rfl⟩
      · rw [if_neg (show ¬ Wac.OFFSET ≤ r.line.length from hlen), bind_ub]
        exact ⟨fun h => absurd (h r (by simp)).1 hlen, fun _ => rfl⟩

theorem two_lines_spec (file : List Nat) : lines (Wac.two_lines file).2 = (lines file).drop 2 ∧
    ((Wac.two_lines file).1 = false → (lines file).drop 2 = []) := by
  unfold Wac.two_lines
  cases h : lines file with
  | nil => rw [read_line_none h]; simp [h]
  | cons a ls =>
    obtain ⟨f, h1, h2, _⟩ := read_line_some h
    rw [h1]
    simp only
    cases ls with
    | nil => rw [read_line_none h2]; simp [h2]
    | cons b ls =>
      obtain ⟨g, g1, g2, _⟩ := read_line_some h2
      rw [g1]; simp [g2]

theorem read_numbers_spec (size : Nat) (file : List Nat) (w : Nat → Wac.Wac) :
    (InArray size (rows ((lines file).drop 2)) → ∃ f, Wac.read_numbers size file w =
      .ok (addRows (rows ((lines file).drop 2)) w, totalCount (rows ((lines file).drop 2)), f) ∧
      lines f = afterRows ((lines file).drop 2)) ∧
    (¬ InArray size (rows ((lines file).drop 2)) → Wac.read_numbers size file w = .ub) := by
  obtain ⟨h1, h2⟩ := two_lines_spec file
  unfold Wac.read_numbers
  by_cases hb : (Wac.two_lines file).1 = true
  · rw [if_pos hb]
    exact numbersLoop_spec size _ _ _ w 0 h1 (le_refl _)
  · rw [if_neg hb]
    have e := h2 (by simpa using hb)
    rw [e] at h1 ⊢
    refine ⟨fun _ => ⟨(Wac.two_lines file).2, ?_, ?_⟩, fun h => absurd (by simp [InArray, rows_nil]) h⟩
    · rw [rows_nil, addRows_nil]; rfl
    · rw [h1]; rfl

/-! ## Words -/

theorem AddsWords.nil (t : List Term) : AddsWords [] t t :=
  ⟨by simp [firsts_nil], by simp [seconds_nil], by simp, id⟩

theorem AddsWords.cons {r : Row} {R : List Row} {t t' : List Term}
    (h : AddsWords R (Wac.add_term t (word r) r.first r.second) t') : AddsWords (r :: R) t t' := by
  refine ⟨fun k => ?_, fun k => ?_, fun k => ?_, fun hn => h.nodup (Wac.nodup_add_term _ _ _ _ hn)⟩
  · rw [h.count k, Wac.termCount_add, firsts_cons]; omega
  · rw [h.missed k, Wac.termMissed_add, seconds_cons]; omega
  · rw [h.keys k, Wac.keys_add]
    simp only [List.mem_cons, exists_eq_or_imp]
    constructor
    · rintro ((a | a) | a)
      · exact Or.inl a
      · exact Or.inr (Or.inl a.symm)
      · exact Or.inr (Or.inr a)
    · rintro (a | a | a)
      · exact Or.inl (Or.inl a)
      · exact Or.inl (Or.inr a.symm)
      · exact Or.inr a

theorem termsLoop_spec : ∀ (ls : List (List Nat)) (file : List Nat) (fuel : Nat) (t : List Term),
    lines file = ls → file.length ≤ fuel →
    (HasNames 29 (rows ls) → ∃ t' f, Wac.termsLoop fuel file t = .ok (t', f) ∧ AddsWords (rows ls) t t' ∧ lines f = afterRows ls) ∧
    (¬ HasNames 29 (rows ls) → Wac.termsLoop fuel file t = .ub) := by
  intro ls
  induction ls with
  | nil =>
    intro file fuel t hl _
    rw [Wac.termsLoop, read_two_none (by simp [hl])]
    exact ⟨fun _ => ⟨t, _, rfl, AddsWords.nil t, after_line_nil hl⟩, fun h => absurd (by simp [HasNames, rows_nil]) h⟩
  | cons l ls ih =>
    intro file fuel t hl hf
    cases hr : row? l with
    | none =>
      rw [Wac.termsLoop, read_two_none (by intro l' ls' h; rw [hl] at h; rw [← (List.cons.inj h).1]; exact hr), rows_none hr,
        afterRows_none hr]
      exact ⟨fun _ => ⟨t, _, rfl, AddsWords.nil t, after_line_eq hl⟩, fun h => absurd (by simp [HasNames]) h⟩
    | some r =>
      obtain ⟨f, h1, h2, h3⟩ := read_two_some hl hr
      obtain ⟨n, rfl⟩ : ∃ n, fuel = n + 1 := ⟨fuel - 1, by omega⟩
      rw [Wac.termsLoop, h1, rows_some hr, afterRows_some hr]
      simp only
      by_cases hlen : 29 ≤ r.line.length
      · rw [if_pos (show Wac.OFFSET ≤ r.line.length from hlen)]
        obtain ⟨i1, i2⟩ := ih f n (Wac.add_term t (word r) r.first r.second) h2 (by omega)
        constructor
        · intro h
          obtain ⟨t', g, g1, g2, g3⟩ := i1 (fun x hx => h x (by simp [hx]))
          exact ⟨t', g, g1, g2.cons, g3⟩
        · intro h
          apply i2
          intro h'; apply h
          intro x hx
          rcases List.mem_cons.1 hx with rfl | hx
          · exact hlen
          · exact h' x hx
      · rw [if_neg (show ¬ Wac.OFFSET ≤ r.line.length from hlen)]
        exact ⟨fun h => absurd (h r (by simp)) hlen, fun _ => rfl⟩

theorem read_terms_spec (file : List Nat) (t : List Term) :
    (HasNames 29 (rows ((lines file).drop 2)) → ∃ t' f, Wac.read_terms file t = .ok (t', f) ∧
      AddsWords (rows ((lines file).drop 2)) t t' ∧ lines f = afterRows ((lines file).drop 2)) ∧
    (¬ HasNames 29 (rows ((lines file).drop 2)) → Wac.read_terms file t = .ub) := by
  obtain ⟨h1, h2⟩ := two_lines_spec file
  unfold Wac.read_terms
  by_cases hb : (Wac.two_lines file).1 = true
  · rw [if_pos hb]
    exact termsLoop_spec _ _ _ t h1 (le_refl _)
  · rw [if_neg hb]
    have e := h2 (by simpa using hb)
    rw [e] at h1 ⊢
    exact ⟨fun _ => ⟨t, _, rfl, AddsWords.nil t, h1⟩, fun h => absurd (by simp [HasNames, rows_nil]) h⟩

/-! ## The report -/

theorem read_head_spec (file : List Nat) :
    match wordacc (lines file) with
    | none => Wac.read_head file = none
    | some p => ∃ words missed f, Wac.read_head file = some ((words, missed), f) ∧ p = wordaccBody words missed (lines f) := by
  have ht := read_title_spec Wac.TITLE Wac.DIVIDER file
  unfold wordacc Wac.read_head
  cases hT : titled Wac.TITLE Wac.DIVIDER (lines file) with
  | none =>
    rw [hT] at ht
    simp only at ht ⊢
    rw [ht]; rfl
  | some ls =>
    rw [hT] at ht
    obtain ⟨f, h1, h2⟩ := ht
    rw [h1]
    simp only [Option.bind_eq_bind, Option.bind_some]
    rcases ls with _ | ⟨a, ls⟩
    · rw [read_value_nil h2]; rfl
    obtain ⟨f2, h3, h4⟩ := read_value_cons h2
    rw [h4]
    rcases ls with _ | ⟨b, ls⟩
    · simp only [read_value_nil h3, Option.bind_map, Option.bind_none, Function.comp_def]
      cases number a <;> rfl
    obtain ⟨f3, h5, h6⟩ := read_value_cons h3
    simp only [h6, Option.bind_map, Function.comp_def]
    rcases ls with _ | ⟨c, ls⟩
    · rw [skip_none (by rw [h5]; simp)]
      cases number a <;> cases number b <;> rfl
    rcases ls with _ | ⟨d, ls⟩
    · rw [skip_none (by rw [h5]; simp)]
      cases number a <;> cases number b <;> rfl
    obtain ⟨g, g1, g2⟩ := skip_some (n := 2) (file := f3) (by rw [h5]; simp)
    rw [h5] at g2
    rw [g1]
    dsimp only
    cases number a with
    | none => rfl
    | some words =>
    cases number b with
    | none => rfl
    | some missed =>
      refine ⟨words, missed, g, rfl, ?_⟩
      rw [g2]; rfl

theorem read_wacrpt_spec (D : Wac.Wacdata) (file : List Nat) :
    match wordacc (lines file) with
    | none => Wac.read_wacrpt D file = .err "invalid format in"
    | some p => (p.Sound → ∃ E, Wac.read_wacrpt D file = .ok E ∧ p.Adds D E) ∧ (¬ p.Sound → Wac.read_wacrpt D file = .ub) := by
  have hh := read_head_spec file
  unfold Wac.read_wacrpt
  cases hw : wordacc (lines file) with
  | none => rw [hw] at hh; simp only at hh ⊢; rw [hh]
  | some p =>
    rw [hw] at hh
    obtain ⟨words, missed, f, h1, rfl⟩ := hh
    rw [h1]
    simp only
    have a1 := read_numbers_spec (Wac.MAX_WORDLENGTH + 1) f D.stopword
    by_cases b1 : InArray 51 (rows ((lines f).drop 2))
    swap
    · rw [a1.2 b1, bind_ub]
      exact ⟨fun h => absurd h.stop b1, fun _ => rfl⟩
    obtain ⟨f1, c1, d1⟩ := a1.1 b1
    rw [c1, bind_ok]
    simp only
    have a2 := read_numbers_spec (Wac.MAX_WORDLENGTH + 1) f1 D.non_stopword
    rw [d1] at a2
    by_cases b2 : InArray 51 (rows ((afterRows ((lines f).drop 2)).drop 2))
    swap
    · rw [a2.2 b2, bind_ub]
      exact ⟨fun h => absurd h.non b2, fun _ => rfl⟩
    obtain ⟨f2, c2, d2⟩ := a2.1 b2
    rw [c2, bind_ok]
    simp only
    have a3 := read_numbers_spec (Wac.MAX_OCCURRENCES + 2) f2 D.distinct_non_stopword
    rw [d2] at a3
    by_cases b3 : InArray 12 (rows ((afterRows ((afterRows ((lines f).drop 2)).drop 2)).drop 2))
    swap
    · rw [a3.2 b3, bind_ub]
      exact ⟨fun h => absurd h.distinct b3, fun _ => rfl⟩
    obtain ⟨f3, c3, d3⟩ := a3.1 b3
    rw [c3, bind_ok]
    simp only
    -- the phrases
    obtain ⟨p, hp⟩ : ∃ p, p = wordaccBody words missed (lines f) := ⟨_, rfl⟩
    have e1 : rows ((lines f).drop 2) = p.stop := by rw [hp]; rfl
    have e2 : rows ((afterRows ((lines f).drop 2)).drop 2) = p.non := by rw [hp]; rfl
    have e3 : rows ((afterRows ((afterRows ((lines f).drop 2)).drop 2)).drop 2) = p.distinct := by rw [hp]; rfl
    have e0 : p.words = words ∧ p.missed = missed := by rw [hp]; exact ⟨rfl, rfl⟩
    obtain ⟨s4, hs4⟩ : ∃ s4, s4 = lines f3 := ⟨_, rfl⟩
    obtain ⟨s5, hs5⟩ : ∃ s5, s5 = if words > 0 then afterRows (s4.drop 2) else s4 := ⟨_, rfl⟩
    obtain ⟨s6, hs6⟩ : ∃ s6, s6 = if words > 0 ∧ totalCount p.stop > 0 then afterRows (s5.drop 2) else s5 := ⟨_, rfl⟩
    have e4 : p.phrases = if words > 0 then rows (s4.drop 2) else [] := by
      rw [hs4, d3, hp]; simp [wordaccBody]
    have e5 : p.terms1 = if words > 0 ∧ totalCount p.stop > 0 then rows (s5.drop 2) else [] := by
      rw [hs5, hs4, d3, hp]; simp [wordaccBody]
    have e6 : p.terms2 = if words > 0 ∧ totalCount p.non > 0 then rows (s6.drop 2) else [] := by
      rw [hs6, hs5, hs4, d3, hp]; simp [wordaccBody]
    rw [← hp]
    rw [e1] at b1 ⊢
    rw [e2] at b2 ⊢
    rw [e3] at b3 ⊢
    have hph : (InArray 9 p.phrases → ∃ w t g, (if words > 0 then Wac.read_numbers (Wac.MAX_PHRASELENGTH + 1) f3 D.phrase
          else pure (D.phrase, 0, f3)) = .ok (w, t, g) ∧ AddsFigures p.phrases D.phrase w ∧ lines g = s5) ∧
        (¬ InArray 9 p.phrases → (if words > 0 then Wac.read_numbers (Wac.MAX_PHRASELENGTH + 1) f3 D.phrase
          else pure (D.phrase, 0, f3)) = .ub) := by
      have a4 := read_numbers_spec (Wac.MAX_PHRASELENGTH + 1) f3 D.phrase
      rw [← hs4] at a4
      rw [hs5, e4]
      by_cases hw : words > 0
      · simp only [if_pos hw]
        refine ⟨fun h => ?_, a4.2⟩
        obtain ⟨g, g1, g2⟩ := a4.1 h
        exact ⟨_, _, g, g1, fun i => rfl, g2⟩
      · simp only [if_neg hw]
        refine ⟨fun h => ⟨D.phrase, 0, f3, rfl, fun i => by simp [firsts_nil, seconds_nil], hs4.symm⟩, fun h => absurd (by simp [InArray]) h⟩
    by_cases b4 : InArray 9 p.phrases
    swap
    · rw [hph.2 b4, bind_ub]
      exact ⟨fun h => absurd h.phrases b4, fun _ => rfl⟩
    obtain ⟨w4, t4, f4, c4, i4, d4⟩ := hph.1 b4
    rw [c4, bind_ok]
    simp only
    have ht1 : (HasNames 29 p.terms1 → ∃ t g, (if words > 0 ∧ totalCount p.stop > 0 then Wac.read_terms f4 D.stopword_table
          else pure (D.stopword_table, f4)) = .ok (t, g) ∧ AddsWords p.terms1 D.stopword_table t ∧ lines g = s6) ∧
        (¬ HasNames 29 p.terms1 → (if words > 0 ∧ totalCount p.stop > 0 then Wac.read_terms f4 D.stopword_table
          else pure (D.stopword_table, f4)) = .ub) := by
      have a5 := read_terms_spec f4 D.stopword_table
      rw [d4] at a5
      rw [hs6, e5]
      by_cases hw : words > 0 ∧ totalCount p.stop > 0
      · simp only [if_pos hw]; exact a5
      · simp only [if_neg hw]
        exact ⟨fun h => ⟨_, _, rfl, AddsWords.nil _, d4⟩, fun h => absurd (by simp [HasNames]) h⟩
    by_cases b5 : HasNames 29 p.terms1
    swap
    · rw [ht1.2 b5, bind_ub]
      exact ⟨fun h => absurd h.terms1 b5, fun _ => rfl⟩
    obtain ⟨t5, f5, c5, i5, d5⟩ := ht1.1 b5
    rw [c5, bind_ok]
    simp only
    have ht2 : (HasNames 29 p.terms2 → ∃ t g, (if words > 0 ∧ totalCount p.non > 0 then Wac.read_terms f5 D.non_stopword_table
          else pure (D.non_stopword_table, f5)) = .ok (t, g) ∧ AddsWords p.terms2 D.non_stopword_table t) ∧
        (¬ HasNames 29 p.terms2 → (if words > 0 ∧ totalCount p.non > 0 then Wac.read_terms f5 D.non_stopword_table
          else pure (D.non_stopword_table, f5)) = .ub) := by
      have a6 := read_terms_spec f5 D.non_stopword_table
      rw [d5] at a6
      rw [e6]
      by_cases hw : words > 0 ∧ totalCount p.non > 0
      · simp only [if_pos hw]
        refine ⟨fun h => ?_, a6.2⟩
        obtain ⟨t, g, g1, g2, _⟩ := a6.1 h
        exact ⟨t, g, g1, g2⟩
      · simp only [if_neg hw]
        exact ⟨fun h => ⟨_, _, rfl, AddsWords.nil _⟩, fun h => absurd (by simp [HasNames]) h⟩
    by_cases b6 : HasNames 29 p.terms2
    swap
    · rw [ht2.2 b6, bind_ub]
      exact ⟨fun h => absurd h.terms2 b6, fun _ => rfl⟩
    obtain ⟨t6, f6, c6, i6⟩ := ht2.1 b6
    rw [c6, bind_ok]
    refine ⟨fun _ => ⟨_, rfl, ?_⟩, fun h => absurd ⟨b1, b2, b3, b4, b5, b6⟩ h⟩
    refine ⟨?_, fun i => rfl, fun i => rfl, fun i => rfl, i4, i5, i6⟩
    rw [e0.1, e0.2]; rfl

end Ocr.AnyReport
