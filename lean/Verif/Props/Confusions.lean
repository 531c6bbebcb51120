import Verif.Proof.Confusions
import Verif.Props.Evaluations

/-!
# C67: the confusions of an accuracy report
-/

namespace Ocr.Acc
open Text Sync Res

/-- C67.  For all texts (the correct one without U+10FFFF), the table of confusions of `accuracy` has exactly one entry for each of the
confusions in an optimal alignment of the texts, the one all other figures belong to: both strings, abbreviated, with the numbers of the
errors and of the marked errors. -/
theorem c67_confusions (U : Unicode) (F : UnicodeFacts U) (t0 t1 : List Ch) (h0 : InTables t0) (h1 : CodePoints t1) :
    ∃ D items, accuracy U t0 t1 = .ok D ∧ IsAlignment [values t0, values t1] items ∧
      (∃ d : Nat, cost items = d ∧ IsEditDistance (values t0) (values t1) d) ∧ Reported t0 t1 items D ∧
      IsConfusions U t0 t1 items D.conftable := by
  obtain ⟨D, items, e, hA, hc, hR, hf⟩ := accuracy_items U t0 t1 h0 h1
  refine ⟨D, items, e, hA, hc, hR, ?_⟩
  have hv0 : ∀ c ∈ t0, c.value < 0x110000 := fun c hm => by have := h0 c hm; omega
  have := process_conf F hv0 h1 items [] 0 0 Accdata.zero D (by simpa using hA.width)
    (by simpa [values] using hA.tiles 0 (by simp)) (by simpa [values] using hA.tiles 1 (by simp))
    ⟨by simp [Accdata.zero], by simp [Accdata.zero], by simp [Accdata.zero], by simp [Accdata.zero]⟩ hf
  simpa using this

/-- C67 (reports).  The same holds for the table read from a report which the program `accuracy` has written for two files. -/
theorem c67_report (U : Unicode) (F : UnicodeFacts U) (pct : Int → Int → List Nat) (hpct : PctFormat pct) (p : List Ch × List Ch)
    (report : List Nat) (h : Spec.AccuracyReport U pct p report) (hlast : ∀ c ∈ p.1, c.value ≠ 0x10FFFF)
    (hl : p.1.length + p.2.length < 10^8) :
    ∃ E items, read_accrpt Accdata.zero report = .ok E ∧ IsAlignment [values p.1, values p.2] items ∧
      (∃ d : Nat, cost items = d ∧ IsEditDistance (values p.1) (values p.2) d) ∧ Reported p.1 p.2 items E ∧
      IsConfusions U p.1 p.2 items E.conftable := by
  obtain ⟨i0, i1, D, E, e1, e2, e3⟩ := Prog.accuracy_written F hpct h hlast hl
  obtain ⟨D', items, e1', hA, hc, hR, hC⟩ := c67_confusions U F p.1 p.2 i0 i1
  have : D' = D := by rw [e1] at e1'; exact (Res.ok.inj e1').symm
  subst this
  exact ⟨E, items, e2, hA, hc, same_reported e3 hR, conf_perm hC e3.2⟩

theorem fitting_le (U : Unicode) (vs : List Nat) : fitting U vs ≤ vs.length := by
  unfold fitting
  refine (List.takeWhile_sublist _).length_le.trans ?_
  rw [List.length_range]

/-- C67 (abbreviation).  A string whose names take at most 24 bytes is given in full; a longer one is cut, at the end of a name, such that
the names left take at most 24 bytes and the next one would not fit. -/
theorem c67_abbreviated (U : Unicode) (vs : List Nat) :
    ((vs.flatMap (named U)).length ≤ 24 → abbreviated U vs = vs.flatMap (named U)) ∧
    (24 < (vs.flatMap (named U)).length → ∃ p v q, vs = p ++ v :: q ∧ abbreviated U vs = p.flatMap (named U) ++ ascii "..." ∧
      (p.flatMap (named U)).length ≤ 24 ∧ 24 < ((p ++ [v]).flatMap (named U)).length) := by
  have key : ∀ (vs : List Nat) (m : Nat), m ≤ 24 →
      (m + (vs.flatMap (named U)).length ≤ 24 → fit U m vs = vs.length) ∧
      (24 < m + (vs.flatMap (named U)).length → ∃ p v q, vs = p ++ v :: q ∧ fit U m vs = p.length ∧
        m + (p.flatMap (named U)).length ≤ 24 ∧ 24 < m + ((p ++ [v]).flatMap (named U)).length) := by
    intro vs
    induction vs with
    | nil => intro m hm; exact ⟨fun _ => rfl, fun h => by simp at h; omega⟩
    | cons v vs ih =>
      intro m hm
      rw [fit_cons]
      by_cases h : m + (named U v).length ≤ 24
      · obtain ⟨i1, i2⟩ := ih _ h
        rw [if_pos h]
        refine ⟨?_, ?_⟩
        · intro hl
          rw [i1 (by rw [List.flatMap_cons, List.length_append] at hl; omega)]; rfl
        · intro hl
          obtain ⟨p, w, q, e1, e2, e3, e4⟩ := i2 (by rw [List.flatMap_cons, List.length_append] at hl; omega)
          exact ⟨v :: p, w, q, by rw [e1]; rfl, by rw [e2]; rfl, by rw [List.flatMap_cons, List.length_append]; omega,
            by rw [List.cons_append, List.flatMap_cons, List.length_append]; omega⟩
      · rw [if_neg h]
        refine ⟨?_, ?_⟩
        · intro hl; rw [List.flatMap_cons, List.length_append] at hl; omega
        · intro _
          exact ⟨[], v, vs, rfl, rfl, by simpa using hm, by simp; omega⟩
  have e : fit U 0 vs = fitting U vs := by unfold fit fitting; simp
  obtain ⟨k1, k2⟩ := key vs 0 (by omega)
  rw [e] at k1 k2
  unfold abbreviated
  refine ⟨?_, ?_⟩
  · intro h
    rw [k1 (by omega), if_neg (by omega), List.take_length, List.append_nil]
  · intro h
    obtain ⟨p, v, q, e1, e2, e3, e4⟩ := k2 (by omega)
    refine ⟨p, v, q, e1, ?_, by omega, by omega⟩
    rw [e2, if_pos (by rw [e1]; simp), e1, List.take_left]

/-! ## Non-vacuity -/

/-- "kit~ten" recognized as "s^it^tx~n": three errors, two of them marked. -/
example : ∃ D items, accuracy sampleUnicode sampleCorrect sampleGenerated = .ok D ∧
    IsConfusions sampleUnicode sampleCorrect sampleGenerated items D.conftable ∧
    D.conftable = [⟨ascii "{~te}-{tx~}\n", 2, 2⟩, ⟨ascii "{k}-{s}\n", 1, 0⟩] := by
  obtain ⟨D, items, e, _, _, _, h⟩ := c67_confusions sampleUnicode sampleFacts sampleCorrect sampleGenerated
    (by unfold InTables; decide +kernel) (by unfold CodePoints; decide +kernel)
  refine ⟨D, items, e, h, ?_⟩
  have key : (match accuracy sampleUnicode sampleCorrect sampleGenerated with
      | .ok D => List.map (fun c : Conf => (c.key, c.errors, c.marked)) D.conftable
      | _ => []) = [(ascii "{~te}-{tx~}\n", 2, 2), (ascii "{k}-{s}\n", 1, 0)] := by decide +kernel
  rw [e] at key
  simp only at key
  have := congrArg (List.map (fun t : List Nat × Int × Int => (⟨t.1, t.2.1, t.2.2⟩ : Conf))) key
  rw [List.map_map] at this
  rw [← List.map_id D.conftable]
  exact this

/-- The report of the sample page. -/
example : ∃ R E items, Spec.AccuracyReport sampleUnicode samplePct (Prog.sampleText0, Prog.sampleText1) R ∧
    read_accrpt Accdata.zero R = .ok E ∧ IsConfusions sampleUnicode Prog.sampleText0 Prog.sampleText1 items E.conftable := by
  obtain ⟨R, hR⟩ := Prog.sample_accuracy_report
  obtain ⟨E, items, e, _, _, _, h⟩ := c67_report sampleUnicode sampleFacts samplePct samplePct_format _ R hR (by decide +kernel) (by decide +kernel)
  exact ⟨R, E, items, hR, e, h⟩

/-- A string of 26 letters is cut, one of 24 is not. -/
example : abbreviated sampleUnicode ((sampleText "abcdefghijklmnopqrstuvwxyz").map Ch.value) = ascii "abcdefghijklmnopqrstuvwx..." ∧
    abbreviated sampleUnicode ((sampleText "abcdefghijklmnopqrstuvwx").map Ch.value) = ascii "abcdefghijklmnopqrstuvwx" := by decide +kernel

/-- Eight newlines: six names of four bytes fit. -/
example (U : Unicode) : abbreviated U (List.replicate 8 10) = ascii "<\\n><\\n><\\n><\\n><\\n><\\n>..." := by
  have : ∀ n, (List.replicate n 10).flatMap (named U) = (List.replicate n (ascii "<\\n>")).flatten := by
    intro n; rw [List.flatMap_def, List.map_replicate]; rfl
  unfold abbreviated fitting
  simp only [List.take_replicate, this, List.length_replicate]
  decide +kernel

end Ocr.Acc
