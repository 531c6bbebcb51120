import Verif.Props.Dist

/-!
# C54: accdist, accci, wordaccdist and wordaccci use the figures of each report
-/

namespace Ocr.Accdist
open Text Dist Res

theorem process_eq {files : List (List Nat)} {Es : List Acc.Accdata}
    (h : List.Forall₂ (fun f E => Acc.read_accrpt Acc.Accdata.zero f = .ok E) files Es) :
    ∀ (B : Acc.Accdata) (d : Dist), processFiles B d files = updates d (Es.map (fun E => (E.characters, E.errors))) := by
  induction h with
  | nil => intro B d; rfl
  | @cons f E fs Es hE _ ih =>
    intro B d
    obtain ⟨D, h1, hp⟩ := (Acc.read_plus (Acc.Plus.zero B) f).ok_right hE
    rw [processFiles, h1, bind_ok, List.map_cons, updates, hp.characters, hp.errors]
    simp only [add_sub_cancel_left, ih]

/-- C54 (accdist).  For any files that are readable as reports, with figures that are not negative, accdist writes the
distribution of the figures of the single reports. -/
theorem c54_accdist (pct : Int → Int → List Nat) (files : List (List Nat)) (Es : List Acc.Accdata)
    (h : List.Forall₂ (fun f E => Acc.read_accrpt Acc.Accdata.zero f = .ok E) files Es)
    (hn : ∀ E ∈ Es, 0 ≤ E.characters ∧ 0 ≤ E.errors) :
    accdistMain pct files = .ok (survival pct (Es.map (fun E => (E.characters, E.errors)))) := by
  have hn' : ∀ o ∈ Es.map (fun E => (E.characters, E.errors)), 0 ≤ o.1 ∧ 0 ≤ o.2 := by
    intro o ho; obtain ⟨E, hE, rfl⟩ := List.mem_map.1 ho; exact hn E hE
  obtain ⟨d, hd, _⟩ := c46_survival _ hn'
  unfold accdistMain
  rw [process_eq h, hd, bind_ok, c46_written pct _ hn' d hd]
  rfl

end Ocr.Accdist

namespace Ocr.Wordaccdist
open Text Dist Res

theorem process_eq {files : List (List Nat)} {Es : List Wac.Wacdata}
    (h : List.Forall₂ (fun f E => Wac.read_wacrpt Wac.Wacdata.zero f = .ok E) files Es) :
    ∀ (B : Wac.Wacdata) (d : Dist), processFiles B d files = updates d (Es.map (fun E => (E.total.count, E.total.missed))) := by
  induction h with
  | nil => intro B d; rfl
  | @cons f E fs Es hE _ ih =>
    intro B d
    obtain ⟨D, h1, hp⟩ := (Wac.read_plus (Wac.Plus.zero B) f).ok_right hE
    rw [processFiles, h1, bind_ok, List.map_cons, updates, hp.total]
    simp only [Wac.Wac.add, Wac.increment_wac, add_sub_cancel_left, ih]

/-- C54 (wordaccdist). -/
theorem c54_wordaccdist (pct : Int → Int → List Nat) (files : List (List Nat)) (Es : List Wac.Wacdata)
    (h : List.Forall₂ (fun f E => Wac.read_wacrpt Wac.Wacdata.zero f = .ok E) files Es)
    (hn : ∀ E ∈ Es, 0 ≤ E.total.count ∧ 0 ≤ E.total.missed) :
    wordaccdistMain pct files = .ok (survival pct (Es.map (fun E => (E.total.count, E.total.missed)))) := by
  have hn' : ∀ o ∈ Es.map (fun E => (E.total.count, E.total.missed)), 0 ≤ o.1 ∧ 0 ≤ o.2 := by
    intro o ho; obtain ⟨E, hE, rfl⟩ := List.mem_map.1 ho; exact hn E hE
  obtain ⟨d, hd, _⟩ := c46_survival _ hn'
  unfold wordaccdistMain
  rw [process_eq h, hd, bind_ok, c46_written pct _ hn' d hd]
  rfl

end Ocr.Wordaccdist

namespace Ocr.Ci
open Text Res

theorem results_any (pct : Int → Int → List Nat) (fmt : ℝ → List Nat) (what wrong : List Nat) (obs : List (Int × Int))
    (h2 : 2 ≤ (obs.filter (fun o => decide (0 < o.1))).length) (hT : (obs.map (fun o => o.1)).sum ≠ 0)
    (hz : ∀ o ∈ obs, (obs.map (fun o => o.1)).sum - o.1 ≠ 0) :
    write_results pct fmt what wrong (appended obs) (obs.map (fun o => o.1)).sum (obs.map (fun o => o.2)).sum =
      .ok (results pct fmt what wrong obs) := by
  unfold write_results
  rw [c47_any obs h2 hT hz, bind_ok]
  simp only
  rw [if_neg hT, appended_eq]
  simp only [List.length_map]
  rfl

theorem results_eq (pct : Int → Int → List Nat) (fmt : ℝ → List Nat) (what wrong : List Nat) (obs : List (Int × Int)) (h : Enough obs) :
    write_results pct fmt what wrong (appended obs) (obs.map (fun o => o.1)).sum (obs.map (fun o => o.2)).sum =
      .ok (results pct fmt what wrong obs) :=
  results_any pct fmt what wrong obs h.2 (by have := positive_sum h.1; have := h.2; omega) (fun x hx => by
    obtain ⟨i, hi, rfl⟩ := List.mem_iff_getElem.1 hx
    exact ne_of_gt (h.erase hi))

end Ocr.Ci

namespace Ocr.Accci
open Text Ci Res

theorem process_eq {files : List (List Nat)} {Es : List Acc.Accdata}
    (h : List.Forall₂ (fun f E => Acc.read_accrpt Acc.Accdata.zero f = .ok E) files Es) :
    ∀ (B : Acc.Accdata) (l : Obslist), ∃ D, processFiles B l files =
      .ok (D, (Es.map (fun E => (E.characters, E.errors))).foldl (fun l o => append_obs l o.1 o.2) l) ∧
      D.characters = B.characters + (Es.map (fun E => E.characters)).sum ∧ D.errors = B.errors + (Es.map (fun E => E.errors)).sum := by
  induction h with
  | nil => intro B l; exact ⟨B, rfl, by simp, by simp⟩
  | @cons f E fs Es hE _ ih =>
    intro B l
    obtain ⟨D, h1, hp⟩ := (Acc.read_plus (Acc.Plus.zero B) f).ok_right hE
    obtain ⟨D', e1, e2, e3⟩ := ih D (append_obs l E.characters E.errors)
    refine ⟨D', ?_, ?_, ?_⟩
    · rw [processFiles, h1, bind_ok, hp.characters, hp.errors]
      simp only [add_sub_cancel_left]
      rw [e1]
      rfl
    · rw [e2, hp.characters, List.map_cons, List.sum_cons]; omega
    · rw [e3, hp.errors, List.map_cons, List.sum_cons]; omega

/-- C54 (accci).  For any two or more files that are readable as reports, with enough characters, accci writes the confidence
interval for the figures of the single reports, and their totals. -/
theorem c54_accci (pct : Int → Int → List Nat) (fmt : ℝ → List Nat) (files : List (List Nat)) (Es : List Acc.Accdata)
    (h : List.Forall₂ (fun f E => Acc.read_accrpt Acc.Accdata.zero f = .ok E) files Es)
    (hn : Enough (Es.map (fun E => (E.characters, E.errors)))) :
    accciMain pct fmt files =
      .ok (results pct fmt (ascii "Characters") (ascii "Errors") (Es.map (fun E => (E.characters, E.errors)))) := by
  have hlen : 2 ≤ files.length := by
    have := le_trans hn.2 (List.length_filter_le _ _)
    rw [List.length_map] at this
    rw [h.length_eq]; exact this
  obtain ⟨D, e1, e2, e3⟩ := process_eq h Acc.Accdata.zero Obslist.empty
  unfold accciMain
  rw [if_neg (by omega), e1, bind_ok]
  simp only
  rw [e2, e3, ← results_eq pct fmt _ _ _ hn]
  simp only [Acc.Accdata.zero, Int.zero_add, List.map_map]
  rfl

end Ocr.Accci

namespace Ocr.Wordaccci
open Text Ci Res

theorem process_eq {files : List (List Nat)} {Es : List Wac.Wacdata}
    (h : List.Forall₂ (fun f E => Wac.read_wacrpt Wac.Wacdata.zero f = .ok E) files Es) :
    ∀ (B : Wac.Wacdata) (l : Obslist), ∃ D, processFiles B l files =
      .ok (D, (Es.map (fun E => (E.total.count, E.total.missed))).foldl (fun l o => append_obs l o.1 o.2) l) ∧
      D.total.count = B.total.count + (Es.map (fun E => E.total.count)).sum ∧
      D.total.missed = B.total.missed + (Es.map (fun E => E.total.missed)).sum := by
  induction h with
  | nil => intro B l; exact ⟨B, rfl, by simp, by simp⟩
  | @cons f E fs Es hE _ ih =>
    intro B l
    obtain ⟨D, h1, hp⟩ := (Wac.read_plus (Wac.Plus.zero B) f).ok_right hE
    obtain ⟨D', e1, e2, e3⟩ := ih D (append_obs l E.total.count E.total.missed)
    refine ⟨D', ?_, ?_, ?_⟩
    · rw [processFiles, h1, bind_ok, hp.total]
      simp only [Wac.Wac.add, Wac.increment_wac, add_sub_cancel_left]
      rw [e1]
      rfl
    · rw [e2, hp.total, List.map_cons, List.sum_cons]; simp only [Wac.Wac.add, Wac.increment_wac]; omega
    · rw [e3, hp.total, List.map_cons, List.sum_cons]; simp only [Wac.Wac.add, Wac.increment_wac]; omega

/-- C54 (wordaccci). -/
theorem c54_wordaccci (pct : Int → Int → List Nat) (fmt : ℝ → List Nat) (files : List (List Nat)) (Es : List Wac.Wacdata)
    (h : List.Forall₂ (fun f E => Wac.read_wacrpt Wac.Wacdata.zero f = .ok E) files Es)
    (hn : Enough (Es.map (fun E => (E.total.count, E.total.missed)))) :
    wordaccciMain pct fmt files =
      .ok (results pct fmt (ascii "Words") (ascii "Misrecognized") (Es.map (fun E => (E.total.count, E.total.missed)))) := by
  have hlen : 2 ≤ files.length := by
    have := le_trans hn.2 (List.length_filter_le _ _)
    rw [List.length_map] at this
    rw [h.length_eq]; exact this
  obtain ⟨D, e1, e2, e3⟩ := process_eq h Wac.Wacdata.zero Obslist.empty
  unfold wordaccciMain
  rw [if_neg (by omega), e1, bind_ok]
  simp only
  rw [e2, e3, ← results_eq pct fmt _ _ _ hn]
  simp only [Wac.Wacdata.zero, Int.zero_add, List.map_map]
  rfl

/-- C54 (reports).  The figures are those of the data for which the reports have been written. -/
theorem c54_written (pct8 pct : Int → Int → List Nat) (hp : Acc.PctFormat pct8) (fmt : ℝ → List Nat) (Ds : List Wac.Wacdata)
    (h : ∀ D ∈ Ds, Wac.Reportable D) (hn : Enough (Ds.map (fun D => (D.total.count, D.total.missed)))) :
    ∃ files, List.Forall₂ (fun D f => Wac.write_wacrpt pct8 D = .ok f) Ds files ∧
      wordaccciMain pct fmt files =
        .ok (results pct fmt (ascii "Words") (ascii "Misrecognized") (Ds.map (fun D => (D.total.count, D.total.missed)))) := by
  have key : ∃ files Es, List.Forall₂ (fun D f => Wac.write_wacrpt pct8 D = .ok f) Ds files ∧
      List.Forall₂ (fun f E => Wac.read_wacrpt Wac.Wacdata.zero f = .ok E) files Es ∧
      Es.map (fun E => (E.total.count, E.total.missed)) = Ds.map (fun D => (D.total.count, D.total.missed)) := by
    clear hn
    induction Ds with
    | nil => exact ⟨[], [], .nil, .nil, rfl⟩
    | cons D Ds ih =>
      obtain ⟨fs, Es, a, b, c⟩ := ih (fun E hE => h E (by simp [hE]))
      obtain ⟨f, E, e1, e2, e3⟩ := Wac.c30_round_trip pct8 hp D (h D (by simp))
      refine ⟨f :: fs, E :: Es, .cons e1 a, .cons e2 b, ?_⟩
      rw [List.map_cons, List.map_cons, c, e3.1]
  obtain ⟨files, Es, a, b, c⟩ := key
  refine ⟨files, a, ?_⟩
  rw [c54_wordaccci pct fmt files Es b (by rw [c]; exact hn), c]

/-! Non-vacuity: the report of `Wac.sampleData` twice. -/

theorem sampleReports : ∃ file E, Wac.read_wacrpt Wac.Wacdata.zero file = .ok E ∧ E.total = ⟨3, 1⟩ := by
  obtain ⟨file, E, _, h2, h3⟩ := Wac.c30_round_trip Acc.samplePct Acc.samplePct_format Wac.sampleData Wac.sampleData_reportable
  exact ⟨file, E, h2, by rw [h3.1]; rfl⟩

example : ∃ file, Wordaccdist.wordaccdistMain Acc.samplePct [file, file] = .ok (Dist.survival Acc.samplePct [(3, 1), (3, 1)]) := by
  obtain ⟨file, E, h1, h2⟩ := sampleReports
  have h := Wordaccdist.c54_wordaccdist Acc.samplePct [file, file] [E, E] (.cons h1 (.cons h1 .nil)) (by simp [h2])
  exact ⟨file, by rw [h]; simp [h2]⟩

example : Dist.atLeast [(3, 1), (3, 1)] 66 = 6 ∧ Dist.atLeast [(3, 1), (3, 1)] 67 = 0 := by decide

example : ∃ file, ∀ fmt, wordaccciMain Acc.samplePct fmt [file, file] =
    .ok (results Acc.samplePct fmt (ascii "Words") (ascii "Misrecognized") [(3, 1), (3, 1)]) := by
  obtain ⟨file, E, h1, h2⟩ := sampleReports
  refine ⟨file, fun fmt => ?_⟩
  have h := c54_wordaccci Acc.samplePct fmt [file, file] [E, E] (.cons h1 (.cons h1 .nil)) (by
    simp only [List.map_cons, List.map_nil, h2]; exact ⟨by decide, by decide⟩)
  rw [h]; simp [h2]

end Ocr.Wordaccci
