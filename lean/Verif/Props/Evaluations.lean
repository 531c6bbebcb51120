import Verif.Proof.Evaluations
import Verif.Props.Pipelines
import Verif.Props.Running
import Verif.Props.Groupacc
import Verif.Props.Frequencies

/-!
# C65: the programs that evaluate reports, fed with reports of accuracy and wordacc
-/

namespace Ocr.Prog
open Text Res Spec

theorem accuracy_figures {U : Unicode} (F : UnicodeFacts U) {pct8 : Int → Int → List Nat} (hpct : Acc.PctFormat pct8)
    {reports : List (List Nat)} {pages : List (List Ch × List Ch)} (hp : List.Forall₂ (AccuracyReport U pct8) pages reports)
    (hlast : ∀ p ∈ pages, ∀ c ∈ p.1, c.value ≠ 0x10FFFF) (hl : ∀ p ∈ pages, p.1.length + p.2.length < 10^8) :
    ∃ Es : List Acc.Accdata, List.Forall₂ (fun report E => Acc.read_accrpt Acc.Accdata.zero report = .ok E) reports Es ∧
      List.Forall₂ AccuracyFigures pages (Es.map (fun E => (E.characters, E.errors))) ∧ ∀ E ∈ Es, 0 ≤ E.characters ∧ 0 ≤ E.errors := by
  induction hp with
  | nil => exact ⟨[], .nil, .nil, by simp⟩
  | cons h _ ih =>
    obtain ⟨Es, a, b, c⟩ := ih (fun p hm => hlast p (by simp [hm])) (fun p hm => hl p (by simp [hm]))
    obtain ⟨E, e, w, i, x⟩ := accuracy_report F hpct h (hlast _ (by simp)) (hl _ (by simp))
    have h1 := w.heads E.characters (by simp)
    have h2 := w.heads E.errors (by simp)
    refine ⟨E :: Es, .cons e a, .cons ⟨i.characters, h2.1, x⟩ b, ?_⟩
    intro D hD
    rcases List.mem_cons.1 hD with rfl | hD
    · exact ⟨h1.1, h2.1⟩
    · exact c D hD

/-- C65 (accdist).  Reports of `accuracy` for any pages, given to `accdist`: for each percentage, the share of the characters that are on
pages with at least this accuracy. -/
theorem c65_accdist (U : Unicode) (F : UnicodeFacts U) (pct8 pct : Int → Int → List Nat) (hpct : Acc.PctFormat pct8) (fs : Fs)
    (prog : List Nat) (args names : List (List Nat)) (ss : List Args.Setting) (hc : CommandLine [] prog args names ss)
    (reports : List (List Nat)) (pages : List (List Ch × List Ch))
    (hf : List.Forall₂ (fun name file => fs name = some file) names reports)
    (hp : List.Forall₂ (AccuracyReport U pct8) pages reports) (hlast : ∀ p ∈ pages, ∀ c ∈ p.1, c.value ≠ 0x10FFFF)
    (hl : ∀ p ∈ pages, p.1.length + p.2.length < 10^8) :
    ∃ obs, List.Forall₂ AccuracyFigures pages obs ∧ accdistProgram pct fs (prog :: args) = .ok ⟨none, Dist.survival pct obs⟩ := by
  obtain ⟨b, V, e⟩ := init_none hc
  obtain ⟨Es, h1, h2, h3⟩ := accuracy_figures F hpct hp hlast hl
  refine ⟨_, h2, ?_⟩
  rw [accdist_eq e hf, Accdist.c54_accdist pct reports Es h1 h3]
  rfl

theorem filter_length {α β : Type} {R : α → β → Prop} {p : α → Bool} {q : β → Bool} (h : ∀ a b, R a b → p a = q b) {as : List α} {bs : List β}
    (hr : List.Forall₂ R as bs) : (as.filter p).length = (bs.filter q).length := by
  induction hr with
  | nil => rfl
  | cons hab _ ih =>
    rw [List.filter_cons, List.filter_cons, h _ _ hab]
    split
    · rw [List.length_cons, List.length_cons, ih]
    · exact ih

theorem figures_positive (p : List Ch × List Ch) (o : Int × Int) (h : AccuracyFigures p o) :
    decide (∃ c ∈ p.1, c.value ≠ 126) = decide (0 < o.1) := by
  rw [Bool.eq_iff_iff, decide_eq_true_iff, decide_eq_true_iff, h.characters]
  constructor
  · rintro ⟨c, hc, hv⟩
    have : 0 < ((p.1.map Ch.value).filter (fun v => v ≠ 126)).length :=
      List.length_pos_of_mem (List.mem_filter.2 ⟨List.mem_map.2 ⟨c, hc, rfl⟩, by simpa using hv⟩)
    omega
  · intro hl
    have : 0 < ((p.1.map Ch.value).filter (fun v => v ≠ 126)).length := by omega
    obtain ⟨v, hv⟩ := List.exists_mem_of_length_pos this
    obtain ⟨hm, hn⟩ := List.mem_filter.1 hv
    obtain ⟨c, hc, rfl⟩ := List.mem_map.1 hm
    exact ⟨c, hc, by simpa using hn⟩

/-- C65 (accci).  Reports of `accuracy`, given to `accci`: if at least two pages have characters, the totals and the confidence interval of the
figures of the pages; otherwise there is a message. -/
theorem c65_accci (U : Unicode) (F : UnicodeFacts U) (pct8 pct : Int → Int → List Nat) (hpct : Acc.PctFormat pct8) (fmt : ℝ → List Nat)
    (fs : Fs) (prog : List Nat) (args names : List (List Nat)) (ss : List Args.Setting) (hc : CommandLine [] prog args names ss)
    (reports : List (List Nat)) (pages : List (List Ch × List Ch))
    (hf : List.Forall₂ (fun name file => fs name = some file) names reports)
    (hp : List.Forall₂ (AccuracyReport U pct8) pages reports) (hlast : ∀ p ∈ pages, ∀ c ∈ p.1, c.value ≠ 0x10FFFF)
    (hl : ∀ p ∈ pages, p.1.length + p.2.length < 10^8) :
    (2 ≤ (pages.filter (fun p => decide (∃ c ∈ p.1, c.value ≠ 126))).length →
      ∃ obs, List.Forall₂ AccuracyFigures pages obs ∧
        accciProgram pct fmt fs (prog :: args) = .ok ⟨none, Ci.results pct fmt (ascii "Characters") (ascii "Errors") obs⟩) ∧
    ((pages.filter (fun p => decide (∃ c ∈ p.1, c.value ≠ 126))).length < 2 → accciProgram pct fmt fs (prog :: args) =
      .err (if pages.length < 2 then "not enough input files" else "not enough observations")) := by
  obtain ⟨b, V, e⟩ := init_none hc
  obtain ⟨Es, h1, h2, h3⟩ := accuracy_figures F hpct hp hlast hl
  have hfl := filter_length figures_positive h2
  rw [accci_eq e hf, hfl]
  constructor
  · intro hn
    refine ⟨_, h2, ?_⟩
    have h4 := le_trans hn (List.length_filter_le _ _)
    rw [← h2.length_eq] at h4
    rw [Accci.c54_accci pct fmt reports Es h1 ⟨?_, hn⟩]
    · rfl
    · intro o ho
      obtain ⟨E, hE, rfl⟩ := List.mem_map.1 ho
      exact (h3 E hE).1
  · intro hn
    by_cases h4 : pages.length < 2
    · rw [if_pos h4]
      unfold Accci.accciMain
      rw [if_pos (by rw [← hp.length_eq]; exact h4)]; rfl
    · rw [if_neg h4]
      obtain ⟨D, e1, _⟩ := Accci.process_eq h1 Acc.Accdata.zero Ci.Obslist.empty
      unfold Accci.accciMain
      rw [if_neg (by rw [← hp.length_eq]; exact h4), e1, bind_ok]
      simp only
      unfold Ci.write_results
      rw [show Ci.compute_ci ((Es.map (fun E => (E.characters, E.errors))).foldl (fun l o => Ci.append_obs l o.1 o.2) Ci.Obslist.empty) = _
        from (Ci.c47_error _).2 hn]
      rfl

theorem wordacc_figures {U : Unicode} {prop : Nat → Word.WB} {nfc : List Nat → Option (List Nat)} {pct8 : Int → Int → List Nat}
    (hpct : Acc.PctFormat pct8) {reports : List (List Nat)} {pages : List WordPage} {cs : List (List (List Nat))}
    (hp : List.Forall₂ (WordaccReport U prop nfc pct8) pages reports) (hm : ∀ p ∈ pages, Manageable p)
    (hl : ∀ p ∈ pages, p.correct.length < 10^8)
    (hcs : List.Forall₂ (fun (p : WordPage) c => Wordacc.IsLCS c p.correct p.generated) pages cs) :
    ∃ Es : List Wac.Wacdata, List.Forall₂ (fun report E => Wac.read_wacrpt Wac.Wacdata.zero report = .ok E) reports Es ∧
      Es.map (fun E => (E.total.count, E.total.missed)) = List.zipWith wordFigures pages cs ∧
      ∀ E ∈ Es, 0 ≤ E.total.count ∧ 0 ≤ E.total.missed := by
  induction hp generalizing cs with
  | nil => cases hcs; exact ⟨[], .nil, rfl, by simp⟩
  | @cons p report pages reports h _ ih =>
    cases hcs with
    | @cons _ c _ cs hc hcs =>
      obtain ⟨Es, a, b, d⟩ := ih (fun p hp => hm p (by simp [hp])) (fun p hp => hl p (by simp [hp])) hcs
      obtain ⟨flags, D, E, hf, hL, hD, hB, e, hs⟩ := wordacc_report hpct h (hm _ (by simp)) (hl _ (by simp))
      have hmiss := missed_lcs hf hL hc
      have ht : E.total = ⟨p.correct.length, p.correct.length - c.length⟩ := by
        rw [hs.1]
        simp only [hD.total, Wordacc.tally, List.countP_true, Bool.true_and, List.length_zip, hf, Nat.min_self]
        rw [Wac.Wac.mk.injEq]
        exact ⟨rfl, by omega⟩
      refine ⟨E :: Es, .cons e a, ?_, ?_⟩
      · rw [List.map_cons, List.zipWith_cons_cons, b, ht]; rfl
      · intro G hG
        rcases List.mem_cons.1 hG with rfl | hG
        · rw [ht]
          have : c.length ≤ p.correct.length := hc.left.length_le
          simp only
          omega
        · exact d G hG

/-- C65 (wordaccdist).  Reports of `wordacc` for any pages, given to `wordaccdist`: for each percentage, the share of the words that are on
pages with at least this accuracy; the words not recognized on a page are those left over by a longest common subsequence. -/
theorem c65_wordaccdist (U : Unicode) (prop : Nat → Word.WB) (nfc : List Nat → Option (List Nat)) (pct8 pct : Int → Int → List Nat)
    (hpct : Acc.PctFormat pct8) (fs : Fs) (prog : List Nat) (args names : List (List Nat)) (ss : List Args.Setting)
    (hc : CommandLine [] prog args names ss) (reports : List (List Nat)) (pages : List WordPage)
    (hf : List.Forall₂ (fun name file => fs name = some file) names reports)
    (hp : List.Forall₂ (WordaccReport U prop nfc pct8) pages reports) (hm : ∀ p ∈ pages, Manageable p)
    (hl : ∀ p ∈ pages, p.correct.length < 10^8) (cs : List (List (List Nat)))
    (hcs : List.Forall₂ (fun (p : WordPage) c => Wordacc.IsLCS c p.correct p.generated) pages cs) :
    wordaccdistProgram pct fs (prog :: args) = .ok ⟨none, Dist.survival pct (List.zipWith wordFigures pages cs)⟩ := by
  obtain ⟨b, V, e⟩ := init_none hc
  obtain ⟨Es, h1, h2, h3⟩ := wordacc_figures hpct hp hm hl hcs
  rw [wordaccdist_eq e hf, Wordaccdist.c54_wordaccdist pct reports Es h1 h3, h2]
  rfl

/-- C65 (wordaccci).  Reports of `wordacc`, given to `wordaccci`: if at least two pages have words, the totals and the confidence interval of
the figures of the pages; otherwise there is a message. -/
theorem c65_wordaccci (U : Unicode) (prop : Nat → Word.WB) (nfc : List Nat → Option (List Nat)) (pct8 pct : Int → Int → List Nat)
    (hpct : Acc.PctFormat pct8) (fmt : ℝ → List Nat) (fs : Fs) (prog : List Nat) (args names : List (List Nat)) (ss : List Args.Setting)
    (hc : CommandLine [] prog args names ss) (reports : List (List Nat)) (pages : List WordPage)
    (hf : List.Forall₂ (fun name file => fs name = some file) names reports)
    (hp : List.Forall₂ (WordaccReport U prop nfc pct8) pages reports) (hm : ∀ p ∈ pages, Manageable p)
    (hl : ∀ p ∈ pages, p.correct.length < 10^8) (cs : List (List (List Nat)))
    (hcs : List.Forall₂ (fun (p : WordPage) c => Wordacc.IsLCS c p.correct p.generated) pages cs) :
    (2 ≤ (pages.filter (fun p => decide (p.correct ≠ []))).length → wordaccciProgram pct fmt fs (prog :: args) =
      .ok ⟨none, Ci.results pct fmt (ascii "Words") (ascii "Misrecognized") (List.zipWith wordFigures pages cs)⟩) ∧
    ((pages.filter (fun p => decide (p.correct ≠ []))).length < 2 → wordaccciProgram pct fmt fs (prog :: args) =
      .err (if pages.length < 2 then "not enough input files" else "not enough observations")) := by
  obtain ⟨b, V, e⟩ := init_none hc
  obtain ⟨Es, h1, h2, h3⟩ := wordacc_figures hpct hp hm hl hcs
  have hfl : (pages.filter (fun p => decide (p.correct ≠ []))).length =
      ((Es.map (fun E => (E.total.count, E.total.missed))).filter (fun o => decide (0 < o.1))).length := by
    rw [h2]
    clear h2 h1 hp hf
    induction hcs with
    | nil => rfl
    | @cons p c _ _ _ _ ih =>
      rw [List.zipWith_cons_cons, List.filter_cons, List.filter_cons,
        show decide (0 < (wordFigures p c).1) = decide (p.correct ≠ []) by
          rw [Bool.eq_iff_iff, decide_eq_true_iff, decide_eq_true_iff, ← List.length_pos_iff]
          unfold wordFigures
          simp]
      have ih := ih (fun p h => hm p (by simp [h])) (fun p h => hl p (by simp [h]))
      split
      · rw [List.length_cons, List.length_cons, ih]
      · exact ih
  have hlE : Es.length = pages.length := by rw [← h1.length_eq, hp.length_eq]
  rw [wordaccci_eq e hf, hfl]
  constructor
  · intro hn
    have h4 := le_trans hn (List.length_filter_le _ _)
    rw [List.length_map] at h4
    rw [Wordaccci.c54_wordaccci pct fmt reports Es h1 ⟨?_, hn⟩, h2]
    · rfl
    · intro o ho
      obtain ⟨E, hE, rfl⟩ := List.mem_map.1 ho
      exact (h3 E hE).1
  · intro hn
    by_cases h4 : pages.length < 2
    · rw [if_pos h4]
      unfold Wordaccci.wordaccciMain
      rw [if_pos (by rw [← hp.length_eq]; exact h4)]; rfl
    · rw [if_neg h4]
      obtain ⟨D, e1, _⟩ := Wordaccci.process_eq h1 Wac.Wacdata.zero Ci.Obslist.empty
      unfold Wordaccci.wordaccciMain
      rw [if_neg (by rw [← hp.length_eq]; exact h4), e1, bind_ok]
      simp only
      unfold Ci.write_results
      rw [show Ci.compute_ci ((Es.map (fun E => (E.total.count, E.total.missed))).foldl (fun l o => Ci.append_obs l o.1 o.2) Ci.Obslist.empty) = _
        from (Ci.c47_error _).2 hn]
      rfl

/-! ## Non-vacuity -/

theorem sample_accuracy_report : ∃ R, AccuracyReport sampleUnicode Acc.samplePct (sampleText0, sampleText1) R := by
  obtain ⟨R, _, hR, _⟩ := c58_accuracy sampleUnicode sampleFacts Acc.samplePct Acc.samplePct_format [] sampleFs (ascii "accuracy")
    _ _ _ _ _ (sample_line [] "accuracy" (by decide +kernel)) (by simp) _ _ (by decide +kernel) (by decide +kernel) _ _ not_headed_a sample_a
    (.inl ⟨not_headed_b, sample_b⟩) (by decide +kernel) (by decide +kernel)
  exact ⟨R, [], _, _, _, _, _, sample_compares [] "accuracy" (by decide +kernel), hR⟩

def sampleWordPage : WordPage := ⟨["the", "cat", "sat", "on", "the", "mat"].map ascii,
  ["the", "mat", "cat", "sat", "on", "the", "hat"].map ascii, ["on", "the"].map ascii⟩

theorem sample_wordacc_report : ∃ R, WordaccReport sampleUnicode Word.wbProp some Acc.samplePct sampleWordPage R := by
  have hs : HasStopwords sampleUnicode Word.wbProp some sampleFs [⟨.value 0, ascii "s"⟩] (["on", "the"].map ascii) :=
    .inr ⟨ascii "s", ascii "On the", plain "on the", by simp, by decide +kernel, bytes_ascii (by decide +kernel), list_s, words_s⟩
  obtain ⟨R, _, _, _, hR, _⟩ := c59_wordacc sampleUnicode Word.wbProp some Acc.samplePct Acc.samplePct_format [] (by intro b hb; cases hb) 0
    sampleFs (ascii "wordacc") _ _ _ [] _ wordacc_line (by simp) _ _ (by decide +kernel) (by decide +kernel) _ _ not_headed_a page_a
    (.inl ⟨not_headed_b, page_b⟩) _ _ _ words_a words_b hs (by decide +kernel) (by decide +kernel) (by decide +kernel)
  exact ⟨R, [], 0, _, _, _, _, _, _, _, (by intro b hb; cases hb), ⟨_, _, _, _, _, wordacc_line, by simp, by decide +kernel, by decide +kernel,
      not_headed_a, page_a, .inl ⟨not_headed_b, page_b⟩⟩, words_a, words_b, hs, hR⟩

theorem sample_pages : ∃ p : List (List Ch × List Ch), p = [(sampleText0, sampleText1), (sampleText0, sampleText1)] ∧
    (∀ q ∈ p, ∀ c ∈ q.1, c.value ≠ 0x10FFFF) ∧ (∀ q ∈ p, q.1.length + q.2.length < 10^8) ∧
    (p.filter (fun p => decide (∃ c ∈ p.1, c.value ≠ 126))).length = 2 :=
  ⟨_, rfl, by decide +kernel, by decide +kernel, by decide +kernel⟩

/-- Two pages of 23 characters. -/
example : ∃ (fs : Fs) (m n : Int),
    accdistProgram Acc.samplePct fs [ascii "accdist", ascii "x", ascii "y"] = .ok ⟨none, Dist.survival Acc.samplePct [(23, m), (23, n)]⟩ ∧
    ∀ fmt, accciProgram Acc.samplePct fmt fs [ascii "accci", ascii "x", ascii "y"] =
      .ok ⟨none, Ci.results Acc.samplePct fmt (ascii "Characters") (ascii "Errors") [(23, m), (23, n)]⟩ := by
  obtain ⟨R, hR⟩ := sample_accuracy_report
  obtain ⟨pages, hp, h1, h2, h3⟩ := sample_pages
  subst hp
  have hF : List.Forall₂ (AccuracyReport sampleUnicode Acc.samplePct) [(sampleText0, sampleText1), (sampleText0, sampleText1)] [R, R] :=
    .cons hR (.cons hR .nil)
  have hlen : (((sampleText0, sampleText1).1.map Ch.value).filter (fun v => v ≠ 126)).length = 23 := by decide +kernel
  have key : ∀ obs, List.Forall₂ AccuracyFigures [(sampleText0, sampleText1), (sampleText0, sampleText1)] obs →
      ∃ d : Nat, obs = [(23, (d : Int)), (23, (d : Int))] ∧ IsEditDistance (sampleText0.map Ch.value) (sampleText1.map Ch.value) d := by
    intro obs h
    cases h with
    | cons a h =>
      cases h with
      | cons b h =>
        cases h
        rename_i o1 o2
        obtain ⟨d, e1, e2⟩ := a.errors (by decide +kernel)
        obtain ⟨d', e1', e2'⟩ := b.errors (by decide +kernel)
        have := edit_distance_unique e2 e2'
        subst this
        have c1 := a.characters; have c2 := b.characters
        rw [hlen] at c1 c2
        exact ⟨d, by rw [show o1 = (23, (d : Int)) from Prod.ext c1 e1, show o2 = (23, (d : Int)) from Prod.ext c2 e1'], e2⟩
  obtain ⟨obs, h4, h5⟩ := c65_accdist sampleUnicode sampleFacts Acc.samplePct Acc.samplePct Acc.samplePct_format (fun _ => some R)
    (ascii "accdist") _ _ _ (two_line "accdist" (by decide +kernel)) [R, R] _ (.cons rfl (.cons rfl .nil)) hF h1 h2
  obtain ⟨d, rfl, hd⟩ := key obs h4
  refine ⟨_, _, _, h5, ?_⟩
  intro fmt
  obtain ⟨obs, h6, h7⟩ := (c65_accci sampleUnicode sampleFacts Acc.samplePct Acc.samplePct Acc.samplePct_format fmt (fun _ => some R)
    (ascii "accci") _ _ _ (two_line "accci" (by decide +kernel)) [R, R] _ (.cons rfl (.cons rfl .nil)) hF h1 h2).1 (by rw [h3])
  obtain ⟨d', rfl, hd'⟩ := key obs h6
  rw [edit_distance_unique hd hd']
  exact h7

/-- Two pages of six words, five of them recognized. -/
example : ∃ (fs : Fs),
    wordaccdistProgram Acc.samplePct fs [ascii "wordaccdist", ascii "x", ascii "y"] =
      .ok ⟨none, Dist.survival Acc.samplePct [(6, 1), (6, 1)]⟩ ∧
    ∀ fmt, wordaccciProgram Acc.samplePct fmt fs [ascii "wordaccci", ascii "x", ascii "y"] =
      .ok ⟨none, Ci.results Acc.samplePct fmt (ascii "Words") (ascii "Misrecognized") [(6, 1), (6, 1)]⟩ := by
  obtain ⟨R, hR⟩ := sample_wordacc_report
  have hL : Wordacc.IsLCS (["the", "cat", "sat", "on", "the"].map ascii) sampleWordPage.correct sampleWordPage.generated := by
    refine ⟨by decide +kernel, by decide +kernel, ?_⟩
    intro d h1 h2
    by_contra hlt
    have hl := h1.length_le
    have : d = sampleWordPage.correct := h1.eq_of_length (by
      have e1 : (["the", "cat", "sat", "on", "the"].map ascii).length = 5 := by decide
      have e2 : sampleWordPage.correct.length = 6 := by decide
      omega)
    subst this
    revert h2
    decide +kernel
  have hcs : List.Forall₂ (fun (p : WordPage) c => Wordacc.IsLCS c p.correct p.generated) [sampleWordPage, sampleWordPage]
    [["the", "cat", "sat", "on", "the"].map ascii, ["the", "cat", "sat", "on", "the"].map ascii] := .cons hL (.cons hL .nil)
  have hm : ∀ p ∈ [sampleWordPage, sampleWordPage], Manageable p := by unfold Manageable; decide +kernel
  refine ⟨fun _ => some R, ?_, ?_⟩
  · exact c65_wordaccdist sampleUnicode Word.wbProp some Acc.samplePct Acc.samplePct Acc.samplePct_format _
      (ascii "wordaccdist") _ _ _ (two_line "wordaccdist" (by decide +kernel)) [R, R] [sampleWordPage, sampleWordPage]
      (.cons rfl (.cons rfl .nil)) (.cons hR (.cons hR .nil)) hm (by decide +kernel) _ hcs
  · intro fmt
    exact (c65_wordaccci sampleUnicode Word.wbProp some Acc.samplePct Acc.samplePct Acc.samplePct_format fmt _
      (ascii "wordaccci") _ _ _ (two_line "wordaccci" (by decide +kernel)) [R, R] [sampleWordPage, sampleWordPage]
      (.cons rfl (.cons rfl .nil)) (.cons hR (.cons hR .nil)) hm (by decide +kernel) _ hcs).1 (by decide +kernel)

end Ocr.Prog
