import Verif.Proof.Reports
import Verif.Props.Confusions

/-!
# C68: the reports, byte by byte
-/

namespace Ocr.Prog
open Text Res Spec Charclass

/-- C68 (classes).  The line of a report with the number `i` in the list of classes is about the characters whose class has the name given
there. -/
theorem c68_classes (v : Nat) (hv : v < 0x10FFFF) (i : Nat) : charclass v = .ok i ↔ classOrder[i]? = some (className v) := by
  obtain ⟨c, e1, _, e2⟩ := c15_class v hv
  have hc := charclass_lt e1
  have hn : classOrder[c]? = some (className v) := by
    rw [charclass_name_eq, if_pos hc] at e2
    have := Res.ok.inj e2
    rw [List.getD_eq_getElem?_getD, List.getElem?_eq_getElem hc] at this
    rw [List.getElem?_eq_getElem hc]
    exact congrArg some this
  rw [e1]
  refine ⟨?_, ?_⟩
  · intro h
    have := Res.ok.inj h
    subst this
    exact hn
  · intro h
    have hnd : classOrder.Nodup := by decide +kernel
    rw [(List.getElem?_inj hc hnd).1 (hn.trans h.symm)]

/-- C68 (accuracy).  Any report `accuracy` writes for two texts is this text, byte by byte, about figures that belong to an optimal
alignment of the texts.  The confusions are in order; every character of the correct text has a line, in the order of the code points. -/
theorem c68_accuracy (U : Unicode) (F : UnicodeFacts U) (pct : Int → Int → List Nat) (hpct : Acc.PctFormat pct) (p : List Ch × List Ch)
    (report : List Nat) (h : AccuracyReport U pct p report) (hlast : ∀ c ∈ p.1, c.value ≠ 0x10FFFF)
    (hl : p.1.length + p.2.length < 10^8) :
    ∃ D items confs chars, report = accuracyText U pct D confs chars ∧
      Sync.IsAlignment [p.1.map Ch.value, p.2.map Ch.value] items ∧
      (∃ d : Nat, Sync.cost items = d ∧ IsEditDistance (p.1.map Ch.value) (p.2.map Ch.value) d) ∧
      Acc.Consistent p.1 p.2 D ∧ Acc.Reported p.1 p.2 items D ∧
      Acc.IsConfusions U p.1 p.2 items confs ∧ confs.Pairwise ConfBefore ∧
      chars.Pairwise (· < ·) ∧ ∀ v, v ∈ chars ↔ v ∈ Acc.nonreject p.1 := by
  obtain ⟨i0, i1, D, e1, hR, e2⟩ := accuracy_bytes F hpct h hlast hl
  obtain ⟨D', items, e1', hA, hc, hr, hC⟩ := Acc.c67_confusions U F p.1 p.2 i0 i1
  have : D' = D := by rw [e1] at e1'; exact (Res.ok.inj e1').symm
  subst this
  obtain ⟨D'', e1'', hK⟩ := Acc.c21_consistent U p.1 p.2 i0 i1
  have : D'' = D' := by rw [e1] at e1''; exact (Res.ok.inj e1'').symm
  subst this
  obtain ⟨confs, chars, c1, c2, c3, c4, c5⟩ := Acc.layout (pct := pct) F D'' hR.nodup
    (fun c hc => by
      obtain ⟨s, e, _, h0, _⟩ := hR.conf_keys c hc
      rw [e]
      intro b hb hz
      subst hz
      simp at hb
      exact h0 hb)
    (fun c hc => by have := hR.confs c hc; omega)
    (fun i _ hi => by
      rw [hK.large] at hi
      obtain ⟨v, _, hv⟩ := List.countP_pos_iff.1 (by omega : 0 < (Acc.nonreject p.1).countP (fun v => charclass v = .ok i))
      exact charclass_lt (of_decide_eq_true hv))
  rw [e2] at c5
  refine ⟨D'', items, confs, chars, Res.ok.inj c5, hA, hc, hK, hr, Acc.conf_perm hC c1.symm, c2, c3, ?_⟩
  intro v
  rw [c4, hK.small, ← List.count_pos_iff]
  refine ⟨fun hv => by omega, fun hv => ⟨?_, by omega⟩⟩
  have hm := List.count_pos_iff.1 hv
  unfold Acc.nonreject at hm
  obtain ⟨c, hc, rfl⟩ := List.mem_map.1 (List.mem_filter.1 hm).1
  exact i0 c hc

/-- C68 (wordacc).  Any report `wordacc` writes for a page is this text, byte by byte, about the exact figures for a longest common
subsequence.  The words are in order. -/
theorem c68_wordacc (U : Unicode) (prop : Nat → Word.WB) (nfc : List Nat → Option (List Nat)) (pct : Int → Int → List Nat)
    (hpct : Acc.PctFormat pct) (p : WordPage) (report : List Nat) (h : WordaccReport U prop nfc pct p report) (hm : Manageable p)
    (hl : p.correct.length < 10^8) :
    ∃ flags D s1 s2, report = wordaccText pct D s1 s2 ∧ flags.length = p.correct.length ∧
      Wordacc.IsLCS (Wordacc.flagged p.correct flags) p.correct p.generated ∧
      Wordacc.Exact (fun w => decide (w ∈ p.stops)) (p.correct.zip flags) D ∧
      s1.Perm D.stopword_table ∧ s1.Pairwise (fun x y => x.key < y.key) ∧
      s2.Perm D.non_stopword_table ∧ s2.Pairwise (fun x y => x.key < y.key) := by
  obtain ⟨flags, D, hf, hL, hD, hb, hR, e⟩ := wordacc_bytes hpct h hm hl
  have nul : ∀ t, Wac.TableFits t → Wac.NulTable t := by
    intro t ht c hc b hb hz
    subst hz
    exact (ht.keys c hc).2.1 hb
  obtain ⟨s1, s2, a1, a2, b1, b2, e'⟩ := Wac.layout (pct := pct) D hR.table1.nodup hR.table2.nodup (nul _ hR.table1) (nul _ hR.table2)
  rw [e] at e'
  exact ⟨flags, D, s1, s2, Res.ok.inj e', hf, hL, hD, a1, a2, b1, b2⟩

/-- C68 (editop).  Any report `editop` writes for two texts is this text, byte by byte. -/
theorem c68_editop (U : Unicode) (p : List Ch × List Ch) (report : List Nat) (h : EditopReport U p report)
    (hl : p.1.length + p.2.length < 2^62) :
    ∃ D, report = editopText D ∧ Edo.editop (p.1.map Ch.value) (p.2.map Ch.value) = .ok D ∧ D.Balanced ∧
      D.total_insertions = (((p.1.map Ch.value).filter (fun c => c ≠ 126)).diff (p.2.map Ch.value)).length ∧
      D.total_deletions = ((p.2.map Ch.value).diff ((p.1.map Ch.value).filter (fun c => c ≠ 126))).length := by
  obtain ⟨D, e, e1, hw, h6, h7⟩ := editop_bytes h hl
  exact ⟨D, by rw [e1, Edo.layout], e, hw.balanced, h6, h7⟩

/-- C68 (accsum).  For any files `accsum` can read, the output is the text of a report about the sum, byte by byte, if no confusion has been
counted 2^31 times or more. -/
theorem c68_accsum (U : Unicode) (F : UnicodeFacts U) (pct : Int → Int → List Nat) (files : List (List Nat)) (Es : List Acc.Accdata)
    (h : List.Forall₂ (fun f E => Acc.read_accrpt Acc.Accdata.zero f = .ok E) files Es) (h2 : 2 ≤ files.length)
    (hi : ∀ k, 0 ≤ (Es.map (Acc.confErrors k)).sum ∧ (Es.map (Acc.confErrors k)).sum < 2^31 ∧
      0 ≤ (Es.map (Acc.confMarked k)).sum ∧ (Es.map (Acc.confMarked k)).sum < 2^31) :
    ∃ D confs chars, Acc.accsum U pct files = .ok (accuracyText U pct D confs chars) ∧ Acc.IsSum Es D ∧ confs.Perm D.conftable ∧
      confs.Pairwise ConfBefore ∧ chars.Pairwise (· < ·) ∧ ∀ v, v ∈ chars ↔ v < 0x10FFFF ∧ 0 < (D.small_class v).count := by
  obtain ⟨D, h1, hs⟩ := Acc.readAll_spec h Acc.Accdata.zero (by simp [Acc.Accdata.zero])
  have hs := hs.of_zero
  have hn := Acc.readAll_nul files _ _ h1 (by intro c hc; simp [Acc.Accdata.zero] at hc)
  have hk := Acc.readAll_known files _ _ h1 (by intro i _; rfl)
  obtain ⟨confs, chars, c1, c2, c3, c4, c5⟩ := Acc.layout (pct := pct) F D hs.nodup hn
    (fun c hc => by
      have := hi c.key
      rw [← (hs.conf c.key).1, ← (hs.conf c.key).2,
        show Acc.confErrors c.key D = c.errors from Store.sum_key_mem Conf.key Conf.errors hs.nodup hc,
        show Acc.confMarked c.key D = c.marked from Store.sum_key_mem Conf.key Conf.marked hs.nodup hc] at this
      exact this)
    (fun i _ hc => by
      by_contra hlt
      rw [hk i (by omega)] at hc
      simp at hc)
  refine ⟨D, confs, chars, ?_, hs, c1, c2, c3, c4⟩
  unfold Acc.accsum
  rw [if_neg (by omega), h1, bind_ok, c5]

/-- C68 (wordaccsum).  For any files `wordaccsum` can read, the output is the text of a report about the sum, byte by byte. -/
theorem c68_wordaccsum (pct : Int → Int → List Nat) (files : List (List Nat)) (Es : List Wac.Wacdata)
    (h : List.Forall₂ (fun f E => Wac.read_wacrpt Wac.Wacdata.zero f = .ok E) files Es) (h2 : 2 ≤ files.length) :
    ∃ D s1 s2, Wac.wordaccsum pct files = .ok (wordaccText pct D s1 s2) ∧ Wac.IsSum Es D ∧
      s1.Perm D.stopword_table ∧ s1.Pairwise (fun x y => x.key < y.key) ∧
      s2.Perm D.non_stopword_table ∧ s2.Pairwise (fun x y => x.key < y.key) := by
  obtain ⟨D, h1, hs⟩ := Wac.readAll_spec h Wac.Wacdata.zero (by simp [Wac.Wacdata.zero]) (by simp [Wac.Wacdata.zero])
  have hs := hs.of_zero
  have hn := Wac.readAll_nul files _ _ h1 (by intro c hc; simp [Wac.Wacdata.zero] at hc) (by intro c hc; simp [Wac.Wacdata.zero] at hc)
  obtain ⟨s1, s2, a1, a2, b1, b2, e⟩ := Wac.layout (pct := pct) D hs.table1.nodup hs.table2.nodup hn.1 hn.2
  refine ⟨D, s1, s2, ?_, hs, a1, a2, b1, b2⟩
  unfold Wac.wordaccsum
  rw [if_neg (by omega), h1, bind_ok, e]

/-- C68 (editopsum).  For any files `editopsum` can read, the output is the text of a report about the sum, byte by byte. -/
theorem c68_editopsum (files : List (List Nat)) (Es : List Edo.Edodata)
    (h : List.Forall₂ (fun f E => Edo.read_edorpt Edo.Edodata.zero f = .ok E) files Es) (h2 : 2 ≤ files.length) :
    Edo.editopsum files = .ok (editopText (Edo.Edodata.total Es)) := by
  rw [Edo.c27_sum files Es h h2, Edo.layout]

/-! ## Non-vacuity -/

/-- The letters from "a" to "z" are counted in the line number 6. -/
example : charclass 97 = .ok 6 ∧ charclass 122 = .ok 6 ∧ classOrder[6]? = some "ASCII Lowercase Letters" :=
  ⟨(c68_classes 97 (by omega) 6).2 (by decide +kernel), (c68_classes 122 (by omega) 6).2 (by decide +kernel), by decide +kernel⟩

/-- A report with four deletions and a move of three characters. -/
example : editopText ⟨0, 4, 1, fun i => if i = 3 then 1 else 0⟩ = ascii
    ("ocreval Edit Operation Report Version 7.0\n-----------------------------------------\n" ++
     "       0   Insertions\n       4   Deletions\n       1   Moves\n\nMoves\n   Count   Length\n       1        3\n") := by decide +kernel

/-- The report of `editop` for the sample page is this report. -/
example : ∃ R D, EditopReport sampleUnicode (sampleText0, sampleText1) R ∧ R = editopText D ∧ D.total_deletions = 4 ∧ D.total_insertions = 0 := by
  have run : EditopReport sampleUnicode (sampleText0, sampleText1) (Edo.write_edorpt ⟨0, 4, 1, fun i => if i = 3 then 1 else 0⟩) :=
    ⟨[], _, _, _, _, some (ascii "report"), sample_compares [(68, .flag 0)] "editop" (by decide +kernel), by decide +kernel⟩
  obtain ⟨D, e, _, _, h1, h2⟩ := c68_editop sampleUnicode _ _ run (by decide +kernel)
  exact ⟨_, D, run, e, by rw [h2]; decide +kernel, by rw [h1]; decide +kernel⟩

/-- Two of these reports together. -/
example : Edo.editopsum [editopText ⟨0, 4, 1, fun i => if i = 3 then 1 else 0⟩, editopText ⟨2, 0, 0, fun _ => 0⟩] = .ok (ascii
    ("ocreval Edit Operation Report Version 7.0\n-----------------------------------------\n" ++
     "       2   Insertions\n       4   Deletions\n       1   Moves\n\nMoves\n   Count   Length\n       1        3\n")) := by
  have r1 : Edo.read_edorpt Edo.Edodata.zero (editopText ⟨0, 4, 1, fun i => if i = 3 then 1 else 0⟩) = .ok ⟨0, 4, 1, fun i => if i = 3 then 1 else 0⟩ := by
    rw [← Edo.layout]
    refine Edo.c26_round_trip _ ⟨by unfold Report.IsLong; decide, fun i => ?_, fun i => ?_, fun _ => by decide⟩
    · simp only [Report.IsLong]; split <;> omega
    · simp only; split <;> omega
  have r2 : Edo.read_edorpt Edo.Edodata.zero (editopText ⟨2, 0, 0, fun _ => 0⟩) = .ok ⟨2, 0, 0, fun _ => 0⟩ := by
    rw [← Edo.layout]
    exact Edo.c26_round_trip _ ⟨by unfold Report.IsLong; decide, fun i => by simp [Report.IsLong], fun i => by simp, fun h => by simp at h⟩
  rw [c68_editopsum _ _ (.cons r1 (.cons r2 .nil)) (by simp)]
  decide +kernel

/-- The report of the sample page begins like this. -/
example : ∃ R D confs chars rest, AccuracyReport sampleUnicode Acc.samplePct (sampleText0, sampleText1) R ∧
    R = accuracyText sampleUnicode Acc.samplePct D confs chars ∧
    R = ascii "ocreval Accuracy Report Version 7.0\n-----------------------------------\n      23   Characters\n" ++ rest ∧ chars = [10, 32, 46, 84, 97, 99, 101, 104, 109, 110, 111, 115, 116] := by
  obtain ⟨R, hR⟩ := sample_accuracy_report
  obtain ⟨D, items, confs, chars, e, _, _, hC, _, _, _, h1, h2⟩ := c68_accuracy sampleUnicode sampleFacts Acc.samplePct Acc.samplePct_format _ R hR
    (by decide +kernel) (by decide +kernel)
  have hc : D.characters = 23 := by rw [hC.characters]; decide +kernel
  have hd : ascii "ocreval Accuracy Report Version 7.0\n-----------------------------------\n      23   Characters\n" =
      ascii "ocreval Accuracy Report Version 7.0\n" ++ ascii "-----------------------------------\n" ++ row [num 23] (ascii "Characters") := by
    decide +kernel
  have hch : chars = [10, 32, 46, 84, 97, 99, 101, 104, 109, 110, 111, 115, 116] := by
    refine List.Perm.eq_of_pairwise (le := (· < ·)) (fun a b _ _ x y => by omega) h1 (by decide) ?_
    refine (List.perm_ext_iff_of_nodup (h1.imp (fun h => by omega)) (by decide)).2 (fun v => (h2 v).trans ?_)
    have : Acc.nonreject sampleText0 = sampleText0.map Ch.value := by decide +kernel
    rw [this]
    have e1 : ∀ v ∈ sampleText0.map Ch.value, v ∈ [10, 32, 46, 84, 97, 99, 101, 104, 109, 110, 111, 115, 116] := by decide +kernel
    have e2 : ∀ v ∈ [10, 32, 46, 84, 97, 99, 101, 104, 109, 110, 111, 115, 116], v ∈ sampleText0.map Ch.value := by decide +kernel
    exact ⟨e1 v, e2 v⟩
  have hrest : ∃ rest, R = ascii "ocreval Accuracy Report Version 7.0\n-----------------------------------\n      23   Characters\n" ++ rest := by
    rw [e, hd]
    unfold accuracyText
    rw [hc]
    simp only [List.append_assoc]
    exact ⟨_, rfl⟩
  obtain ⟨rest, h⟩ := hrest
  exact ⟨R, D, confs, chars, rest, hR, e, h, hch⟩

/-- Two of these reports, read by `accsum`. -/
example : ∃ R D confs chars, Acc.accsum sampleUnicode Acc.samplePct [R, R] = .ok (accuracyText sampleUnicode Acc.samplePct D confs chars) ∧
    D.characters = 46 := by
  obtain ⟨R, hR⟩ := sample_accuracy_report
  obtain ⟨E, e, hB, hC, _⟩ := accuracy_report sampleFacts Acc.samplePct_format hR (by decide +kernel) (by decide +kernel)
  have hlen : (sampleText0, sampleText1).1.length + (sampleText0, sampleText1).2.length = 50 := by decide +kernel
  rw [hlen] at hB
  obtain ⟨D, confs, chars, e1, hs, _⟩ := c68_accsum sampleUnicode sampleFacts Acc.samplePct [R, R] [E, E] (.cons e (.cons e .nil)) (by simp)
    (fun k => by have := hB.conf k; simp; omega)
  refine ⟨R, D, confs, chars, e1, ?_⟩
  have h23 : E.characters = 23 := by rw [hC.characters]; decide +kernel
  rw [hs.characters]
  simp [h23]

/-- The words of the sample page, alone and twice. -/
example : ∃ R D s1 s2, WordaccReport sampleUnicode Word.wbProp some Acc.samplePct sampleWordPage R ∧ R = wordaccText Acc.samplePct D s1 s2 ∧
    D.total.count = 6 ∧ s1.map Term.key = [ascii "on", ascii "the"] ∧
    ∃ D' s1' s2', Wac.wordaccsum Acc.samplePct [R, R] = .ok (wordaccText Acc.samplePct D' s1' s2') ∧ D'.total.count = 12 := by
  obtain ⟨R, hR⟩ := sample_wordacc_report
  have hm : Manageable sampleWordPage := by unfold Manageable; decide +kernel
  obtain ⟨flags, D, s1, s2, e, hf, hL, hD, p1, q1, p2, q2⟩ := c68_wordacc sampleUnicode Word.wbProp some Acc.samplePct Acc.samplePct_format
    sampleWordPage R hR hm (by decide +kernel)
  obtain ⟨flags', D', E, hf', _, hD', _, r, hS⟩ := wordacc_report Acc.samplePct_format hR hm (by decide +kernel)
  have hl : sampleWordPage.correct.length = 6 := by decide +kernel
  have total : ∀ (fl : List Bool) (D : Wac.Wacdata), fl.length = sampleWordPage.correct.length →
      Wordacc.Exact (fun w => decide (w ∈ sampleWordPage.stops)) (sampleWordPage.correct.zip fl) D → D.total.count = 6 := by
    intro fl D hfl hx
    rw [hx.total]
    simp only [Wordacc.tally, List.countP_true, List.length_zip, hfl, hl]
    rfl
  have hk : s1.map Term.key = [ascii "on", ascii "the"] := by
    have q : (s1.map Term.key).Pairwise (· < ·) := List.pairwise_map.2 q1
    have w : (sampleWordPage.correct.zip flags).map (fun x => x.1) = sampleWordPage.correct := List.map_fst_zip (by omega)
    refine List.Perm.eq_of_pairwise (le := (· < ·)) (fun a b _ _ x y => absurd y (List.lt_asymm x)) q (by decide +kernel) ?_
    refine (List.perm_ext_iff_of_nodup (q.imp (fun h => by rintro rfl; exact List.lt_irrefl _ h)) (by decide +kernel)).2 (fun v => ?_)
    rw [(p1.map Term.key).mem_iff, hD.table1.keys, w]
    have e1 : ∀ v ∈ sampleWordPage.correct, decide (v ∈ sampleWordPage.stops) = true → v ∈ [ascii "on", ascii "the"] := by decide +kernel
    have e2 : ∀ v ∈ [ascii "on", ascii "the"], v ∈ sampleWordPage.correct ∧ decide (v ∈ sampleWordPage.stops) = true := by decide +kernel
    exact ⟨fun h => e1 v h.1 h.2, e2 v⟩
  obtain ⟨T, t1, t2, h1, hs, _⟩ := c68_wordaccsum Acc.samplePct [R, R] [E, E] (.cons r (.cons r .nil)) (by simp)
  refine ⟨R, D, s1, s2, hR, e, total _ _ hf hD, hk, T, t1, t2, h1, ?_⟩
  have hE : E.total = D'.total := by rw [hS.1]
  rw [hs.total]
  simp [Wac.sumWac, hE, total _ _ hf' hD']

end Ocr.Prog
