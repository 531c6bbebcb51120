import Verif.Proof.World
import Verif.Props.Pipelines
import Verif.Props.Process

/-!
# C97: which files a program changes
-/

namespace Ocr.Disk
open Text Prog Process Spec

/-- The result of a program that prints nothing before its output. -/
def alone (o : Output) : List Nat × Output := ([], o)

/-- The result of a program that prints on `stdout` only. -/
def onStdout (bytes : List Nat) : List Nat × Output := ([], ⟨none, bytes⟩)

attribute [local irreducible] Follows Runs

section
variable (errmsg : List Nat) (creatable : List Nat → Bool) (U : Unicode) (prop : Nat → Word.WB)
  (nfc : List Nat → Option (List Nat)) (pct : Int → Int → List Nat) (junk : List Nat) (junk' : Nat) (signed negative : Bool)
  (argv : List (List Nat)) (w : World)

/-- C97 (no name).  Without a name everything is read from `stdin`, and output goes to `stdout`; no file changes. -/
theorem c97_unnamed (exec bytes : List Nat) :
    (∃ w', (open_file exec creatable none false >>= getAll) w = .ok w.input w' ∧ w'.files = w.files ∧ w'.input = [] ∧ w'.out = w.out) ∧
    (∃ w', (open_file exec creatable none true >>= fun f => put f bytes) w = .ok () w' ∧ w'.files = w.files ∧ w'.input = w.input ∧
      w'.out = w.out ++ bytes) :=
  ⟨⟨_, rfl, rfl, rfl, rfl⟩, ⟨_, rfl, rfl, rfl, rfl⟩⟩

/-- C97 (programs with an output file).  The report is that for the files as they were before the program, even if the report file is one
of them; no other file changes; if the program ends with a message no file has changed. -/
theorem c97_reports (hw : Fresh w) :
    Runs id w ((Process.editop errmsg creatable U junk w.files).run argv) ((editop errmsg creatable U junk).run argv w) ∧
    Runs alone w ((Process.wordacc errmsg creatable U prop nfc pct junk junk' w.files).run argv)
      ((wordacc errmsg creatable U prop nfc pct junk junk').run argv w) ∧
    Runs alone w ((Process.groupacc errmsg creatable U pct junk w.files).run argv) ((groupacc errmsg creatable U pct junk).run argv w) := by
  refine ⟨?_, ?_, ?_⟩
  · refine runs_program (P := Process.editop errmsg creatable U junk) (Q := editop errmsg creatable U junk) (fun _ => rfl) (fun _ => rfl)
      (fun exec names V => ?_) argv w hw
    dsimp only [Process.editop, editop]
    split
    · exact runs_error exec _
    · refine (reads_readPair exec errmsg U junk names).runs (fun p => (reads_say _).runs (fun q => ?_))
      exact runs_write (view := id) exec errmsg creatable names[2]? (.ok (Edo.write_edorpt q.1)) q.2 (fun b => (q.2, ⟨names[2]?, b⟩))
        (fun _ => rfl) (fun _ => Mild.ok _)
  · refine runs_program (P := Process.wordacc errmsg creatable U prop nfc pct junk junk')
      (Q := wordacc errmsg creatable U prop nfc pct junk junk') (fun _ => rfl) (fun _ => rfl) (fun exec names V => ?_) argv w hw
    dsimp only [Process.wordacc, wordacc]
    split
    · exact runs_error exec _
    · refine (reads_initStopwords exec errmsg U prop nfc junk junk' _).runs (fun S =>
        (reads_readWords exec errmsg U prop nfc junk junk' names).runs (fun p => (reads_say _).runs (fun D => ?_)))
      exact runs_output exec errmsg creatable names[2]? _ _ (fun _ => rfl) (fun _ => mild_wacrpt pct D)
  · refine runs_program (P := Process.groupacc errmsg creatable U pct junk) (Q := groupacc errmsg creatable U pct junk) (fun _ => rfl)
      (fun _ => rfl) (fun exec names V => ?_) argv w hw
    dsimp only [Process.groupacc, groupacc]
    split
    · exact runs_error exec _
    · refine (reads_say _).runs (fun name0 => (reads_readFile exec errmsg U junk name0 _).runs (fun p => (reads_say _).runs (fun name1 => ?_)))
      refine runs_withFile exec name1 _ (fun D => ?_)
      exact runs_output exec errmsg creatable names[2]? _ _ (fun _ => rfl) (fun _ => mild_group U pct p.1 D)

/-- C97 (programs whose output may fail).  The same for `accuracy` and `vote`: the characters of a text that was read can be written. -/
theorem c97_texts (hfs : ∀ name file, w.files name = some file → Bytes file) (F : UnicodeFacts U) (hj : Bytes junk) (hw : Fresh w) :
    Runs alone w ((Process.accuracy errmsg creatable U pct junk w.files).run argv) ((accuracy errmsg creatable U pct junk).run argv w) ∧
    Runs id w ((Process.vote errmsg creatable U signed junk w.files).run argv) ((vote errmsg creatable U signed junk).run argv w) := by
  refine ⟨?_, ?_⟩
  · refine runs_started (P := Process.accuracy errmsg creatable U pct junk w.files) (Q := accuracy errmsg creatable U pct junk) rfl rfl hw
      (fun exec names V w1 hq1 hw1 => ?_) argv
    dsimp only [Process.accuracy, accuracy]
    split
    · exact runs_error exec _ w1 hw1
    · rename_i hn
      rw [← hq1] at hfs ⊢
      refine runs_bind (reads_readPair exec errmsg U junk names w1 hw1) ?_
      rintro ⟨t0, t1⟩ e w2 h2 hq2
      obtain ⟨v0, v1⟩ := pair_values hj hfs hn h2
      refine runs_bind (follows_say _ w2) (fun D e w3 h3 hq3 => ?_)
      exact runs_output exec errmsg creatable names[2]? _ _ (fun _ => rfl)
        (fun _ => mild_accrpt F pct v0 v1 (agreed (agrees_plain _) h3)) w3 (hq3.fresh (hq2.fresh hw1))
  · refine runs_started (P := Process.vote errmsg creatable U signed junk w.files) (Q := vote errmsg creatable U signed junk) rfl rfl hw
      (fun exec names V w1 hq1 hw1 => ?_) argv
    dsimp only [Process.vote, vote]
    split
    · exact runs_error exec _ w1 hw1
    · rename_i hn
      rw [← hq1] at hfs ⊢
      refine runs_bind (reads_forTexts exec errmsg _ names _ w1 hw1) ?_
      rintro ⟨o, texts⟩ e w2 h2 hq2
      have hv : ∀ t ∈ texts, ∀ c ∈ t, c.value < 0x110000 := by
        have h := agreed (agrees_forTexts w1.files _ names _) h2
        rcases Ending.voters_give U hj hfs names false [] _ rfl with ⟨opt, ts, hr, ef⟩ | ⟨_, msg, ef⟩
        · rw [show Vote.textopt = { Spec.pageText false with found_header := false } from rfl, ef] at h
          cases h
          intro t ht
          obtain ⟨name, file, h1, h2⟩ := Ending.allRead_mem hr t (by simpa using ht)
          exact Ending.textOf_value (hfs _ _ h1) h2
        · rw [show Vote.textopt = { Spec.pageText false with found_header := false } from rfl, ef] at h
          cases h
      refine runs_bind (follows_say _ w2) (fun cfg e w3 h3 hq3 => ?_)
      have hc := agreed (agrees_validate (errmsg := errmsg) signed _ _ _ _ hn) h3
      have hact : 2 ≤ cfg.actual_voters ∧ cfg.actual_voters ≤ 16 := by
        unfold Vote.validate_args at hc
        rw [if_neg hn] at hc
        obtain ⟨_, _, hc⟩ := Res.bind_eq_ok.1 hc
        obtain ⟨_, _, hc⟩ := Res.bind_eq_ok.1 hc
        cases hc
        unfold Vote.MIN_VOTERS Vote.MAX_VOTERS at hn
        dsimp only
        split <;> omega
      refine runs_bind (follows_say _ w3) ?_
      rintro ⟨output, out⟩ e w4 h4 hq4
      refine runs_write (view := id) exec errmsg creatable (V.string 0) _ out (fun b => (out, ⟨V.string 0, b⟩)) (fun _ => rfl) (fun _ => ?_) w4
        (hq4.fresh (hq3.fresh (hq2.fresh hw1)))
      exact mild_text U output (vote_values U _ _ cfg names texts hv hact.1 hact.2 output out (agreed (agrees_plain _) h4))

/-- C97 (their output).  Whatever the files hold, a run of `accuracy` or `vote` that produces output changes the output file only. -/
theorem c97_output (hw : Fresh w) :
    Produces alone w ((Process.accuracy errmsg creatable U pct junk w.files).run argv) ((accuracy errmsg creatable U pct junk).run argv w) ∧
    Produces id w ((Process.vote errmsg creatable U signed junk w.files).run argv) ((vote errmsg creatable U signed junk).run argv w) := by
  refine ⟨?_, ?_⟩
  · refine produces_program (P := Process.accuracy errmsg creatable U pct junk) (Q := accuracy errmsg creatable U pct junk) (fun _ => rfl)
      (fun _ => rfl) (fun exec names V => ?_) argv w hw
    dsimp only [Process.accuracy, accuracy]
    split
    · exact produces_error exec _
    · refine (reads_readPair exec errmsg U junk names).produces (fun p => (reads_say _).produces (fun D => ?_))
      exact produces_output exec errmsg creatable names[2]? _ _ (fun _ => rfl)
  · refine produces_program (P := Process.vote errmsg creatable U signed junk) (Q := vote errmsg creatable U signed junk) (fun _ => rfl)
      (fun _ => rfl) (fun exec names V => ?_) argv w hw
    dsimp only [Process.vote, vote]
    split
    · exact produces_error exec _
    · refine (reads_forTexts exec errmsg _ names _).produces ?_
      rintro ⟨o, texts⟩
      refine (reads_say _).produces (fun cfg => (reads_say _).produces ?_)
      rintro ⟨output, out⟩
      exact produces_write (view := id) exec errmsg creatable (V.string 0) _ out (fun b => (out, ⟨V.string 0, b⟩)) (fun _ => rfl)

/-- C97 (programs that print on `stdout`).  They change no file. -/
theorem c97_stdout (hw : Fresh w) :
    Runs onStdout w ((Process.synctext errmsg U junk w.files).run argv) ((synctext errmsg U junk).run argv w) ∧
    Runs alone w ((Process.ngram errmsg U signed junk w.files).run argv) ((ngram errmsg U signed junk).run argv w) ∧
    Runs alone w ((Process.wordfreq errmsg U prop nfc junk junk' w.files).run argv) ((wordfreq errmsg U prop nfc junk junk').run argv w) ∧
    Runs alone w ((Process.accsum errmsg U pct w.files).run argv) ((accsum errmsg U pct).run argv w) ∧
    Runs alone w ((Process.wordaccsum errmsg pct w.files).run argv) ((wordaccsum errmsg pct).run argv w) ∧
    Runs alone w ((Process.editopsum w.files).run argv) ((editopsum errmsg).run argv w) ∧
    Runs alone w ((Process.editopcost w.files).run argv) (editopcost.run argv w) ∧
    Runs alone w ((Process.accdist negative w.files).run argv) ((accdist errmsg negative).run argv w) ∧
    Runs alone w ((Process.wordaccdist negative w.files).run argv) ((wordaccdist errmsg negative).run argv w) ∧
    Runs alone w ((Process.accci errmsg negative w.files).run argv) ((accci errmsg negative).run argv w) ∧
    Runs alone w ((Process.wordaccci errmsg negative w.files).run argv) ((wordaccci errmsg negative).run argv w) ∧
    Runs alone w ((Process.nonstopacc errmsg U prop nfc pct junk junk' w.files).run argv)
      ((nonstopacc errmsg U prop nfc pct junk junk').run argv w) := by
  refine ⟨?_, ?_, ?_, ?_, ?_, ?_, ?_, ?_, ?_, ?_, ?_, ?_⟩
  · refine runs_program (P := Process.synctext errmsg U junk) (Q := synctext errmsg U junk) (fun _ => rfl) (fun _ => rfl)
      (fun exec names V => ?_) argv w hw
    dsimp only [Process.synctext, synctext]
    split
    · exact runs_error exec _
    · refine (reads_readTexts exec errmsg U junk names _).runs (fun texts => (reads_say _).runs (fun t0 => (reads_say _).runs (fun t1 => ?_)))
      split
      · exact (reads_say _).runs (fun r => (reads_say _).runs (fun o1 => (reads_say _).runs (fun o2 => runs_put _ _ rfl)))
      · exact (reads_say _).runs (fun r => (reads_say _).runs (fun o1 => (reads_say _).runs (fun o2 => runs_put _ _ rfl)))
  · refine runs_program (P := Process.ngram errmsg U signed junk) (Q := ngram errmsg U signed junk) (fun _ => rfl) (fun _ => rfl)
      (fun exec names V => ?_) argv w hw
    dsimp only [Process.ngram, ngram]
    split
    · exact runs_error exec _
    · refine (reads_say _).runs (fun n => (reads_forTexts exec errmsg _ names _).runs ?_)
      rintro ⟨o, t⟩
      exact (reads_say _).runs (fun b => runs_put _ _ rfl)
  · refine runs_program (P := Process.wordfreq errmsg U prop nfc junk junk') (Q := wordfreq errmsg U prop nfc junk junk') (fun _ => rfl)
      (fun _ => rfl) (fun exec names V => ?_) argv w hw
    dsimp only [Process.wordfreq, wordfreq]
    split
    · exact runs_error exec _
    · refine (reads_forTexts exec errmsg _ names _).runs ?_
      rintro ⟨o, t⟩
      exact (reads_say _).runs (fun b => runs_put _ _ rfl)
  · refine runs_program (P := Process.accsum errmsg U pct) (Q := accsum errmsg U pct) (fun _ => rfl) (fun _ => rfl)
      (fun exec names V => ?_) argv w hw
    dsimp only [Process.accsum, accsum]
    split
    · exact runs_error exec _
    · exact (reads_forReports exec _ names _).runs (fun D => runs_stdout exec errmsg _ _ _ (fun _ => rfl))
  · refine runs_program (P := Process.wordaccsum errmsg pct) (Q := wordaccsum errmsg pct) (fun _ => rfl) (fun _ => rfl)
      (fun exec names V => ?_) argv w hw
    dsimp only [Process.wordaccsum, wordaccsum]
    split
    · exact runs_error exec _
    · exact (reads_forReports exec _ names _).runs (fun D => runs_stdout exec errmsg _ _ _ (fun _ => rfl))
  · refine runs_program (P := Process.editopsum) (Q := editopsum errmsg) (fun _ => rfl) (fun _ => rfl) (fun exec names V => ?_) argv w hw
    dsimp only [Process.editopsum, editopsum]
    split
    · exact runs_error exec _
    · exact (reads_forReports exec _ names _).runs (fun D => 
        runs_stdout (view := alone) exec errmsg _ (.ok (Edo.write_edorpt D)) (fun b => ⟨none, b⟩) (fun _ => rfl))
  · refine runs_program (P := Process.editopcost) (Q := editopcost) (fun _ => rfl) (fun _ => rfl) (fun exec names V => ?_) argv w hw
    dsimp only [Process.editopcost, editopcost]
    split
    · exact runs_error exec _
    · refine (reads_say _).runs (fun name0 => runs_withFile exec name0 _ (fun D => Reads.runs ?_ (fun D => runs_put _ _ rfl)))
      split
      · refine (reads_say _).bind (fun name1 => ?_)
        have := (reads_withFile exec name1 (fun file => about exec name1 (Edo.read_edorpt Edo.Edodata.zero file))).bind
          (f := fun _ D2 => pure (Edo.decrement_edodata D D2)) (g := fun D2 => pure (Edo.decrement_edodata D D2)) (fun D2 => reads_pure _)
        simpa only [obind_assoc] using this
      · exact reads_pure _
  · refine runs_program (P := Process.accdist negative) (Q := accdist errmsg negative) (fun _ => rfl) (fun _ => rfl)
      (fun exec names V => ?_) argv w hw
    dsimp only [Process.accdist, accdist]
    exact (reads_forReports exec _ names _).runs (fun D => 
        runs_stdout (view := alone) exec errmsg _ (.ok (Dist.write_dist (Fp.pctText negative 6) D.2)) (fun b => ⟨none, b⟩) (fun _ => rfl))
  · refine runs_program (P := Process.wordaccdist negative) (Q := wordaccdist errmsg negative) (fun _ => rfl) (fun _ => rfl)
      (fun exec names V => ?_) argv w hw
    dsimp only [Process.wordaccdist, wordaccdist]
    exact (reads_forReports exec _ names _).runs (fun D => 
        runs_stdout (view := alone) exec errmsg _ (.ok (Dist.write_dist (Fp.pctText negative 6) D.2)) (fun b => ⟨none, b⟩) (fun _ => rfl))
  · refine runs_program (P := Process.accci errmsg negative) (Q := accci errmsg negative) (fun _ => rfl) (fun _ => rfl)
      (fun exec names V => ?_) argv w hw
    dsimp only [Process.accci, accci]
    split
    · exact runs_error exec _
    · exact (reads_forReports exec _ names _).runs (fun D => (reads_say _).runs (fun b => runs_put _ _ rfl))
  · refine runs_program (P := Process.wordaccci errmsg negative) (Q := wordaccci errmsg negative) (fun _ => rfl) (fun _ => rfl)
      (fun exec names V => ?_) argv w hw
    dsimp only [Process.wordaccci, wordaccci]
    split
    · exact runs_error exec _
    · exact (reads_forReports exec _ names _).runs (fun D => (reads_say _).runs (fun b => runs_put _ _ rfl))
  · refine runs_program (P := Process.nonstopacc errmsg U prop nfc pct junk junk') (Q := nonstopacc errmsg U prop nfc pct junk junk')
      (fun _ => rfl) (fun _ => rfl) (fun exec names V => ?_) argv w hw
    dsimp only [Process.nonstopacc, nonstopacc]
    split
    · exact runs_error exec _
    · refine (reads_say _).runs (fun name0 => (reads_readFile exec errmsg U junk name0 _).runs (fun p => (reads_say _).runs (fun ws =>
        (reads_say _).runs (fun name1 => runs_withFile exec name1 _ (fun D => ?_)))))
      exact (reads_say _).runs (fun b => runs_put _ _ rfl)

end

/-! ## A batch of pages -/

theorem base_of_line {prog : List Nat} {args ops : List (List Nat)} {ss : List Args.Setting} (h : CommandLine [] prog args ops ss) :
    ∃ exec, Args.basefilename prog = .ok exec := by
  obtain ⟨b, V, e⟩ := init_none h
  unfold Args.initialize_ at e
  obtain ⟨path, h1, e⟩ := Res.bind_eq_ok.1 e
  obtain ⟨exec, h2, e⟩ := Res.bind_eq_ok.1 e
  cases h1
  exact ⟨exec, h2⟩

theorem ends_ok {α : Type} {exec errmsg usage : List Nat} {o : Out α} {a : α} (h : EndsLike exec errmsg usage o (.ok a)) :
    ∃ e, o = .ok e a := by
  rcases h with ⟨_, h⟩ | h
  · cases h
  · cases h with
    | ok ws a => exact ⟨_, rfl⟩

section
variable (errmsg : List Nat) (creatable : List Nat → Bool) (hcr : ∀ n, creatable n = true) (U : Unicode) (F : UnicodeFacts U)
  (pct : Int → Int → List Nat) (hpct : Acc.PctFormat pct) (junk : List Nat)
include hcr F hpct

/-- The reports after a batch. -/
theorem batch_accuracy (jobs : List Job) (pages : List (List Ch × List Ch)) (w : World) (ho : w.opened = []) (hroom : w.room = none)
    (hp : List.Forall₂ (Page U false [] w.files) jobs pages) (ha : Apart jobs) (hlast : ∀ p ∈ pages, ∀ c ∈ p.1, c.value ≠ 0x10FFFF)
    (hl : ∀ p ∈ pages, p.1.length + p.2.length < 10^8) :
    ∃ w' reports, batch (accuracy errmsg creatable U pct junk) jobs w = .ok () w' ∧ w'.opened = [] ∧ w'.input = w.input ∧ w'.out = w.out ∧
      w'.err = w.err ∧ List.Forall₂ (AccuracyReport U pct) pages reports ∧
      List.Forall₂ (fun name file => w'.files name = some file) (jobs.map Job.report) reports ∧
      ∀ name, name ∉ jobs.map Job.report → w'.files name = w.files name := by
  induction jobs generalizing pages w with
  | nil =>
    cases hp
    exact ⟨w, [], rfl, ho, rfl, rfl, rfl, .nil, .nil, fun _ _ => rfl⟩
  | cons j js ih =>
    cases hp with
    | cons h1 hp =>
      rename_i p ps
      obtain ⟨hline, f0, f1, g0, g1, hh, p0, p1⟩ := h1
      obtain ⟨exec, hb⟩ := base_of_line hline
      obtain ⟨bytes, E, hm, _⟩ := c58_accuracy U F pct hpct junk w.files j.prog j.args j.correct j.generated [j.report] [] hline
        (by simp) f0 f1 g0 g1 p.1 p.2 hh p0 p1 (hlast p (by simp)) (hl p (by simp))
      obtain ⟨e, he⟩ := ends_ok (hm ▸ (c87_texts errmsg creatable hcr exec j.prog j.args hb U (fun _ => .Other) (fun x => some x) pct junk 0 false w.files).1)
      have hq := (c87_quiet errmsg creatable U (fun _ => .Other) (fun x => some x) pct junk 0 false false w.files exec j.prog j.args hb e).1 _ he
      subst hq
      obtain ⟨w1, hr, hd⟩ := (c97_output errmsg creatable U pct junk false (j.prog :: j.args) w (by intro o h; rw [ho] at h; cases h)).1 _ _ he
      have hfiles : w1.files = fun x => if x = j.report then some bytes else w.files x := by have := hd.files; rw [hroom] at this; exact this
      have hroom1 : w1.room = none := by rw [hd.room, hroom]; rfl
      obtain ⟨ha1, ha2⟩ := List.pairwise_cons.1 ha
      have hp' : List.Forall₂ (Page U false [] w1.files) js ps := by
        clear ih hm hr he hlast hl ha hd
        induction hp with
        | nil => exact .nil
        | cons k _ ih =>
          rename_i i q is qs _
          obtain ⟨kl, k0, k1, k2, k3, k4, k5, k6⟩ := k
          obtain ⟨n1, n2, n3⟩ := ha1 i (by simp)
          refine .cons ⟨kl, k0, k1, ?_, ?_, k4, k5, k6⟩ (ih (fun i hi => ha1 i (List.mem_cons_of_mem _ hi)) (List.pairwise_cons.1 ha2).2)
          · rw [hfiles]; simp only [if_neg (Ne.symm n1)]; exact k2
          · rw [hfiles]; simp only [if_neg (Ne.symm n2)]; exact k3
      obtain ⟨w', reports, r1, r2, r3, r4, r5, r6, r7, r8⟩ := ih ps w1 (hd.opened.trans ho) hroom1 hp' ha2
        (fun p hp => hlast p (List.mem_cons_of_mem _ hp)) (fun p hp => hl p (List.mem_cons_of_mem _ hp))
      have hout : w1.out = w.out := by
        have := hd.out
        simpa [alone, printed] using this
      have herr : w1.err = w.err := by
        have := hd.err
        simpa using this
      refine ⟨w', bytes :: reports, ?_, r2, r3.trans hd.input, r4.trans hout, r5.trans herr, .cons ?_ r6, .cons ?_ r7, ?_⟩
      · rw [batch, wbind_ok hr]
        exact r1
      · exact ⟨junk, w.files, j.prog, j.args, [], some j.report, ⟨_, _, _, _, _, hline, by simp, g0, g1, hh, p0, p1⟩, hm⟩
      · rw [r8 j.report (fun h => by
          obtain ⟨i, hi, e⟩ := List.mem_map.1 h
          exact (ha1 i hi).2.2 e.symm), hfiles]
        simp
      · intro name hn
        simp only [List.map_cons, List.mem_cons, not_or] at hn
        rw [r8 name hn.2, hfiles]
        simp only [if_neg hn.1]

/-- C97 (batch).  A script runs `accuracy` for every page and then `accsum` on the reports.  It ends normally, prints the sum and no message,
changes no files but the reports, and leaves no file open.  In the sum the characters are those of all correct texts, and if these have no
reject characters the errors are the sum of the edit distances. -/
theorem c97_batch (jobs : List Job) (pages : List (List Ch × List Ch)) (w : World) (ho : w.opened = []) (hroom : w.room = none)
    (hp : List.Forall₂ (Page U false [] w.files) jobs pages) (ha : Apart jobs) (hlast : ∀ p ∈ pages, ∀ c ∈ p.1, c.value ≠ 0x10FFFF)
    (hl : (pages.map (fun p => p.1.length + p.2.length)).sum < 10^8) (prog : List Nat) (args : List (List Nat)) (ss : List Args.Setting)
    (hc : CommandLine [] prog args (jobs.map Job.report) ss) (h2 : 2 ≤ jobs.length) :
    ∃ w' bytes D, (batch (accuracy errmsg creatable U pct junk) jobs >>= fun _ => (accsum errmsg U pct).run (prog :: args)) w = .ok () w' ∧
      w'.opened = [] ∧ w'.input = w.input ∧ w'.out = w.out ++ bytes ∧ w'.err = w.err ∧
      (∀ name, name ∉ jobs.map Job.report → w'.files name = w.files name) ∧ Acc.read_accrpt Acc.Accdata.zero bytes = .ok D ∧
      D.characters = (pages.map (fun p => (Acc.nonreject p.1).length)).sum ∧
      ((∀ p ∈ pages, ∀ c ∈ p.1, c.value ≠ REJECT_CHARACTER) → ∃ ds : List Nat, D.errors = (ds.sum : Nat) ∧
        List.Forall₂ (fun p d => IsEditDistance (p.1.map Ch.value) (p.2.map Ch.value) d) pages ds) := by
  have hl1 : ∀ p ∈ pages, p.1.length + p.2.length < 10^8 := fun p hp =>
    lt_of_le_of_lt (List.single_le_sum (by simp) _ (List.mem_map.2 ⟨p, hp, rfl⟩)) hl
  obtain ⟨w1, reports, r1, r2, r3, r4, r5, r6, r7, r8⟩ := batch_accuracy errmsg creatable hcr U F pct hpct junk jobs pages w ho hroom hp ha hlast hl1
  obtain ⟨bytes, D, Es, s1, s2, _, _, s5, s6⟩ := c62_accuracy U F pct hpct w1.files prog args _ ss hc (by simpa using h2) reports pages r7 r6
    hlast hl
  obtain ⟨exec, hb⟩ := base_of_line hc
  obtain ⟨e, he⟩ := ends_ok (s1 ▸ (c87_reports errmsg creatable hcr exec prog args hb U (fun _ => .Other) (fun x => some x) pct junk 0 false w1.files).1)
  have hq := (c87_quiet errmsg creatable U (fun _ => .Other) (fun x => some x) pct junk 0 false false w1.files exec prog args hb e).2.2.2.2.2.2.1 _ he
  subst hq
  have k := (c97_stdout errmsg U (fun _ => .Other) (fun x => some x) pct junk 0 false false (prog :: args) w1
    (by intro o h; rw [r2] at h; cases h)).2.2.2.1.produces
  obtain ⟨w', t1, t2⟩ := k _ _ he
  refine ⟨w', bytes, D, by rw [wbind_ok r1]; exact t1, t2.opened.trans r2, t2.input.trans r3, ?_, ?_, ?_, s2, s5, s6⟩
  · rw [t2.out, r4]; simp [alone, printed]
  · rw [t2.err, r5]; simp
  · intro name hn
    rw [t2.files]
    exact r8 name hn

end

/-- C97 (streams).  A program that starts without open files never has more than one file open.  If it ends normally it has closed them all,
and it has read nothing from `stdin`. -/
theorem c97_streams {α : Type} (view : α → List Nat × Output) (w : World) (o : Out α) (r : Fin Unit) (h : Runs view w o r)
    (ho : w.opened = []) (hm : w.most ≤ 1) :
    (∀ w', r = .ok () w' → w'.opened = [] ∧ w'.most ≤ 1 ∧ w'.input = w.input) ∧ (∀ s w', r = .exit s w' → w'.most ≤ 1) := by
  unfold Runs at h
  constructor
  · rintro w' rfl
    split at h
    · obtain ⟨w1, h1, h2⟩ := h
      cases h1
      have := h2.most
      rw [ho] at this
      exact ⟨h2.opened.trans ho, this.trans (by simp [hm]), h2.input⟩
    · obtain ⟨w1, h1, _⟩ := h
      cases h1
    · obtain ⟨w1, h1, _⟩ := h
      cases h1
    · cases h
    · cases h
  · rintro s w' rfl
    split at h
    · obtain ⟨w1, h1, _⟩ := h
      cases h1
    · obtain ⟨w1, h1, h2⟩ := h
      cases h1
      have := h2.most
      rw [ho] at this
      exact this.trans (by simp [hm])
    · obtain ⟨w1, h1, _⟩ := h
      cases h1
    · cases h
    · cases h

/-! ## Non-vacuity -/

/-- At the start nothing is open, nothing has been printed, and there is enough room on the disk. -/
def atStart (files : Fs) : World := ⟨files, [], 0, 0, [], [], [], [], none⟩

theorem trio_line (prog a b c : String) (hp : (ascii prog).length ≤ 32768) (ha : 0 ∉ ascii a ∧ 45 ∉ ascii a)
    (hb : 0 ∉ ascii b ∧ 45 ∉ ascii b) (hc : 0 ∉ ascii c ∧ 45 ∉ ascii c) :
    CommandLine [] (ascii prog) [ascii a, ascii b, ascii c] [ascii a, ascii b, ascii c] [] :=
  ⟨hp, by simp, by intro x hx; simp at hx; rcases hx with rfl | rfl | rfl; exact ha.1; exact hb.1; exact hc.1, by simp,
    .operand (by rintro ⟨c, r, e⟩; rw [e] at ha; simp at ha) (.operand (by rintro ⟨c, r, e⟩; rw [e] at hb; simp at hb)
      (.operand (by rintro ⟨c, r, e⟩; rw [e] at hc; simp at hc) .nil)), by simp [Args.Once]⟩

/-- A page is compared twice; the second report is written over the correct text. -/
def sampleJobs : List Job :=
  [⟨ascii "accuracy", ascii "a", ascii "b", ascii "x"⟩, ⟨ascii "bin/accuracy", ascii "a", ascii "b", ascii "a"⟩]

example : ∃ w' bytes D, (batch (accuracy [] (fun _ => true) sampleUnicode Acc.samplePct []) sampleJobs >>= fun _ =>
      (accsum [] sampleUnicode Acc.samplePct).run [ascii "accsum", ascii "x", ascii "a"]) (atStart sampleFs) = .ok () w' ∧ w'.out = bytes ∧
    w'.err = [] ∧ w'.files (ascii "b") = some (ascii "The mat c^at sat\non the hat.") ∧
    Acc.read_accrpt Acc.Accdata.zero bytes = .ok D ∧ D.characters = 46 := by
  have P : ∀ prog r : String, (ascii prog).length ≤ 32768 → 0 ∉ ascii r ∧ 45 ∉ ascii r →
      Page sampleUnicode false [] sampleFs ⟨ascii prog, ascii "a", ascii "b", ascii r⟩ (sampleText0, sampleText1) := fun prog r hp hr =>
    ⟨trio_line prog "a" "b" r hp (by decide +kernel) (by decide +kernel) hr, _, _,
      show sampleFs (ascii "a") = _ by decide +kernel, show sampleFs (ascii "b") = _ by decide +kernel, not_headed_a, sample_a,
      .inl ⟨not_headed_b, sample_b⟩⟩
  obtain ⟨w', bytes, D, h1, _, _, h4, h5, h6, h7, h8, _⟩ := c97_batch [] (fun _ => true) (fun _ => rfl) sampleUnicode sampleFacts Acc.samplePct
    Acc.samplePct_format [] sampleJobs [(sampleText0, sampleText1), (sampleText0, sampleText1)] (atStart sampleFs) rfl rfl
    (.cons (P "accuracy" "x" (by decide +kernel) (by decide +kernel)) (.cons (P "bin/accuracy" "a" (by decide +kernel) (by decide +kernel)) .nil))
    (by unfold Apart; decide +kernel) (by decide +kernel) (by decide +kernel) (ascii "accsum") [ascii "x", ascii "a"] []
    (Ending.pair_line [] "accsum" "x" "a" (by decide +kernel) (by decide +kernel) (by decide +kernel)) (by decide +kernel)
  refine ⟨w', bytes, D, h1, by rw [h4]; rfl, h5, ?_, h7, by rw [h8]; decide +kernel⟩
  rw [h6 _ (by decide +kernel)]
  decide +kernel

example : ∃ w', (open_file (ascii "vote") (fun _ => true) none false >>= getAll) { atStart sampleFs with input := ascii "x" } =
    .ok (ascii "x") w' ∧ w'.input = [] := by
  obtain ⟨w', h, _, h2, _⟩ := (c97_unnamed (fun _ => true) { atStart sampleFs with input := ascii "x" } (ascii "vote") []).1
  exact ⟨w', h, h2⟩

/-- A file is missing: the report of an earlier run is still there. -/
example : ∃ w', (editop [] (fun _ => true) sampleUnicode []).run [ascii "editop", ascii "a", ascii "q", ascii "report"] (atStart sampleFs) =
      .exit 1 w' ∧ w'.err = ascii "editop: unable to open file \"q\"\n" ∧ w'.files (ascii "report") = sampleFs (ascii "report") := by
  have e : ∃ err, (Process.editop [] (fun _ => true) sampleUnicode [] sampleFs).run [ascii "editop", ascii "a", ascii "q", ascii "report"] =
      .exit 1 err ∧ err = ascii "editop: unable to open file \"q\"\n" := by
    cases h : (Process.editop [] (fun _ => true) sampleUnicode [] sampleFs).run [ascii "editop", ascii "a", ascii "q", ascii "report"] with
    | exit s e =>
      have : (match (Process.editop [] (fun _ => true) sampleUnicode [] sampleFs).run [ascii "editop", ascii "a", ascii "q", ascii "report"] with
        | .exit s e => decide (s = 1 ∧ e = ascii "editop: unable to open file \"q\"\n")
        | _ => false) = true := by decide +kernel
      rw [h] at this
      obtain ⟨rfl, rfl⟩ := of_decide_eq_true this
      exact ⟨_, rfl, rfl⟩
    | _ =>
      exfalso
      have : (match (Process.editop [] (fun _ => true) sampleUnicode [] sampleFs).run [ascii "editop", ascii "a", ascii "q", ascii "report"] with
        | .exit s e => true
        | _ => false) = true := by decide +kernel
      rw [h] at this
      cases this
  obtain ⟨err, e, rfl⟩ := e
  have h := (c97_reports [] (fun _ => true) sampleUnicode Word.wbProp some Acc.samplePct [] 0
    [ascii "editop", ascii "a", ascii "q", ascii "report"] (atStart sampleFs) (by intro o h; cases h)).1
  change Runs id (atStart sampleFs) ((Process.editop [] (fun _ => true) sampleUnicode [] sampleFs).run _) _ at h
  rw [e] at h
  unfold Runs at h
  obtain ⟨w', h1, h2⟩ := h
  exact ⟨w', h1, h2.err, congrFun h2.files _⟩

/-- A report that cannot be created. -/
example : (match (groupacc [] (fun _ => false) sampleUnicode Acc.samplePct []).run [ascii "groupacc", ascii "s", ascii "x", ascii "report"]
        (atStart (fun name => if name = ascii "x" then some Ocr.AnyReport.oddTop else sampleFs name)) with
      | .exit s w' => decide (s = 1 ∧ w'.err = ascii "groupacc: unable to create file \"report\"\n" ∧ w'.most = 1)
      | _ => false) = true := by
  decide +kernel

end Ocr.Disk
