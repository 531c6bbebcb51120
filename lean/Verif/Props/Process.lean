import Verif.Proof.Process
import Verif.Props.FloatDist
import Verif.Props.FloatCi
import Verif.Props.TextEndings
import Verif.Props.WordEndings
import Verif.Props.PrintEndings

/-!
# C87: what a run prints on `stderr`, and its status
-/

namespace Ocr.Process
open Text Res Prog Spec AnyReport Ending

section
variable (errmsg : List Nat) (creatable : List Nat → Bool) (hw : ∀ n, creatable n = true) (exec prog : List Nat) (args : List (List Nat))
  (hb : Args.basefilename prog = .ok exec)
include hb hw

/-- C87 (comparing texts).  If files can be created, a run with messages ends as the run of `Verif.Model.Programs`: with the same output and
status 0; with status 1 and one line that begins with the name of the program and holds the message; or with status 0 and the usage. -/
theorem c87_texts (U : Unicode) (prop : Nat → Word.WB) (nfc : List Nat → Option (List Nat)) (pct : Int → Int → List Nat) (junk : List Nat)
    (junk' : Nat) (signed : Bool) (fs : Fs) :
    EndsLike exec errmsg (ascii "correctfile generatedfile [accuracy_report]")
      ((accuracy errmsg creatable U pct junk fs).run (prog :: args)) (accuracyMain U pct junk fs (prog :: args)) ∧
    EndsLike exec errmsg (ascii "correctfile generatedfile [editop_report]")
      ((editop errmsg creatable U junk fs).run (prog :: args)) (editopDebug U junk fs (prog :: args)) ∧
    EndsLike exec errmsg (ascii "[-S stopwordfile] correctfile generatedfile [wordacc_report]")
      ((wordacc errmsg creatable U prop nfc pct junk junk' fs).run (prog :: args)) (wordaccMain U prop nfc pct junk junk' fs (prog :: args)) ∧
    EndsLike exec errmsg (ascii "[-H] [-i] [-s] [-T] textfile1 textfile2 ... >resultfile")
      ((synctext errmsg U junk fs).run (prog :: args)) (Synctext.synctextMain U junk fs (prog :: args)) ∧
    EndsLike exec errmsg (ascii "[-O] [-o outputfile] [-s m/n] [-w m/n] textfile1 textfile2 ...")
      ((vote errmsg creatable U signed junk fs).run (prog :: args)) (voteProgramF U signed junk fs (prog :: args)) ∧
    EndsLike exec errmsg (ascii "[-n 1|2|3] textfile1 textfile2 ... >resultfile")
      ((ngram errmsg U signed junk fs).run (prog :: args)) (ngramProgram U signed junk fs (prog :: args)) ∧
    EndsLike exec errmsg (ascii "textfile1 textfile2 ... >resultfile")
      ((wordfreq errmsg U prop nfc junk junk' fs).run (prog :: args)) (wordfreqProgram U prop nfc junk junk' fs (prog :: args)) := by
  refine ⟨?_, ?_, ?_, ?_, ?_, ?_, ?_⟩
  · refine run_agrees' (P := accuracy errmsg creatable U pct junk fs) hb (fun argv V => ?_)
    dsimp only [accuracy]
    split
    · exact agrees_error _ (by decide)
    · refine (agrees_readPair _ _ _ _).bind (fun x _ => (agrees_plain _).bind (fun D _ => ?_))
      rw [agrees_create _ _ hw, obind_ok]
      exact (agrees_plain _).bind (fun _ _ => .pure _)
  · refine run_agrees' (P := editop errmsg creatable U junk fs) hb (fun argv V => ?_)
    dsimp only [editop]
    split
    · exact agrees_error _ (by decide)
    · refine (agrees_readPair _ _ _ _).bind (fun x _ => (agrees_plain _).bind (fun D _ => ?_))
      rw [agrees_create _ _ hw, obind_ok]
      exact .pure _
  · refine run_agrees' (P := wordacc errmsg creatable U prop nfc pct junk junk' fs) hb (fun argv V => ?_)
    dsimp only [wordacc]
    split
    · exact agrees_error _ (by decide)
    · refine (agrees_initStopwords _ _ _ _ _ _ _).bind (fun S _ => (agrees_readWords _ _ _ _ _ _ _).bind (fun x _ =>
        (agrees_plain _).bind (fun D _ => ?_)))
      rw [agrees_create _ _ hw, obind_ok]
      exact (agrees_plain _).bind (fun _ _ => .pure _)
  · refine run_agrees' (P := synctext errmsg U junk fs) hb (fun argv V => ?_)
    dsimp only [synctext, Synctext.run]
    split
    · exact agrees_error _ (by decide)
    · refine (agrees_readTexts _ _ _ _ _).bind (fun texts _ => (agrees_rd _ _).bind (fun text0 _ => (agrees_rd _ _).bind (fun text1 _ => ?_)))
      split
      · exact (agrees_plain _).bind (fun _ _ => (agrees_plain _).bind (fun _ _ => (agrees_plain _).bind (fun _ _ => .pure _)))
      · exact (agrees_plain _).bind (fun _ _ => (agrees_plain _).bind (fun _ _ => (agrees_plain _).bind (fun _ _ => .pure _)))
  · refine run_agrees' (P := vote errmsg creatable U signed junk fs) hb (fun argv V => ?_)
    dsimp only [vote]
    split
    · exact agrees_error _ (by decide)
    · rename_i hn
      refine (agrees_forTexts _ _ _ _).bind (fun x _ => (agrees_validate _ _ _ _ _ hn).bind (fun cfg _ => (agrees_plain _).bind (fun D _ => ?_)))
      rw [agrees_create _ _ hw, obind_ok]
      exact (agrees_plain _).bind (fun _ _ => .pure _)
  · refine run_agrees' (P := ngram errmsg U signed junk fs) hb (fun argv V => ?_)
    dsimp only [ngram]
    split
    · exact agrees_error _ (by decide)
    · exact (agrees_about _ _).bind (fun n _ => (agrees_forTexts _ _ _ _).bind (fun x _ => (agrees_plain _).bind (fun _ _ => .pure _)))
  · refine run_agrees' (P := wordfreq errmsg U prop nfc junk junk' fs) hb (fun argv V => ?_)
    dsimp only [wordfreq]
    split
    · exact agrees_error _ (by decide)
    · exact (agrees_forTexts _ _ _ _).bind (fun x _ => (agrees_plain _).bind (fun _ _ => .pure _))

/-- C87 (reading reports).  The same for the programs that read reports. -/
theorem c87_reports (U : Unicode) (prop : Nat → Word.WB) (nfc : List Nat → Option (List Nat)) (pct : Int → Int → List Nat) (junk : List Nat)
    (junk' : Nat) (negative : Bool) (fs : Fs) :
    EndsLike exec errmsg (ascii "accuracy_report1 accuracy_report2 ... >accuracy_report")
      ((accsum errmsg U pct fs).run (prog :: args)) (accsumProgram U pct fs (prog :: args)) ∧
    EndsLike exec errmsg (ascii "wordacc_report1 wordacc_report2 ... >wordacc_report")
      ((wordaccsum errmsg pct fs).run (prog :: args)) (wordaccsumProgram pct fs (prog :: args)) ∧
    EndsLike exec errmsg (ascii "editop_report1 editop_report2 ... >editop_report")
      ((editopsum fs).run (prog :: args)) (editopsumProgram fs (prog :: args)) ∧
    EndsLike exec errmsg (ascii "editop_report [editop_report2] >xyfile")
      ((editopcost fs).run (prog :: args)) (editopcostProgram fs (prog :: args)) ∧
    EndsLike exec errmsg (ascii "accuracy_report1 accuracy_report2 ... >xyfile")
      ((accdist negative fs).run (prog :: args)) (accdistProgramF negative fs (prog :: args)) ∧
    EndsLike exec errmsg (ascii "wordacc_report1 wordacc_report2 ... >xyfile")
      ((wordaccdist negative fs).run (prog :: args)) (wordaccdistProgramF negative fs (prog :: args)) ∧
    EndsLike exec errmsg (ascii "accuracy_report1 accuracy_report2 ... >resultfile")
      ((accci errmsg negative fs).run (prog :: args)) (accciProgramF negative fs (prog :: args)) ∧
    EndsLike exec errmsg (ascii "wordacc_report1 wordacc_report2 ... >resultfile")
      ((wordaccci errmsg negative fs).run (prog :: args)) (wordaccciProgramF negative fs (prog :: args)) ∧
    EndsLike exec errmsg (ascii "groupfile accuracy_report [groupacc_report]")
      ((groupacc errmsg creatable U pct junk fs).run (prog :: args)) (groupaccProgram U pct junk fs (prog :: args)) ∧
    EndsLike exec errmsg (ascii "stopwordfile wordacc_report >xyfile")
      ((nonstopacc errmsg U prop nfc pct junk junk' fs).run (prog :: args)) (nonstopaccProgram U prop nfc pct junk junk' fs (prog :: args)) := by
  refine ⟨?_, ?_, ?_, ?_, ?_, ?_, ?_, ?_, ?_, ?_⟩
  · refine run_agrees' (P := accsum errmsg U pct fs) hb (fun argv V => ?_)
    dsimp only [accsum]
    split
    · exact agrees_error _ (by decide)
    · exact (agrees_forReports _ _ _ _).bind (fun x _ => (agrees_plain _).bind (fun _ _ => .pure _))
  · refine run_agrees' (P := wordaccsum errmsg pct fs) hb (fun argv V => ?_)
    dsimp only [wordaccsum]
    split
    · exact agrees_error _ (by decide)
    · exact (agrees_forReports _ _ _ _).bind (fun x _ => (agrees_plain _).bind (fun _ _ => .pure _))
  · refine run_agrees' (P := editopsum fs) hb (fun argv V => ?_)
    dsimp only [editopsum]
    split
    · exact agrees_error _ (by decide)
    · exact (agrees_forReports _ _ _ _).bind (fun x _ => .pure _)
  · refine run_agrees' (P := editopcost fs) hb (fun argv V => ?_)
    dsimp only [editopcost]
    split
    · exact agrees_error _ (by decide)
    · refine (agrees_rd _ _).bind (fun name0 _ => (agrees_about _ _).bind (fun file0 _ => (agrees_about _ _).bind (fun D _ => ?_)))
      refine .bind ?_ (fun _ _ => .pure _)
      split
      · exact (agrees_rd _ _).bind (fun name0 _ => (agrees_about _ _).bind (fun file0 _ => (agrees_about _ _).bind (fun D _ => .pure _)))
      · exact .pure _
  · refine run_agrees' (P := accdist negative fs) hb (fun argv V => ?_)
    exact (agrees_forReports _ _ _ _).bind (fun x _ => .pure _)
  · refine run_agrees' (P := wordaccdist negative fs) hb (fun argv V => ?_)
    exact (agrees_forReports _ _ _ _).bind (fun x _ => .pure _)
  · refine run_agrees' (P := accci errmsg negative fs) hb (fun argv V => ?_)
    dsimp only [accci]
    split
    · exact agrees_error _ (by decide)
    · exact (agrees_forReports _ _ _ _).bind (fun x _ => (agrees_plain _).bind (fun _ _ => .pure _))
  · refine run_agrees' (P := wordaccci errmsg negative fs) hb (fun argv V => ?_)
    dsimp only [wordaccci]
    split
    · exact agrees_error _ (by decide)
    · exact (agrees_forReports _ _ _ _).bind (fun x _ => (agrees_plain _).bind (fun _ _ => .pure _))
  · refine run_agrees' (P := groupacc errmsg creatable U pct junk fs) hb (fun argv V => ?_)
    dsimp only [groupacc]
    split
    · exact agrees_error _ (by decide)
    · refine (agrees_rd _ _).bind (fun name0 _ => (agrees_readFile _ _ _ _ _).bind (fun x _ => (agrees_rd _ _).bind (fun name1 _ =>
        (agrees_about _ _).bind (fun file _ => (agrees_about _ _).bind (fun D _ => ?_)))))
      rw [agrees_create _ _ hw, obind_ok]
      exact (agrees_plain _).bind (fun _ _ => .pure _)
  · refine run_agrees' (P := nonstopacc errmsg U prop nfc pct junk junk' fs) hb (fun argv V => ?_)
    dsimp only [nonstopacc]
    split
    · exact agrees_error _ (by decide)
    · exact (agrees_rd _ _).bind (fun name0 _ => (agrees_readFile _ _ _ _ _).bind (fun x _ => (agrees_plain _).bind (fun w _ =>
        (agrees_rd _ _).bind (fun name1 _ => (agrees_about _ _).bind (fun file _ => (agrees_about _ _).bind (fun D _ =>
        (agrees_plain _).bind (fun _ _ => .pure _)))))))

end
/-- C87 (the command line).  Without arguments, or if the first argument that is refused asks for help, the usage is printed and the
status is 0; if the first argument that is refused is another one, it is named and the status is 1; otherwise the program goes on with
the operands and the variables of the options. -/
theorem c87_command {α : Type} (P : Program α) (T : List (Nat × Args.Kind)) (hT : Takes T P.option) (exec prog : List Nat) (args : List (List Nat))
    (hp : prog.length ≤ 32768) (hb : Args.basefilename prog = .ok exec) (hl : args.length < 32768) (h0 : ∀ a ∈ args, 0 ∉ a) :
    (args = [] → P.run (prog :: args) = .exit 0 (usageLine exec P.usage)) ∧
    (∀ pre a post ops ss s, args = pre ++ a :: post → Args.Parse T pre ops ss → Args.Once ss → Args.Fault T ss a post s →
      P.run (prog :: args) = if s = "usage" then .exit 0 (usageLine exec P.usage) else .exit 1 (namedLine exec (ascii s) a)) ∧
    (∀ ops ss, CommandLine T prog args ops ss → ∃ V, Args.Holds ss V ∧ P.run (prog :: args) = P.body exec ops V) := by
  have opt : initialize_ P.usage P.option (prog :: args) start = initialize_ P.usage (some (T.map Args.optOf)) (prog :: args) start := by
    rcases hT.option with e | ⟨e, e'⟩
    · rw [e]
    · rw [e, e', null_table]; rfl
  have run : P.run (prog :: args) = parse_args exec P.usage (some (T.map Args.optOf)) (prog :: args) start >>= fun x =>
      P.body exec (x.1.take x.2.1) x.2.2 := by
    have h : rd (prog :: args) 0 = .ok prog := rfl
    unfold Program.run
    rw [opt]
    unfold initialize_
    simp only [h, silent_ok, obind_ok, hb]
    cases e : parse_args exec P.usage (some (T.map Args.optOf)) (prog :: args) start with
    | ok err x =>
      have : err = [] := by
        unfold parse_args at e
        split at e
        · cases e
        · exact (argsLoop_agrees (errmsg := []) _ _ _ _ _ _ _).2 _ _ e
      rw [this]
      simp only [obind_ok, opure]
    | exit s e => rfl
    | abort => rfl
    | ub => rfl
    | fuel => rfl
  refine ⟨?_, ?_, ?_⟩
  · rintro rfl
    rw [run]
    rfl
  · rintro pre a post ops ss s e hP ho hF
    rw [run]
    unfold parse_args
    rw [if_neg (by rw [e]; simp)]
    obtain ⟨f, i, j, argv, V, hs, hA⟩ := Args.parse_run (prog := prog) hT.table (by omega) h0 e hP ho
    have := (steps_loop (exec := exec) (usage := P.usage) hs).trans (argsLoop_fault hT.table (by omega) hA hF)
    rw [show (prog :: args).length = args.length + 1 from rfl, show start = Args.unset from rfl, this]
    split <;> rfl
  · intro ops ss hc
    obtain ⟨b, V, e, hV⟩ := init_args hT.table hc
    refine ⟨V, hV, ?_⟩
    have e1 : Args.initialize_ P.option true (prog :: args) start = .ok (b, ops, V) := by
      rcases hT.option with e2 | ⟨e2, rfl⟩
      · rw [e2]; exact e
      · rw [e2, Args.c52_null]; exact e
    have : b = exec := by
      obtain ⟨b', hb', e'⟩ := Args.init_eq (os := some (T.map Args.optOf)) (u := true) (args := args) (V := start) hp
      rw [e, if_neg (by rintro ⟨h', _⟩; exact hc.some h')] at e'
      obtain ⟨x, _, hx⟩ := bind_eq_ok.1 e'.symm
      cases hx
      rw [hb] at hb'
      exact (Res.ok.inj hb').symm
    rw [run_accepted e1, this]

theorem takes_none {o : Option (List Args.Opt)} (h : o = none) : Takes [] o := ⟨⟨by decide, by decide, by decide⟩, .inr ⟨h, rfl⟩⟩

theorem wordacc_fault {fs : Fs} (D : Wac.Wacdata) {name : List Nat} {msg : String} (h : WordaccFault fs name msg) :
    (fs name = none ∧ msg = "unable to open file") ∨ ∃ file, fs name = some file ∧ Wac.read_wacrpt D file = .err msg := by
  cases h with
  | missing h => exact .inl ⟨h, rfl⟩
  | format file h h' =>
    have k := c69_wordacc D file
    rw [h'] at k
    exact .inr ⟨file, h, k⟩

theorem accuracy_fault {fs : Fs} (hfs : ∀ name file, fs name = some file → Bytes file) (D : Acc.Accdata) {name : List Nat} {msg : String} (h : AccuracyFault fs name msg) :
    (fs name = none ∧ msg = "unable to open file") ∨ ∃ file, fs name = some file ∧ Acc.read_accrpt D file = .err msg := by
  cases h with
  | missing h => exact .inl ⟨h, rfl⟩
  | format file h h' =>
    have k := c69_accuracy D file (hfs _ _ h)
    rw [h'] at k
    exact .inr ⟨file, h, k⟩
  | character file p pre post r us h h' h1 h2 h3 h4 =>
    have k := c69_accuracy D file (hfs _ _ h)
    rw [h'] at k
    exact .inr ⟨file, h, ((k.2 h1).2 pre r post us h2 h3).1 h4⟩

section
variable (errmsg : List Nat) (fs : Fs) (exec prog : List Nat) (args names : List (List Nat)) (ss : List Args.Setting)
  (hb : Args.basefilename prog = .ok exec) (hc : CommandLine [] prog args names ss) (name : List Nat) (msg : String)
include hb hc

theorem body_none {α : Type} {P : Program α} (h : P.option = none) : ∃ V, P.run (prog :: args) = P.body exec names V := by
  obtain ⟨V, _, e⟩ := (c87_command P [] (takes_none h) exec prog args hc.prog hb hc.many hc.nul).2.2 names ss hc
  exact ⟨V, e⟩

/-- C87 (edit operation reports).  The first report that cannot be opened or is not one is named; the status is 1. -/
theorem c87_editop (h : Halts fs ReadsEditop (EditopFault fs) names name msg) :
    (2 ≤ names.length → (editopsum fs).run (prog :: args) = .exit 1 (namedLine exec (ascii msg) name)) ∧
    (names.length ≤ 2 → (editopcost fs).run (prog :: args) = .exit 1 (namedLine exec (ascii msg) name)) := by
  have hF : ∀ (D : Edo.Edodata) name msg, EditopFault fs name msg →
      (fs name = none ∧ msg = "unable to open file") ∨ ∃ file, fs name = some file ∧ Edo.read_edorpt D file = .err msg := by
    intro D name msg h
    cases h with
    | missing h => exact .inl ⟨h, rfl⟩
    | format file h h' =>
      have k := c69_editop D file
      rw [h'] at k
      exact .inr ⟨file, h, k⟩
  constructor
  · intro h2
    obtain ⟨V, e⟩ := body_none exec prog args names ss hb hc (P := editopsum fs) rfl
    rw [e]
    dsimp only [editopsum]
    rw [if_neg (by omega), forReports_halts (P := fun _ => True) (fun _ _ _ => trivial) (fun D f o _ hr => editop_reads D f hr) hF _ h]
    rfl
  · intro h2
    obtain ⟨V, e⟩ := body_none exec prog args names ss hb hc (P := editopcost fs) rfl
    rw [e]
    obtain ⟨pre, post, os, rfl, hpre, hf⟩ := h
    dsimp only [editopcost]
    rw [if_neg (by simp at h2 ⊢; omega)]
    cases hpre with
    | nil =>
      rw [show rd ([] ++ name :: post) 0 = .ok name from rfl, silent_ok, obind_ok]
      unfold open_file
      rcases hF Edo.Edodata.zero _ _ hf with ⟨e, rfl⟩ | ⟨file, e, e'⟩
      · rw [e]; simp only [about]; rw [error_string_eq]; rfl
      · rw [e]; simp only [about, obind_ok, e']; rw [error_string_eq]; rfl
    | @cons n o pre os hx hrest =>
      obtain ⟨file, e0, hr⟩ := hx
      obtain ⟨D, e1⟩ := editop_reads Edo.Edodata.zero _ hr
      have : pre = [] ∧ post = [] := by
        simp only [List.length_append, List.length_cons] at h2
        exact ⟨List.length_eq_zero_iff.1 (by omega), List.length_eq_zero_iff.1 (by omega)⟩
      obtain ⟨rfl, rfl⟩ := this
      rw [show rd (n :: [] ++ [name]) 0 = .ok n from rfl, silent_ok, obind_ok]
      unfold open_file
      rw [e0]
      simp only [about, obind_ok, e1]
      rw [if_pos (by rfl), show rd (n :: [] ++ [name]) 1 = .ok name from rfl, silent_ok, obind_ok]
      rcases hF Edo.Edodata.zero _ _ hf with ⟨e, rfl⟩ | ⟨file, e, e'⟩
      · rw [e]; simp only; rw [error_string_eq]; rfl
      · rw [e]; simp only [obind_ok, e']; rw [error_string_eq]; rfl

omit hb hc in
theorem update_moderate {o : Int × Int} (h : Moderate o) (d : Dist.Dist) : ∃ d', Dist.update_distF d o.1 o.2 = .ok d' := by
  rw [Dist.c79_update d _ _ h.1 h.2.1]
  exact (update_ends d o.1 o.2).2 h.2.2

/-- C87 (word accuracy reports).  The same; for `wordaccdist` the reports before must not be such that it goes astray. -/
theorem c87_wordacc (pct : Int → Int → List Nat) (negative : Bool) :
    (2 ≤ names.length → Halts fs ReadsWordacc (WordaccFault fs) names name msg →
      (wordaccsum errmsg pct fs).run (prog :: args) = .exit 1 (namedLine exec (ascii msg) name) ∧
      (wordaccci errmsg negative fs).run (prog :: args) = .exit 1 (namedLine exec (ascii msg) name)) ∧
    (Halts fs (fun f o => ReadsWordacc f o ∧ Moderate o) (WordaccFault fs) names name msg →
      (wordaccdist negative fs).run (prog :: args) = .exit 1 (namedLine exec (ascii msg) name)) := by
  have hF := fun (D : Wac.Wacdata) name msg (h : WordaccFault fs name msg) => wordacc_fault D h
  refine ⟨fun h2 h => ⟨?_, ?_⟩, fun h => ?_⟩
  · obtain ⟨V, e⟩ := body_none exec prog args names ss hb hc (P := wordaccsum errmsg pct fs) rfl
    rw [e]
    dsimp only [wordaccsum]
    rw [if_neg (by omega), forReports_halts (P := fun _ => True) (fun _ _ _ => trivial)
      (fun D f o _ hr => by obtain ⟨E, e, _⟩ := wordacc_reads D f o hr; exact ⟨E, e⟩) hF _ h]
    rfl
  · obtain ⟨V, e⟩ := body_none exec prog args names ss hb hc (P := wordaccci errmsg negative fs) rfl
    rw [e]
    dsimp only [wordaccci]
    rw [if_neg (by omega), forReports_halts (P := fun _ => True) (fun _ _ _ => trivial)
      (fun a f o _ hr => by obtain ⟨E, e, _⟩ := wordacc_reads a.1 f o hr; exact ⟨_, by unfold wordaccciFile; simp only [e, bind_ok]; rfl⟩)
      (fun a name msg hf => (hF a.1 name msg hf).imp id (fun ⟨file, h1, h2⟩ => ⟨file, h1, by unfold wordaccciFile; simp only [h2, bind_err]⟩)) _ h]
    rfl
  · obtain ⟨V, e⟩ := body_none exec prog args names ss hb hc (P := wordaccdist negative fs) rfl
    rw [e]
    dsimp only [wordaccdist]
    rw [forReports_halts (P := fun _ => True) (fun _ _ _ => trivial) ?_
      (fun a name msg hf => (hF a.1 name msg hf).imp id (fun ⟨file, h1, h2⟩ => ⟨file, h1, by unfold wordaccdistFileF; simp only [h2, bind_err]⟩)) _ h]
    · rfl
    · rintro a f o _ ⟨hr, hm⟩
      obtain ⟨E, e, ht⟩ := wordacc_reads a.1 f o hr
      obtain ⟨d', e'⟩ := update_moderate hm a.2
      refine ⟨(E, d'), ?_⟩
      unfold wordaccdistFileF
      simp only [e, bind_ok]
      rw [ht]
      simp only [add_sub_cancel_left, e', bind_ok]
      rfl

/-- C87 (accuracy reports).  The same; a report can also be refused for a character. -/
theorem c87_accuracy (hfs : ∀ name file, fs name = some file → Bytes file) (U : Unicode) (pct : Int → Int → List Nat) (negative : Bool) :
    (2 ≤ names.length → Halts fs ReadsAccuracy (AccuracyFault fs) names name msg →
      (accsum errmsg U pct fs).run (prog :: args) = .exit 1 (namedLine exec (ascii msg) name) ∧
      (accci errmsg negative fs).run (prog :: args) = .exit 1 (namedLine exec (ascii msg) name)) ∧
    (Halts fs (fun f o => ReadsAccuracy f o ∧ Moderate o) (AccuracyFault fs) names name msg →
      (accdist negative fs).run (prog :: args) = .exit 1 (namedLine exec (ascii msg) name)) := by
  have hF := fun (D : Acc.Accdata) name msg (h : AccuracyFault fs name msg) => accuracy_fault hfs D h
  refine ⟨fun h2 h => ⟨?_, ?_⟩, fun h => ?_⟩
  · obtain ⟨V, e⟩ := body_none exec prog args names ss hb hc (P := accsum errmsg U pct fs) rfl
    rw [e]
    dsimp only [accsum]
    rw [if_neg (by omega), forReports_halts (P := Bytes) hfs
      (fun D f o hf hr => by obtain ⟨_, _, E, e, _⟩ := accuracy_reads D f hf o hr; exact ⟨E, e⟩) hF _ h]
    rfl
  · obtain ⟨V, e⟩ := body_none exec prog args names ss hb hc (P := accci errmsg negative fs) rfl
    rw [e]
    dsimp only [accci]
    rw [if_neg (by omega), forReports_halts (P := Bytes) hfs
      (fun a f o hf hr => by obtain ⟨_, _, E, e, _⟩ := accuracy_reads a.1 f hf o hr; exact ⟨_, by unfold accciFile; simp only [e, bind_ok]; rfl⟩)
      (fun a name msg hf => (hF a.1 name msg hf).imp id (fun ⟨file, h1, h2⟩ => ⟨file, h1, by unfold accciFile; simp only [h2, bind_err]⟩)) _ h]
    rfl
  · obtain ⟨V, e⟩ := body_none exec prog args names ss hb hc (P := accdist negative fs) rfl
    rw [e]
    dsimp only [accdist]
    rw [forReports_halts (P := Bytes) hfs ?_
      (fun a name msg hf => (hF a.1 name msg hf).imp id (fun ⟨file, h1, h2⟩ => ⟨file, h1, by unfold accdistFileF; simp only [h2, bind_err]⟩)) _ h]
    · rfl
    · rintro a f o hf ⟨hr, hm⟩
      obtain ⟨p, vs, E, e, hA, h1, h2⟩ := accuracy_reads a.1 f hf o hr
      obtain ⟨d', e'⟩ := update_moderate hm a.2
      refine ⟨(E, d'), ?_⟩
      unfold accdistFileF
      simp only [e, bind_ok]
      rw [hA.characters, hA.errors, h1, h2]
      simp only [add_sub_cancel_left, e', bind_ok]
      rfl

end

/-- C87 (every case).  All reports are read, or one leads astray, or there is a first one that is refused. -/
theorem c87_cases (fs : Fs) (names : List (List Nat)) :
    ((∃ os, AllRead fs ReadsEditop names os) ∨ Astray fs ReadsEditop BadEditop names ∨
      ∃ name msg, Halts fs ReadsEditop (EditopFault fs) names name msg) ∧
    ((∃ os, AllRead fs ReadsWordacc names os) ∨ Astray fs ReadsWordacc BadWordacc names ∨
      ∃ name msg, Halts fs ReadsWordacc (WordaccFault fs) names name msg) ∧
    ((∃ os, AllRead fs ReadsAccuracy names os) ∨ Astray fs ReadsAccuracy BadAccuracy names ∨
      ∃ name msg, Halts fs ReadsAccuracy (AccuracyFault fs) names name msg) := by
  have gen : ∀ {β : Type} (R : List Nat → β → Prop) (B : List Nat → Prop) (F : List Nat → String → Prop),
      (∀ name, (∃ file o, fs name = some file ∧ R file o) ∨ (∃ file, fs name = some file ∧ B file) ∨ ∃ msg, F name msg) →
      ∀ names, (∃ os, AllRead fs R names os) ∨ Astray fs R B names ∨ ∃ name msg, Halts fs R F names name msg := by
    intro β R B F h names
    induction names with
    | nil => exact .inl ⟨[], .nil⟩
    | cons n names ih =>
      rcases h n with ⟨file, o, h1, h2⟩ | ⟨file, h1, h2⟩ | ⟨msg, h1⟩
      · rcases ih with ⟨os, hr⟩ | ⟨pre, name, post, f, os, rfl, hr, hf, hb⟩ | ⟨name, msg, pre, post, os, rfl, hr, hf⟩
        · exact .inl ⟨o :: os, .cons ⟨file, h1, h2⟩ hr⟩
        · exact .inr (.inl ⟨n :: pre, name, post, f, o :: os, rfl, .cons ⟨file, h1, h2⟩ hr, hf, hb⟩)
        · exact .inr (.inr ⟨name, msg, n :: pre, post, o :: os, rfl, .cons ⟨file, h1, h2⟩ hr, hf⟩)
      · exact .inr (.inl ⟨[], n, names, file, [], rfl, .nil, h1, h2⟩)
      · exact .inr (.inr ⟨n, msg, [], names, [], rfl, .nil, h1⟩)
  refine ⟨gen _ _ _ (fun n => ?_) names, gen _ _ _ (fun n => ?_) names, gen _ _ _ (fun n => ?_) names⟩
  · cases e : fs n with
    | none => exact .inr (.inr ⟨_, .missing e⟩)
    | some file =>
      cases e' : AnyReport.editop (lines file) with
      | none => exact .inr (.inr ⟨_, .format file e e'⟩)
      | some x =>
        obtain ⟨a, b, c, R⟩ := x
        by_cases h : ∀ r ∈ R, 0 ≤ r.second ∧ r.second ≤ 100
        · exact .inl ⟨file, (), rfl, a, b, c, R, e', h⟩
        · refine .inr (.inl ⟨file, rfl, a, b, c, R, e', ?_⟩)
          by_contra hn
          exact h (fun r hr => by by_contra hh; exact hn ⟨r, hr, hh⟩)
  · cases e : fs n with
    | none => exact .inr (.inr ⟨_, .missing e⟩)
    | some file =>
      cases e' : AnyReport.wordacc (lines file) with
      | none => exact .inr (.inr ⟨_, .format file e e'⟩)
      | some p =>
        by_cases h : p.Sound
        · exact .inl ⟨file, _, rfl, p, e', h, rfl⟩
        · exact .inr (.inl ⟨file, rfl, p, e', h⟩)
  · cases e : fs n with
    | none => exact .inr (.inr ⟨_, .missing e⟩)
    | some file =>
      cases e' : AnyReport.accuracy (lines file) with
      | none => exact .inr (.inr ⟨_, .format file e e'⟩)
      | some p =>
        by_cases h : HasNames 20 p.confs
        · rcases c69_rows p.classes with ⟨vs, hv⟩ | ⟨pre, r, post, us, e1, hu, hr | hr⟩
          · exact .inl ⟨file, _, rfl, p, e', h, ⟨vs, hv⟩, rfl⟩
          · exact .inr (.inr ⟨_, .character file p pre post r us e e' h e1 hu hr⟩)
          · exact .inr (.inl ⟨file, rfl, p, e', .inr ⟨pre, r, post, us, e1, hu, hr⟩⟩)
        · exact .inr (.inl ⟨file, rfl, p, e', .inl h⟩)

/-- C87 (texts).  Reading a file that is not text stops with the message for the place where it stops being UTF-8; in the other two
cases of the claim C72 there is no message. -/
theorem c87_utf8 (U : Unicode) (junk : List Nat) (hj : Bytes junk) (fold found : Bool) (file : List Nat) (hf : Bytes file) (m : String) :
    read_text U junk [] file { pageText fold with found_header := found } = .err m ↔ Broken (AnyText.bodyOf file) m :=
  read_broken U junk fold found file hf hj m

section
variable (errmsg : List Nat) (creatable : List Nat → Bool) (U : Unicode) (junk : List Nat) (hj : Bytes junk) (fs : Fs)
  (hfs : ∀ name file, fs name = some file → Bytes file) (exec prog : List Nat) (args names : List (List Nat)) (ss : List Args.Setting)
  (hb : Args.basefilename prog = .ok exec)
include hj hfs hb

/-- C87 (comparing two texts).  The first text that is not read determines the line; the file is named if it cannot be opened, and not if
it is not text. -/
theorem c87_pair (pct : Int → Int → List Nat) (n0 n1 : List Nat) (rest : List (List Nat)) (hn : names = n0 :: n1 :: rest)
    (hr : rest.length ≤ 1) (line : List Nat) (h : PairFault exec errmsg fs n0 n1 line) :
    (CommandLine [] prog args names ss → (accuracy errmsg creatable U pct junk fs).run (prog :: args) = .exit 1 line) ∧
    (CommandLine [(68, .flag 0)] prog args names ss → (editop errmsg creatable U junk fs).run (prog :: args) = .exit 1 line) := by
  subst hn
  constructor
  · intro hc
    obtain ⟨V, e⟩ := body_none exec prog args _ ss hb hc (P := accuracy errmsg creatable U pct junk fs) rfl
    rw [e]
    dsimp only [accuracy]
    rw [if_neg (by simp; omega), readPair_fault hfs U hj rest h]
    rfl
  · intro hc
    obtain ⟨V, _, e⟩ := (c87_command (editop errmsg creatable U junk fs) [(68, .flag 0)] ⟨table_editop, .inl rfl⟩ exec prog args hc.prog hb
      hc.many hc.nul).2.2 _ ss hc
    rw [e]
    dsimp only [editop]
    rw [if_neg (by simp; omega), readPair_fault hfs U hj rest h]
    rfl

/-- C87 (any number of texts).  The same for the programs that read any number of texts. -/
theorem c87_many (F : UnicodeFacts U) (signed : Bool) (name line : List Nat)
    (h : Halts fs ReadsText (TextFault exec errmsg fs) names name line) :
    (CommandLine voteTable prog args names ss → 2 ≤ names.length → names.length ≤ 16 →
      (vote errmsg creatable U signed junk fs).run (prog :: args) = .exit 1 line) ∧
    (CommandLine [(72, .flag 0), (105, .flag 1), (115, .flag 2), (84, .flag 3)] prog args names ss → 2 ≤ names.length →
      (⟨.flag 3, []⟩ ∈ ss → names.length = 2) → (synctext errmsg U junk fs).run (prog :: args) = .exit 1 line) ∧
    (CommandLine [(110, .value 0)] prog args names ss → (∀ a ∈ args, ∀ b ∈ a, 0 < b ∧ b < 256) → (∃ s n, Given ss 0 s ∧ Ngram.Selected s n) →
      (ngram errmsg U signed junk fs).run (prog :: args) = .exit 1 line) := by
  refine ⟨fun hc h2 h9 => ?_, fun hc h2 ht => ?_, fun hc hbytes hs => ?_⟩
  · obtain ⟨V, _, e⟩ := (c87_command (vote errmsg creatable U signed junk fs) voteTable ⟨table_vote, .inl rfl⟩ exec prog args hc.prog hb
      hc.many hc.nul).2.2 _ ss hc
    rw [e]
    dsimp only [vote]
    rw [if_neg (by unfold Vote.MIN_VOTERS Vote.MAX_VOTERS; omega), forTexts_halts (J := fun a => ∃ b, a.1 = { pageText false with found_header := b }) hfs ?_ ?_
      _ ⟨false, rfl⟩ h]
    · rfl
    · rintro ⟨opt, ts⟩ f ⟨b, rfl⟩ hf hw
      obtain ⟨t, ht⟩ := (AnyText.textOf_iff U false f).2 hw
      refine ⟨({ pageText false with found_header := decide (Headed f) }, ts ++ [t]), ?_, _, rfl⟩
      unfold voteFile
      rw [(AnyText.read_any U junk false b f hf hj t _).2 ⟨ht, rfl⟩]
      rfl
    · rintro ⟨opt, ts⟩ f m ⟨b, rfl⟩ hf hm
      unfold voteFile
      rw [(read_broken U junk false b f hf hj m).2 hm]
      rfl
  · obtain ⟨V, hV, e⟩ := (c87_command (synctext errmsg U junk fs) _ ⟨table_synctext, .inl rfl⟩ exec prog args hc.prog hb
      hc.many hc.nul).2.2 _ ss hc
    rw [e]
    dsimp only [synctext]
    rw [if_neg (by rintro (h' | ⟨h', h''⟩); · omega
                   · have := ht ((hV.2 3).1 h'); omega),
      show ({ Synctext.textopt with case_insensitive := V.boolean 1 } : Textopt) = { pageText (V.boolean 1) with found_header := false } from rfl,
      readTexts_halts hfs U hj _ false h]
    rfl
  · obtain ⟨V, hV, e⟩ := (c87_command (ngram errmsg U signed junk fs) _ ⟨table_ngram, .inl rfl⟩ exec prog args hc.prog hb
      hc.many hc.nul).2.2 _ ss hc
    rw [e]
    obtain ⟨s, n, hs, hn⟩ := hs
    have hs' : s = V.string 0 := by
      cases hv : V.string 0 with
      | none =>
        cases s with
        | none => rfl
        | some x => rw [(hV.1 0 x).2 ((hs x).1 rfl)] at hv; cases hv
      | some x => exact (hs x).2 ((hV.1 0 x).1 hv)
    subst hs'
    have opt := Ngram.c44_option signed (V.string 0) (fun s hs => parse_bytes hc.parse hbytes _ ((hV.1 0 s).1 hs))
    have hn' : 1 ≤ n ∧ n ≤ 3 := by
      rcases hn with ⟨_, rfl⟩ | ⟨h1, h3, _⟩
      · omega
      · exact ⟨h1, h3⟩
    have hne : names ≠ [] := by
      obtain ⟨pre, post, os, rfl, _⟩ := h
      simp
    dsimp only [ngram]
    rw [if_neg (fun h' => hne (List.length_eq_zero_iff.1 h')), about_ok (opt.1 n hn), obind_ok,
      forTexts_halts (J := fun a => (∃ b, a.1 = { pageText false with found_header := b }) ∧ ∃ W, Ngram.TI U W a.2 ∧ Ngram.Grams n W) hfs ?_ ?_
      _ ⟨⟨false, rfl⟩, [], ⟨Store.tallied_nil _ _, rfl, rfl⟩, by intro w hw; cases hw⟩ h]
    · rfl
    · rintro ⟨opt, T⟩ f ⟨⟨b, rfl⟩, W, h1, h2⟩ hf hw
      obtain ⟨t, ht⟩ := (AnyText.textOf_iff U false f).2 hw
      obtain ⟨T', e, h1', h2'⟩ := Ngram.startLoop_spec F hn'.1 hn'.2 t W T h1 h2 (textOf_value hf ht)
      refine ⟨({ pageText false with found_header := decide (Headed f) }, T'), ?_, ⟨_, rfl⟩, _, h1', h2'⟩
      unfold ngramFile
      rw [(AnyText.read_any U junk false b f hf hj t _).2 ⟨ht, rfl⟩, bind_ok]
      simp only
      rw [e, bind_ok]
      rfl
    · rintro ⟨opt, T⟩ f m ⟨⟨b, rfl⟩, W, h1, h2⟩ hf hm
      unfold ngramFile
      rw [(read_broken U junk false b f hf hj m).2 hm]
      rfl

end

/-- C87 (files that cannot be created).  A run of which the output is not for the standard output creates the file named, and stops if it
cannot: then the name is in the message.  `wordacc` may print warnings before. -/
theorem c87_create (errmsg : List Nat) (creatable : List Nat → Bool) (U : Unicode) (prop : Nat → Word.WB) (nfc : List Nat → Option (List Nat))
    (pct : Int → Int → List Nat) (junk : List Nat) (junk' : Nat) (signed : Bool) (fs : Fs) (exec prog : List Nat) (args : List (List Nat))
    (hb : Args.basefilename prog = .ok exec) (out : Output) (f : List Nat) (hf : out.filename = some f) (hn : creatable f = false) :
    (accuracyMain U pct junk fs (prog :: args) = .ok out → (accuracy errmsg creatable U pct junk fs).run (prog :: args) =
      .exit 1 (namedLine exec (ascii "unable to create file") f)) ∧
    (∀ trace, editopDebug U junk fs (prog :: args) = .ok (trace, out) → (editop errmsg creatable U junk fs).run (prog :: args) =
      .exit 1 (namedLine exec (ascii "unable to create file") f)) ∧
    (wordaccMain U prop nfc pct junk junk' fs (prog :: args) = .ok out → ∃ ws,
      (wordacc errmsg creatable U prop nfc pct junk junk' fs).run (prog :: args) =
        .exit 1 (warnings exec ws ++ namedLine exec (ascii "unable to create file") f)) ∧
    (∀ trace, voteProgramF U signed junk fs (prog :: args) = .ok (trace, out) → (vote errmsg creatable U signed junk fs).run (prog :: args) =
      .exit 1 (namedLine exec (ascii "unable to create file") f)) ∧
    (groupaccProgram U pct junk fs (prog :: args) = .ok out → (groupacc errmsg creatable U pct junk fs).run (prog :: args) =
      .exit 1 (namedLine exec (ascii "unable to create file") f)) := by
  have stop : ∀ {α : Type} (k : Unit → Out α), (create exec creatable (some f) >>= k) = .exit 1 (namedLine exec (ascii "unable to create file") f) := by
    intro α k
    unfold create
    simp only [hn]
    rw [if_neg (by simp), error_string_eq]
    rfl
  have name : ∀ {option b ops V}, Args.initialize_ option true (prog :: args) start = .ok (b, ops, V) → b = exec := by
    intro option b ops V h
    unfold Args.initialize_ at h
    rw [show rd (prog :: args) 0 = .ok prog from rfl, bind_ok, hb, bind_ok] at h
    obtain ⟨y, _, h⟩ := bind_eq_ok.1 h
    cases h
    rfl
  refine ⟨fun h => ?_, fun trace h => ?_, fun h => ?_, fun trace h => ?_, fun h => ?_⟩
  · obtain ⟨⟨b, ops, V⟩, h0, h⟩ := bind_eq_ok.1 h
    cases name h0
    rw [run_accepted (P := accuracy errmsg creatable U pct junk fs) h0]
    dsimp only [accuracy] at h ⊢
    split at h
    · cases h
    · obtain ⟨x, h1, h⟩ := bind_eq_ok.1 h
      obtain ⟨D, h2, h⟩ := bind_eq_ok.1 h
      obtain ⟨bytes, h3, h⟩ := bind_eq_ok.1 h
      cases h
      rw [if_neg (by assumption), goes_on (h1 ▸ agrees_readPair U junk fs ops) (mute_readPair _ _ _ _), obind_ok]
      rw [plain_ok h2, obind_ok, show ops[2]? = some f from hf, stop]
  · obtain ⟨⟨b, ops, V⟩, h0, h⟩ := bind_eq_ok.1 h
    cases name h0
    rw [run_accepted (P := editop errmsg creatable U junk fs) h0]
    dsimp only [editop] at h ⊢
    split at h
    · cases h
    · obtain ⟨x, h1, h⟩ := bind_eq_ok.1 h
      obtain ⟨D, h2, h⟩ := bind_eq_ok.1 h
      cases h
      rw [if_neg (by assumption), goes_on (h1 ▸ agrees_readPair U junk fs ops) (mute_readPair _ _ _ _), obind_ok]
      rw [plain_ok h2, obind_ok, show ops[2]? = some f from hf, stop]
  · obtain ⟨⟨b, ops, V⟩, h0, h⟩ := bind_eq_ok.1 h
    cases name h0
    rw [run_accepted (P := wordacc errmsg creatable U prop nfc pct junk junk' fs) h0]
    dsimp only [wordacc] at h ⊢
    split at h
    · cases h
    · obtain ⟨S, hS, h⟩ := bind_eq_ok.1 h
      obtain ⟨x, h1, h⟩ := bind_eq_ok.1 h
      obtain ⟨D, h2, h⟩ := bind_eq_ok.1 h
      obtain ⟨bytes, h3, h⟩ := bind_eq_ok.1 h
      cases h
      obtain ⟨ws, e⟩ := agrees_ok (exec := exec) (errmsg := errmsg) (hS ▸ agrees_initStopwords U prop nfc junk junk' fs (V.string 0))
      refine ⟨ws, ?_⟩
      rw [if_neg (by assumption), e, bind_def, Out.bind, goes_on (h1 ▸ agrees_readWords U prop nfc junk junk' fs ops) (mute_readWords _ _ _ _ _ _ _), obind_ok]
      rw [plain_ok h2, obind_ok, show ops[2]? = some f from hf, stop]
      rfl
  · obtain ⟨⟨b, ops, V⟩, h0, h⟩ := bind_eq_ok.1 h
    cases name h0
    rw [run_accepted (P := vote errmsg creatable U signed junk fs) h0]
    dsimp only [vote] at h ⊢
    split at h
    · cases h
    · rename_i hv
      obtain ⟨x, h1, h⟩ := bind_eq_ok.1 h
      obtain ⟨cfg, hcfg, h⟩ := bind_eq_ok.1 h
      obtain ⟨D, h2, h⟩ := bind_eq_ok.1 h
      obtain ⟨bytes, h3, h⟩ := bind_eq_ok.1 h
      cases h
      rw [if_neg hv, goes_on (h1 ▸ agrees_forTexts fs _ ops _) (mute_forTexts _ _ _ _), obind_ok]
      rw [goes_on (errmsg := errmsg) (hcfg ▸ agrees_validate signed _ _ _ _ hv) (mute_validate _ _ _ _ _), obind_ok, plain_ok h2, obind_ok, show V.string 0 = some f from hf, stop]
  · obtain ⟨⟨b, ops, V⟩, h0, h⟩ := bind_eq_ok.1 h
    cases name h0
    rw [run_accepted (P := groupacc errmsg creatable U pct junk fs) h0]
    dsimp only [groupacc] at h ⊢
    split at h
    · cases h
    · obtain ⟨n0, h1, h⟩ := bind_eq_ok.1 h
      obtain ⟨x, h2, h⟩ := bind_eq_ok.1 h
      obtain ⟨n1, h3, h⟩ := bind_eq_ok.1 h
      obtain ⟨rep, h4, h⟩ := bind_eq_ok.1 h
      obtain ⟨D, h5, h⟩ := bind_eq_ok.1 h
      obtain ⟨bytes, h6, h⟩ := bind_eq_ok.1 h
      cases h
      rw [if_neg (by assumption), h1, silent_ok, obind_ok, goes_on (h2 ▸ agrees_readFile U junk fs n0 _) (mute_readFile _ _ _ _ _), obind_ok]
      rw [h3, silent_ok, obind_ok, about_ok h4, obind_ok, about_ok h5, obind_ok, show ops[2]? = some f from hf, stop]

/-- C87 (silence).  Apart from `wordacc`, a program that produces its output prints nothing on `stderr`. -/
theorem c87_quiet (errmsg : List Nat) (creatable : List Nat → Bool) (U : Unicode) (prop : Nat → Word.WB) (nfc : List Nat → Option (List Nat))
    (pct : Int → Int → List Nat) (junk : List Nat) (junk' : Nat) (signed negative : Bool) (fs : Fs) (exec prog : List Nat) (args : List (List Nat))
    (hb : Args.basefilename prog = .ok exec) (e : List Nat) :
    (∀ out, (accuracy errmsg creatable U pct junk fs).run (prog :: args) = .ok e out → e = []) ∧
    (∀ out, (editop errmsg creatable U junk fs).run (prog :: args) = .ok e out → e = []) ∧
    (∀ out, (synctext errmsg U junk fs).run (prog :: args) = .ok e out → e = []) ∧
    (∀ out, (vote errmsg creatable U signed junk fs).run (prog :: args) = .ok e out → e = []) ∧
    (∀ out, (ngram errmsg U signed junk fs).run (prog :: args) = .ok e out → e = []) ∧
    (∀ out, (wordfreq errmsg U prop nfc junk junk' fs).run (prog :: args) = .ok e out → e = []) ∧
    (∀ out, (accsum errmsg U pct fs).run (prog :: args) = .ok e out → e = []) ∧
    (∀ out, (wordaccsum errmsg pct fs).run (prog :: args) = .ok e out → e = []) ∧
    (∀ out, (editopsum fs).run (prog :: args) = .ok e out → e = []) ∧
    (∀ out, (editopcost fs).run (prog :: args) = .ok e out → e = []) ∧
    (∀ out, (accdist negative fs).run (prog :: args) = .ok e out → e = []) ∧
    (∀ out, (wordaccdist negative fs).run (prog :: args) = .ok e out → e = []) ∧
    (∀ out, (accci errmsg negative fs).run (prog :: args) = .ok e out → e = []) ∧
    (∀ out, (wordaccci errmsg negative fs).run (prog :: args) = .ok e out → e = []) ∧
    (∀ out, (groupacc errmsg creatable U pct junk fs).run (prog :: args) = .ok e out → e = []) ∧
    (∀ out, (nonstopacc errmsg U prop nfc pct junk junk' fs).run (prog :: args) = .ok e out → e = []) := by
  have lift : ∀ {α : Type} {P : Program α}, (∀ exec argv V, Mute (P.body exec argv V)) → ∀ out, P.run (prog :: args) = .ok e out → e = [] :=
    fun h out => mute_run hb h e out
  have silence : ∀ {α : Type} (r : Res α), Mute (silent r) := fun r => mute_about _ _ _
  have ite : ∀ {α : Type} {p : Prop} [Decidable p] {a b : Out α}, Mute a → Mute b → Mute (if p then a else b) := by
    intro α p _ a b h h'
    split
    · exact h
    · exact h'
  refine ⟨lift fun x argv V => ?_, lift fun x argv V => ?_, lift fun x argv V => ?_, lift fun x argv V => ?_, lift fun x argv V => ?_,
    lift fun x argv V => ?_, lift fun x argv V => ?_, lift fun x argv V => ?_, lift fun x argv V => ?_, lift fun x argv V => ?_,
    lift fun x argv V => ?_, lift fun x argv V => ?_, lift fun x argv V => ?_, lift fun x argv V => ?_, lift fun x argv V => ?_,
    lift fun x argv V => ?_⟩
  all_goals
    dsimp only [accuracy, editop, synctext, vote, ngram, wordfreq, accsum, wordaccsum, editopsum, editopcost, accdist, wordaccdist,
      accci, wordaccci, groupacc, nonstopacc]
    repeat' first
      | with_reducible exact mute_error _
      | with_reducible exact mute_plain _
      | with_reducible exact mute_about _ _ _
      | with_reducible exact mute_create _ _
      | with_reducible exact mute_forReports _ _ _ _
      | with_reducible exact mute_forTexts _ _ _ _
      | with_reducible exact mute_readFile _ _ _ _ _
      | with_reducible exact mute_readPair _ _ _ _
      | with_reducible exact mute_readTexts _ _ _ _ _
      | with_reducible exact mute_validate _ _ _ _ _
      | with_reducible refine ite ?_ ?_
      | with_reducible refine Mute.bind ?_ (fun _ => ?_)
      | with_reducible exact silence _
      | exact mute_ok _

/-- Reading the stopwords gives the warnings. -/
theorem stopwords_init {exec errmsg : List Nat} (U : Unicode) (L : Lower U) (prop : Nat → Word.WB)
    (nfc : List Nat → Option (List Nat)) {junk : List Nat} (hj : Bytes junk) (junk' : Nat) {fs : Fs}
    (hfs : ∀ name file, fs name = some file → Bytes file) {s : Option (List Nat)} {again : List (List Nat)}
    (ha : (s = none ∧ again = []) ∨ ∃ name file words, s = some name ∧ fs name = some file ∧ ReadsList U prop nfc file words ∧
      again = Stopword.repeated [] words) :
    ∃ S, initStopwords exec errmsg U prop nfc junk junk' fs s = .ok (warnings exec again) S := by
  have key : ∀ {file S}, Stopword.init_stopwords U prop nfc junk junk' file Stopword.State.start = .ok S → S.warnings = again →
      (plain exec errmsg (Stopword.init_stopwords U prop nfc junk junk' file Stopword.State.start) >>= fun S =>
        warn exec S.warnings >>= fun _ => pure S) = .ok (warnings exec again) S := by
    intro file S h1 h2
    rw [plain_ok h1, obind_ok, warn_eq, h2, bind_def, Out.bind, opure, Out.after, List.append_nil]
  rcases ha with ⟨rfl, rfl⟩ | ⟨name, file, words, rfl, hf, ⟨t, h1, h2⟩, rfl⟩
  · obtain ⟨S, h1, h2, _⟩ := Stopword.c38_default U prop nfc junk junk'
    refine ⟨S, ?_⟩
    unfold initStopwords
    simp only
    rw [opure, obind_ok]
    exact key h1 h2
  · have e1 := ((list_gives U hj false true (hfs _ _ hf)).value (t, _)).2 ⟨h1, rfl⟩
    have e2 := ((find_gives U prop nfc junk' (list_value L h1)).value _).2 h2
    obtain ⟨S, h3, h4, _⟩ := Stopword.c38_file U prop nfc junk junk' file t _ e1 words e2
    refine ⟨S, ?_⟩
    unfold initStopwords
    simp only
    rw [about_ok (show open_file fs name = .ok file by unfold open_file; rw [hf]), obind_ok, opure, obind_ok]
    exact key h3 h4

/-- C87 (warnings).  What `wordacc` prints on `stderr` begins with a warning for each stopword that is given again, in order; if there is
output, that is all. -/
theorem c87_warnings (errmsg : List Nat) (creatable : List Nat → Bool) (U : Unicode) (L : Lower U) (prop : Nat → Word.WB)
    (nfc : List Nat → Option (List Nat)) (pct : Int → Int → List Nat) (junk : List Nat) (hj : Bytes junk) (junk' : Nat) (fs : Fs)
    (hfs : ∀ name file, fs name = some file → Bytes file) (exec prog : List Nat) (args names : List (List Nat)) (ss : List Args.Setting)
    (hb : Args.basefilename prog = .ok exec) (hc : CommandLine [(83, .value 0)] prog args names ss)
    (hn : names.length = 2 ∨ names.length = 3) (s : Option (List Nat)) (hs : Given ss 0 s) (again : List (List Nat))
    (ha : (s = none ∧ again = []) ∨ ∃ name file words, s = some name ∧ fs name = some file ∧ ReadsList U prop nfc file words ∧
      again = Stopword.repeated [] words) :
    (∀ e out, (wordacc errmsg creatable U prop nfc pct junk junk' fs).run (prog :: args) = .ok e out → e = warnings exec again) ∧
    (∀ k e, (wordacc errmsg creatable U prop nfc pct junk junk' fs).run (prog :: args) = .exit k e → ∃ line, e = warnings exec again ++ line) := by
  obtain ⟨V, hV, run⟩ := (c87_command (wordacc errmsg creatable U prop nfc pct junk junk' fs) _ ⟨table_wordacc, .inl rfl⟩ exec prog args hc.prog hb
    hc.many hc.nul).2.2 _ ss hc
  rw [run]
  dsimp only [wordacc]
  rw [if_neg (by omega), ← (given_iff hV 0 s).1 hs]
  obtain ⟨S, init⟩ := stopwords_init (exec := exec) (errmsg := errmsg) U L prop nfc hj junk' hfs ha
  rw [init, bind_def, Out.bind]
  generalize hm : (readWords exec errmsg U prop nfc junk junk' fs names >>= _) = m
  have mute : Mute m := by
    rw [← hm]
    exact (mute_readWords _ _ _ _ _ _ _).bind (fun _ => (mute_plain _).bind (fun _ => (mute_create _ _).bind (fun _ =>
      (mute_plain _).bind (fun _ => mute_ok _))))
  constructor
  · intro e out h
    cases m with
    | ok e' a =>
      rw [mute _ _ rfl] at h
      simp only [Out.after, List.append_nil] at h
      cases h
      rfl
    | _ => cases h
  · intro k e h
    cases m with
    | exit k' e' => cases h; exact ⟨e', rfl⟩
    | _ => cases h

/-- C87 (every case, texts).  All texts are read, or there is a first one that is not. -/
theorem c87_text_cases (exec errmsg : List Nat) (fs : Fs) (hfs : ∀ name file, fs name = some file → Bytes file) (names : List (List Nat)) :
    (∃ os, AllRead fs ReadsText names os) ∨ ∃ name line, Halts fs ReadsText (TextFault exec errmsg fs) names name line := by
  induction names with
  | nil => exact .inl ⟨[], .nil⟩
  | cons n names ih =>
    cases e : fs n with
    | none => exact .inr ⟨n, _, [], names, [], rfl, .nil, .missing e⟩
    | some file =>
      by_cases hw : AnyText.WellFormed file
      · rcases ih with ⟨os, hr⟩ | ⟨name, line, pre, post, os, rfl, hr, hf⟩
        · exact .inl ⟨() :: os, .cons ⟨file, e, hw⟩ hr⟩
        · exact .inr ⟨name, line, n :: pre, post, () :: os, rfl, .cons ⟨file, e, hw⟩ hr, hf⟩
      · obtain ⟨m, h⟩ := AnyText.read_refused ⟨fun _ => .CN, id⟩ [] false false file (hfs _ _ e) (by simp [Bytes]) hw
        exact .inr ⟨n, _, [], names, [], rfl, .nil, .broken file m e ((read_broken _ _ _ _ _ (hfs _ _ e) (by simp [Bytes]) m).1 h)⟩

/-! ## Non-vacuity -/

/-- The second report is no report, and cannot be opened. -/
example : (editopsum (threeFiles oddEditop (ascii "no report\n") [])).run [ascii "bin/editopsum", ascii "x", ascii "y"] =
      .exit 1 (ascii "editopsum: invalid format in \"y\"\n") ∧
    (editopcost (threeFiles oddEditop [] [])).run [ascii "./editopcost", ascii "x", ascii "q"] =
      .exit 1 (ascii "editopcost: unable to open file \"q\"\n") := by
  have L := pair_line [] "bin/editopsum" "x" "y" (by decide +kernel) (by decide +kernel) (by decide +kernel)
  have L' := pair_line [] "./editopcost" "x" "q" (by decide +kernel) (by decide +kernel) (by decide +kernel)
  constructor
  · rw [(c87_editop (threeFiles oddEditop (ascii "no report\n") []) (ascii "editopsum") _ _ _ _ (by decide +kernel) L (ascii "y") "invalid format in"
      ⟨[ascii "x"], [], [()], rfl, .cons ⟨_, rfl, reads_odd⟩ .nil, .format _ (file_y _ _ _) (by decide +kernel)⟩).1 (by simp)]
    decide +kernel
  · rw [(c87_editop (threeFiles oddEditop [] []) (ascii "editopcost") _ _ _ _ (by decide +kernel) L' (ascii "q") "unable to open file"
      ⟨[ascii "x"], [], [()], rfl, .cons ⟨_, rfl, reads_odd⟩ .nil, .missing (by decide +kernel)⟩).2 (by simp)]
    decide +kernel

/-- The same for word accuracy reports. -/
example : (wordaccsum [] Acc.samplePct (threeFiles (briefWordacc "3" "1") [] [])).run [ascii "wordaccsum", ascii "x", ascii "y"] =
      .exit 1 (ascii "wordaccsum: invalid format in \"y\"\n") ∧
    (wordaccdist false (threeFiles (briefWordacc "3" "1") [] [])).run [ascii "wordaccdist", ascii "x", ascii "y"] =
      .exit 1 (ascii "wordaccdist: invalid format in \"y\"\n") := by
  have L := pair_line [] "wordaccsum" "x" "y" (by decide +kernel) (by decide +kernel) (by decide +kernel)
  have L' := pair_line [] "wordaccdist" "x" "y" (by decide +kernel) (by decide +kernel) (by decide +kernel)
  constructor
  · rw [((c87_wordacc [] (threeFiles (briefWordacc "3" "1") [] []) (ascii "wordaccsum") _ _ _ _ (by decide +kernel) L (ascii "y") "invalid format in" _ false).1 (by simp)
      ⟨[ascii "x"], [], [(3, 1)], rfl, .cons ⟨_, rfl, reads_brief⟩ .nil, .format _ (file_y _ _ _) (by decide +kernel)⟩).1]
    decide +kernel
  · rw [(c87_wordacc [] (threeFiles (briefWordacc "3" "1") [] []) (ascii "wordaccdist") _ _ _ _ (by decide +kernel) L' (ascii "y") "invalid format in" Acc.samplePct _).2
      ⟨[ascii "x"], [], [(3, 1)], rfl, .cons ⟨_, rfl, reads_brief, by unfold Moderate Over; decide +kernel⟩ .nil,
        .format _ (file_y _ _ _) (by decide +kernel)⟩]
    decide +kernel

/-- An accuracy report with a row without a brace. -/
def loseTop : List Nat := oddTop ++ ascii "       2        1    50.00   ab}\n"

example : (accsum [] sampleUnicode Acc.samplePct (threeFiles oddTop loseTop [])).run [ascii "accsum", ascii "x", ascii "y"] =
      .exit 1 (ascii "accsum: invalid character in \"y\"\n") ∧
    (accdist true (threeFiles oddTop loseTop [])).run [ascii "accdist", ascii "x", ascii "y"] =
      .exit 1 (ascii "accdist: invalid character in \"y\"\n") := by
  have L := pair_line [] "accsum" "x" "y" (by decide +kernel) (by decide +kernel) (by decide +kernel)
  have L' := pair_line [] "accdist" "x" "y" (by decide +kernel) (by decide +kernel) (by decide +kernel)
  have B : ∀ name file, threeFiles oddTop loseTop [] name = some file → Bytes file :=
    three_bytes (bytes_ascii (by decide +kernel)) (bytes_ascii (by decide +kernel)) (by simp [Bytes])
  have N : ∀ l v, Names l v → l.head? = some 123 := by intro l v h; cases h <;> rfl
  have F : AccuracyFault (threeFiles oddTop loseTop []) (ascii "y") "invalid character in" :=
    .character _ ⟨oddHead, [⟨1, 0, ascii "1 0 of what    {a}-{b}\n"⟩], [⟨2, 1, ascii "       2        1    50.00   ab}\n"⟩]⟩ [] [] _ [] (file_y _ _ _)
      (by decide +kernel) (by unfold HasNames; decide +kernel) rfl .nil ⟨by decide +kernel, by decide +kernel, fun v h => by
        have e := N _ _ h
        exact absurd e (by decide +kernel)⟩
  constructor
  · rw [((c87_accuracy [] _ (ascii "accsum") _ _ _ _ (by decide +kernel) L (ascii "y") "invalid character in" B sampleUnicode Acc.samplePct false).1
      (by simp) ⟨[ascii "x"], [], [(3, 1)], rfl, .cons ⟨_, rfl, reads_top⟩ .nil, F⟩).1]
    decide +kernel
  · rw [(c87_accuracy [] _ (ascii "accdist") _ _ _ _ (by decide +kernel) L' (ascii "y") "invalid character in" B sampleUnicode Acc.samplePct true).2
      ⟨[ascii "x"], [], [(3, 1)], rfl, .cons ⟨_, rfl, reads_top, by unfold Moderate Over; decide +kernel⟩ .nil, F⟩]
    decide +kernel

/-- The command line: nothing, an option that does not exist, and a request for help in the middle. -/
example (fs : Fs) : (accsum [] sampleUnicode Acc.samplePct fs).run [ascii "accsum"] =
      .exit 0 (ascii "Usage:  accsum accuracy_report1 accuracy_report2 ... >accuracy_report\n") ∧
    (accsum [] sampleUnicode Acc.samplePct fs).run [ascii "accsum", ascii "x", ascii "-v", ascii "y"] =
      .exit 1 (ascii "accsum: invalid option \"-v\"\n") := by
  have T : Takes [] (accsum [] sampleUnicode Acc.samplePct fs).option := takes_none rfl
  constructor
  · rw [(c87_command _ [] T (ascii "accsum") (ascii "accsum") [] (by decide +kernel) (by decide +kernel) (by simp) (by simp)).1 rfl]
    have : usageLine (ascii "accsum") (ascii "accuracy_report1 accuracy_report2 ... >accuracy_report") =
        ascii "Usage:  accsum accuracy_report1 accuracy_report2 ... >accuracy_report\n" := by decide +kernel
    exact congrArg _ this
  · rw [(c87_command _ [] T (ascii "accsum") (ascii "accsum") [ascii "x", ascii "-v", ascii "y"] (by decide +kernel) (by decide +kernel) (by simp)
      (by decide +kernel)).2.1 [ascii "x"] (ascii "-v") [ascii "y"] [ascii "x"] [] "invalid option" rfl
        (.operand (by rintro ⟨c, r, e⟩; simp [ascii] at e) .nil) (by simp [Args.Once])
        (.unknown (c := 118) (r := []) (by unfold Args.Help; decide +kernel) (by simp)), if_neg (by decide +kernel)]
    have : namedLine (ascii "accsum") (ascii "invalid option") (ascii "-v") = ascii "accsum: invalid option \"-v\"\n" := by decide +kernel
    exact congrArg _ this

/-- Three texts that stop being text after the first letter. -/
def leadText : List Nat := [97, 0xFF, 98]
def shortText : List Nat := [97, 0xE2, 0x80]
def otherText : List Nat := [97, 0xE2, 65, 66]

theorem broken_lead : Broken (AnyText.bodyOf leadText) "invalid UTF-8 character" :=
  (c87_utf8 sampleUnicode [] (by simp [Bytes]) false false leadText (bytes_ascii (by decide +kernel)) _).1 (by decide +kernel)
theorem broken_short : Broken (AnyText.bodyOf shortText) "unexpected end of input" :=
  (c87_utf8 sampleUnicode [] (by simp [Bytes]) false false shortText (bytes_ascii (by decide +kernel)) _).1 (by decide +kernel)
theorem broken_other : Broken (AnyText.bodyOf otherText) "utf8proc_errmsg" :=
  (c87_utf8 sampleUnicode [] (by simp [Bytes]) false false otherText (bytes_ascii (by decide +kernel)) _).1 (by decide +kernel)

theorem broken_bytes : ∀ name file, threeFiles leadText shortText otherText name = some file → Bytes file :=
  three_bytes (bytes_ascii (by decide +kernel)) (bytes_ascii (by decide +kernel)) (bytes_ascii (by decide +kernel))

/-- The file is named only if it cannot be opened. -/
example : (accuracy (ascii "bad") (fun _ => true) sampleUnicode Acc.samplePct [] (threeFiles leadText shortText otherText)).run
      [ascii "accuracy", ascii "z", ascii "x"] = .exit 1 (ascii "accuracy: bad\n") ∧
    (editop (ascii "bad") (fun _ => true) sampleUnicode [] (threeFiles leadText shortText otherText)).run
      [ascii "editop", ascii "q", ascii "x"] = .exit 1 (ascii "editop: unable to open file \"q\"\n") ∧
    (synctext (ascii "bad") sampleUnicode [] (threeFiles textX shortText [])).run
      [ascii "synctext", ascii "x", ascii "y"] = .exit 1 (ascii "synctext: unexpected end of input\n") ∧
    (vote (ascii "bad") (fun _ => true) sampleUnicode true [] (threeFiles textX leadText [])).run
      [ascii "vote", ascii "x", ascii "y"] = .exit 1 (ascii "vote: invalid UTF-8 character\n") ∧
    (ngram (ascii "bad") sampleUnicode true [] (threeFiles textX otherText [])).run
      [ascii "ngram", ascii "x", ascii "y"] = .exit 1 (ascii "ngram: bad\n") := by
  have L := fun T p h => pair_line T p "x" "y" h (by decide +kernel) (by decide +kernel)
  have L1 := pair_line [] "accuracy" "z" "x" (by decide +kernel) (by decide +kernel) (by decide +kernel)
  have L2 := pair_line [(68, .flag 0)] "editop" "q" "x" (by decide +kernel) (by decide +kernel) (by decide +kernel)
  have X : ∀ {b c : List Nat}, AllRead (threeFiles textX b c) ReadsText [ascii "x"] [()] :=
    .cons ⟨_, rfl, (AnyText.textOf_iff sampleUnicode false _).1 ⟨_, of_x⟩⟩ .nil
  have B : ∀ {b : List Nat}, Bytes b → ∀ name file, threeFiles textX b [] name = some file → Bytes file :=
    fun h => three_bytes (bytes_ascii (by decide +kernel)) h (by simp [Bytes])
  refine ⟨?_, ?_, ?_, ?_, ?_⟩
  · rw [(c87_pair (ascii "bad") _ _ [] (by simp [Bytes]) _ broken_bytes (ascii "accuracy") _ _ _ _ (by decide +kernel) _ _ _ [] rfl (by simp) _
      (.first _ (.broken _ _ (file_z _ _ _) broken_other))).1 L1]
    decide +kernel
  · rw [(c87_pair (ascii "bad") _ _ [] (by simp [Bytes]) _ broken_bytes (ascii "editop") _ _ _ _ (by decide +kernel) Acc.samplePct _ _ [] rfl (by simp) _
      (.first _ (.missing (by decide +kernel)))).2 L2]
    decide +kernel
  · rw [(c87_many (ascii "bad") (fun _ => true) _ [] (by simp [Bytes]) _ (B (bytes_ascii (by decide +kernel))) (ascii "synctext") _ _ _ _ (by decide +kernel)
      sampleFacts true _ _ ⟨[ascii "x"], [], [()], rfl, X, .broken _ _ (file_y _ _ _) broken_short⟩).2.1 (L _ _ (by decide +kernel)) (by simp) (by simp)]
    decide +kernel
  · rw [(c87_many (ascii "bad") (fun _ => true) _ [] (by simp [Bytes]) _ (B (bytes_ascii (by decide +kernel))) (ascii "vote") _ _ _ _ (by decide +kernel)
      sampleFacts true _ _ ⟨[ascii "x"], [], [()], rfl, X, .broken _ _ (file_y _ _ _) broken_lead⟩).1 (L _ _ (by decide +kernel)) (by simp) (by simp)]
    decide +kernel
  · rw [(c87_many (ascii "bad") (fun _ => true) _ [] (by simp [Bytes]) _ (B (bytes_ascii (by decide +kernel))) (ascii "ngram") _ _ _ _ (by decide +kernel)
      sampleFacts true _ _ ⟨[ascii "x"], [], [()], rfl, X, .broken _ _ (file_y _ _ _) broken_other⟩).2.2 (L _ _ (by decide +kernel)) (by decide +kernel)
      ⟨none, 1, by intro x; simp, .inl ⟨rfl, rfl⟩⟩]
    decide +kernel

/-- A report that cannot be written, after two warnings. -/
example : (wordacc (ascii "bad") (fun _ => false) sampleUnicode Word.wbProp some Acc.samplePct [] 0 (threeFiles (ascii "a cat is a cat") (ascii "the cat") [])).run
      [ascii "wordacc", ascii "-S", ascii "x", ascii "x", ascii "y", ascii "r"] =
    .exit 1 (ascii "wordacc: duplicate stopword \"a\"\nwordacc: duplicate stopword \"cat\"\nwordacc: unable to create file \"r\"\n") := by
  decide +kernel

/-- What is printed by a run that succeeds. -/
def printed {α : Type} : Out α → Option (List Nat)
  | .ok e _ => some e
  | _ => none

/-- Without a name for the report the run succeeds, and the warnings are all. -/
example : printed ((wordacc (ascii "bad") (fun _ => false) sampleUnicode Word.wbProp some Acc.samplePct [] 0
      (threeFiles (ascii "a cat is a cat") (ascii "the cat") [])).run [ascii "wordacc", ascii "-S", ascii "x", ascii "x", ascii "y"]) =
    some (ascii "wordacc: duplicate stopword \"a\"\nwordacc: duplicate stopword \"cat\"\n") := by decide +kernel

end Ocr.Process
