import Verif.Spec.Scripts
import Verif.Props.World
import Verif.Props.EditopTrace

/-!
# C99: scripts
-/

namespace Ocr.Disk
open Text Prog Process Spec

attribute [local irreducible] Follows Runs

/-- The name of the program can be determined. -/
theorem base_line {T : List (Nat × Args.Kind)} {prog : List Nat} {args ops : List (List Nat)} {ss : List Args.Setting}
    (h : CommandLine T prog args ops ss) : ∃ exec, Args.basefilename prog = .ok exec := by
  obtain ⟨b, hb, _⟩ := Args.init_eq (os := some (T.map Args.optOf)) (u := true) (args := args) (V := start) h.prog
  exact ⟨b, hb⟩

/-- Calls that write one report each: afterwards all reports are there. -/
theorem calls_done {β : Type} (P : Program) (Good : Fs → Call → β → Prop) (Rep : β → List Nat → Prop) (quiet : Prop)
    (hrun : ∀ w c p, w.opened = [] → Good w.files c p → ∃ w' e bytes, P.run (c.prog :: c.args) w = .ok () w' ∧
      Done w e [] ⟨some c.report, bytes⟩ w' ∧ Rep p bytes ∧ (quiet → e = []))
    (hlocal : ∀ files files' c p, (∀ n ∈ c.inputs, files' n = files n) → Good files c p → Good files' c p) :
    ∀ (cs : List Call) (ps : List β) (w : World), w.opened = [] → w.room = none → List.Forall₂ (Good w.files) cs ps → Separate cs →
      ∃ w' reports e, calls P cs w = .ok () w' ∧ w'.opened = [] ∧ w'.input = w.input ∧ w'.out = w.out ∧ w'.err = w.err ++ e ∧
        List.Forall₂ Rep ps reports ∧ List.Forall₂ (fun name file => w'.files name = some file) (cs.map Call.report) reports ∧
        (∀ name, name ∉ cs.map Call.report → w'.files name = w.files name) ∧ (quiet → e = []) := by
  intro cs
  induction cs with
  | nil =>
    intro ps w ho _ hp _
    cases hp
    exact ⟨w, [], [], rfl, ho, rfl, rfl, by simp, .nil, .nil, fun _ _ => rfl, fun _ => rfl⟩
  | cons c cs ih =>
    intro ps w ho hroom hp hs
    cases hp with
    | cons h1 hp =>
      rename_i p ps
      obtain ⟨w1, e, bytes, hr, hd, hrep, hq⟩ := hrun w c p ho h1
      have hfiles : w1.files = fun x => if x = c.report then some bytes else w.files x := by have := hd.files; rw [hroom] at this; exact this
      obtain ⟨hs1, hs2⟩ := List.pairwise_cons.1 hs
      have hp' : List.Forall₂ (Good w1.files) cs ps := by
        clear ih hs hs2
        induction hp with
        | nil => exact .nil
        | cons k _ ih =>
          refine .cons (hlocal _ _ _ _ (fun n hn => ?_) k) (ih (fun d hd => hs1 d (List.mem_cons_of_mem _ hd)))
          rw [hfiles]
          have : n ≠ c.report := fun h => (hs1 _ (List.mem_cons_self ..)).1 (h ▸ hn)
          simp only [if_neg this]
      obtain ⟨w', reports, e', r1, r2, r3, r4, r5, r6, r7, r8, r9⟩ := ih ps w1 (hd.opened.trans ho) (by rw [hd.room, hroom]; rfl) hp' hs2
      have hout : w1.out = w.out := by
        have := hd.out
        simpa [printed] using this
      refine ⟨w', bytes :: reports, e ++ e', ?_, r2, r3.trans hd.input, r4.trans hout, ?_, .cons hrep r6, .cons ?_ r7, ?_, fun h => by rw [hq h, r9 h]; rfl⟩
      · rw [calls, wbind_ok hr]
        exact r1
      · rw [r5, hd.err, List.append_assoc]
      · rw [r8 c.report (fun h => by
          obtain ⟨d, hd, e⟩ := List.mem_map.1 h
          exact (hs1 d hd).2 e.symm), hfiles]
        simp
      · intro name hn
        simp only [List.map_cons, List.mem_cons, not_or] at hn
        rw [r8 name hn.2, hfiles]
        simp only [if_neg hn.1]

/-- What a program prints goes to the file. -/
theorem redirect_done {name : List Nat} {m : W Unit} {w : World} {bytes : List Nat} {w1 : World}
    (h : m { w with files := store w.files name [], out := [] } = .ok () w1)
    (hd : Done { w with files := store w.files name [], out := [] } [] [] ⟨none, bytes⟩ w1) :
    ∃ w', redirect name m w = .ok () w' ∧ w'.files = store w.files name bytes ∧ w'.opened = w.opened ∧ w'.input = w.input ∧ w'.out = w.out ∧
      w'.err = w.err := by
  refine ⟨{ w1 with files := store w1.files name w1.out, out := w.out, past := w.past }, by rw [redirect, h], ?_, hd.opened, hd.input, rfl, ?_⟩
  · have h1 : w1.files = store w.files name [] := hd.files
    have h2 : w1.out = bytes := by
      have := hd.out
      simpa [printed] using this
    show store w1.files name w1.out = _
    rw [h1, h2]
    funext x
    simp only [store]
    split <;> rfl
  · have := hd.err
    simpa using this

/-- A program that stops leaves what it has printed. -/
theorem redirect_exit {name : List Nat} {m : W Unit} {w w1 : World} {s : Nat} {e : List Nat}
    (h : m { w with files := store w.files name [], out := [] } = .exit s w1)
    (hd : Ended { w with files := store w.files name [], out := [] } e w1) (ho : w1.out = []) :
    ∃ w', redirect name m w = .exit s w' ∧ w'.files = store w.files name [] ∧ w'.out = w.out ∧ w'.err = w.err ++ e := by
  refine ⟨{ w1 with files := store w1.files name w1.out, out := w.out, past := w.past }, by rw [redirect, h], ?_, rfl, hd.err⟩
  have h1 : w1.files = store w.files name [] := hd.files
  show store w1.files name w1.out = _
  rw [h1, ho]
  funext x
  simp only [store]
  split <;> rfl

theorem store_ne {files : Fs} {name x bytes : List Nat} (h : x ≠ name) : store files name bytes x = files x := by
  simp only [store, if_neg h]

theorem store_eq {files : Fs} {name bytes : List Nat} : store files name bytes name = some bytes := by
  simp only [store, if_true]

theorem still {files : Fs} {name bytes : List Nat} {names reports : List (List Nat)} (hn : name ∉ names)
    (h : List.Forall₂ (fun name file => files name = some file) names reports) :
    List.Forall₂ (fun x file => store files name bytes x = some file) names reports := by
  induction h with
  | nil => exact .nil
  | cons h _ ih =>
    simp only [List.mem_cons, not_or] at hn
    exact .cons (by rw [store_ne (Ne.symm hn.1)]; exact h) (ih hn.2)

theorem held {files files' : Fs} {name other : List Nat} {names reports : List (List Nat)} {Ds : List Edo.Edodata}
    (hw : ∀ x, x ≠ other → x ≠ name → files' x = files x) (hn : name ∉ names)
    (h : List.Forall₂ (fun name file => files name = some file) names reports)
    (h' : List.Forall₂ (fun file D => Edo.read_edorpt Edo.Edodata.zero file = .ok D) reports Ds) :
    List.Forall₂ (fun x D => x ≠ other → ∃ file, files' x = some file ∧ Edo.read_edorpt Edo.Edodata.zero file = .ok D) names Ds := by
  induction h generalizing Ds with
  | nil => cases h'; exact .nil
  | cons h _ ih =>
    cases h' with
    | cons k h' =>
      simp only [List.mem_cons, not_or] at hn
      exact .cons (fun ho => ⟨_, by rw [hw _ ho (Ne.symm hn.1)]; exact h, k⟩) (ih hn.2 h')

/-- A program that adds up reports stops at a report that is refused, and has printed nothing then. -/
theorem halted {α : Type} {exec prog : List Nat} {args names : List (List Nat)} {ss : List Args.Setting} (hb : Args.basefilename prog = .ok exec)
    (hc : CommandLine [] prog args names ss) {Q : Program} (ho : Q.option = none) {step : α → List Nat → Res α} {a : α} {g : α → W Unit}
    (hQ : ∀ V, Q.body exec names V = forReports exec step names a >>= g) {w : World} (hw : Fresh w) {s : Nat} {e : List Nat}
    (h : Process.forReports exec w.files step names a = .exit s e) :
    ∃ w', Q.run (prog :: args) w = .exit s w' ∧ Ended w e w' ∧ w'.out = w.out := by
  obtain ⟨V, hV⟩ := body_none exec prog args names ss hb hc
    (P := { usage := Q.usage, option := none, body := fun e a V => .ok [] (e, a, V) }) rfl
  have hi : initialize_ Q.usage Q.option (prog :: args) start = .ok [] (exec, names, V) := by
    rw [ho]
    unfold Process.Program.run at hV
    simp only at hV
    revert hV
    cases initialize_ Q.usage none (prog :: args) start <;> intro hV <;> rw [bind_def] at hV <;> simp_all [Out.bind, Out.after]
  have h1 := follows_say (initialize_ Q.usage Q.option (prog :: args) start) w
  rw [hi] at h1
  unfold Follows at h1
  obtain ⟨w1, k1, k2⟩ := h1
  have h2 := reads_forReports exec step names a w1 (k2.fresh hw)
  dsimp only at h2
  rw [k2.files, h] at h2
  unfold Follows at h2
  obtain ⟨w2, l1, l2, l3⟩ := h2
  refine ⟨w2, ?_, by simpa using k2.ended l2, l3.trans k2.out⟩
  unfold Program.run
  rw [hi, wbind_ok k1]
  simp only [hQ]
  exact wbind_exit l1

theorem others_read {β : Type} {files : Fs} {name bytes : List Nat} {R : List Nat → β → Prop} {pre : List (List Nat)} {os : List β}
    (hn : name ∉ pre) (h : Ending.AllRead files R pre os) : Ending.AllRead (store files name bytes) R pre os := by
  unfold Ending.AllRead at h ⊢
  induction h with
  | nil => exact .nil
  | cons h _ ih =>
    simp only [List.mem_cons, not_or] at hn
    exact .cons (by rw [store_ne (Ne.symm hn.1)]; exact h) (ih hn.2)

theorem editop_fault {fs : Fs} (D : Edo.Edodata) {name : List Nat} {msg : String} (h : EditopFault fs name msg) :
    (fs name = none ∧ msg = "unable to open file") ∨ ∃ file, fs name = some file ∧ Edo.read_edorpt D file = .err msg := by
  cases h with
  | missing h => exact .inl ⟨h, rfl⟩
  | format file h h' =>
    have k := AnyReport.c69_editop D file
    rw [h'] at k
    exact .inr ⟨file, h, k⟩

/-- C99 (onto a report).  A sum that is redirected onto one of the reports destroys that report, but is never taken for the sum of the
others: the program refuses the report, which is empty, says so, and ends with status 1. -/
theorem c99_onto (errmsg : List Nat) (U : Unicode) (pct : Int → Int → List Nat) (exec prog : List Nat) (args pre post : List (List Nat))
    (name : List Nat) (ss : List Args.Setting) (hb : Args.basefilename prog = .ok exec) (hc : CommandLine [] prog args (pre ++ name :: post) ss)
    (h2 : 2 ≤ (pre ++ name :: post).length) (hn : name ∉ pre) (w : World) (hw : Fresh w)
    (hfs : ∀ name file, w.files name = some file → Bytes file) :
    let Refused := fun (P : Program) => ∃ w', redirect name (P.run (prog :: args)) w = .exit 1 w' ∧ w'.files = store w.files name [] ∧
      w'.out = w.out ∧ w'.err = w.err ++ namedLine exec (ascii "invalid format in") name
    (∀ os, Ending.AllRead w.files Ending.ReadsEditop pre os → Refused (editopsum errmsg)) ∧
    (∀ os, Ending.AllRead w.files Ending.ReadsWordacc pre os → Refused (wordaccsum errmsg pct)) ∧
    (∀ os, Ending.AllRead w.files Ending.ReadsAccuracy pre os → Refused (accsum errmsg U pct)) := by
  intro Refused
  have hw0 : Fresh { w with files := store w.files name [], out := [] } := hw
  have h2' : ¬ (pre ++ name :: post).length < 2 := by omega
  refine ⟨fun os h => ?_, fun os h => ?_, fun os h => ?_⟩
  · obtain ⟨w1, k1, k2, k3⟩ := halted hb hc (Q := editopsum errmsg) rfl (fun V => by dsimp only [editopsum]; rw [if_neg h2']) hw0
      (forReports_halts (exec := exec) (P := fun _ => True) (F := EditopFault (store w.files name [])) (fun _ _ _ => trivial)
        (fun D f o _ hr => Ending.editop_reads D f hr)
        (fun D x msg h => editop_fault D h) Edo.Edodata.zero
        ⟨pre, post, os, rfl, others_read hn h, .format [] store_eq (by decide +kernel)⟩)
    exact redirect_exit k1 k2 k3
  · obtain ⟨w1, k1, k2, k3⟩ := halted hb hc (Q := wordaccsum errmsg pct) rfl (fun V => by dsimp only [wordaccsum]; rw [if_neg h2']) hw0
      (forReports_halts (exec := exec) (P := fun _ => True) (F := WordaccFault (store w.files name [])) (fun _ _ _ => trivial)
        (fun D f o _ hr => by obtain ⟨E, e, _⟩ := Ending.wordacc_reads D f o hr; exact ⟨E, e⟩)
        (fun D x msg h => wordacc_fault D h) Wac.Wacdata.zero
        ⟨pre, post, os, rfl, others_read hn h, .format [] store_eq (by decide +kernel)⟩)
    exact redirect_exit k1 k2 k3
  · have hfs' : ∀ x file, store w.files name [] x = some file → Bytes file := by
      intro x file h
      simp only [store] at h
      split at h
      · cases h; exact fun _ h => nomatch h
      · exact hfs _ _ h
    obtain ⟨w1, k1, k2, k3⟩ := halted hb hc (Q := accsum errmsg U pct) rfl (fun V => by dsimp only [accsum]; rw [if_neg h2']) hw0
      (forReports_halts (exec := exec) (P := Bytes) (F := AccuracyFault (store w.files name [])) hfs'
        (fun D f o hf hr => by obtain ⟨_, _, E, e, _⟩ := Ending.accuracy_reads D f hf o hr; exact ⟨E, e⟩)
        (fun D x msg h => accuracy_fault hfs' D h) Acc.Accdata.zero
        ⟨pre, post, os, rfl, others_read hn h, .format [] store_eq (by decide +kernel)⟩)
    exact redirect_exit k1 k2 k3

/-! ## Single calls -/

theorem editopCall_local (U : Unicode) (files files' : Fs) (c : Call) (p : List Ch × List Ch) (h : ∀ n ∈ c.inputs, files' n = files n)
    (hg : EditopCall U files c p) : EditopCall U files' c p := by
  obtain ⟨a, b, f0, f1, ss, h1, h2, h3, h4, h5, h6, h7⟩ := hg
  exact ⟨a, b, f0, f1, ss, h1, h2, h3, h4, (h a h3).trans h5, (h b h4).trans h6, h7⟩

theorem wordaccCall_local (U : Unicode) (prop : Nat → Word.WB) (nfc : List Nat → Option (List Nat)) (files files' : Fs) (c : Call) (p : WordPage)
    (h : ∀ n ∈ c.inputs, files' n = files n) (hg : WordaccCall U prop nfc files c p) : WordaccCall U prop nfc files' c p := by
  obtain ⟨a, b, f0, f1, ss, t0, t1, h1, h2, h3, h4, h5, h6, h7, h8, h9, h10, h11, h12⟩ := hg
  refine ⟨a, b, f0, f1, ss, t0, t1, h1, h2, h3, h4, (h a h2).trans h5, (h b h3).trans h6, h7, h8, h9, h10, h11, ?_⟩
  rcases h12 with h12 | ⟨name, file, t, k1, k2, k3⟩
  · exact .inl h12
  · exact .inr ⟨name, file, t, k1, (h name (h4 name k1)).trans k2, k3⟩

section
variable (errmsg : List Nat) (creatable : List Nat → Bool) (hcr : ∀ n, creatable n = true) (U : Unicode) (junk : List Nat)
include hcr

theorem editop_call (w : World) (c : Call) (p : List Ch × List Ch) (hl : p.1.length + p.2.length < 10^13) (ho : w.opened = [])
    (h : EditopCall U w.files c p) : ∃ w' bytes, (editop errmsg creatable U junk).run (c.prog :: c.args) w = .ok () w' ∧
      Done w [] [] ⟨some c.report, bytes⟩ w' ∧ EditopReport U p bytes := by
  obtain ⟨a, b, f0, f1, ss, hc, hD, _, _, g0, g1, hh, p0, p1⟩ := h
  obtain ⟨bs, V, e, hV⟩ := init_args table_editop hc
  obtain ⟨r, D, ls, tr, _, e2, _, _, _, h4⟩ := Edo.c76_editop (p.1.map Ch.value) (p.2.map Ch.value) (by simp; omega)
  have hn : ¬ ([a, b, c.report].length < 2 ∨ [a, b, c.report].length > 3) := by simp
  have hpair : Prog.readPair U junk w.files [a, b, c.report] = .ok (p.1, p.2) := readPair_eq g0 g1 hh (.inl ⟨hh, p0⟩) p1
  have hdebug : editopDebug U junk w.files (c.prog :: c.args) = .ok ([], ⟨some c.report, Edo.write_edorpt D⟩) := by
    unfold editopDebug
    rw [show Args.initialize_ (some Args.editopOptions) true (c.prog :: c.args) start = _ from e, Res.bind_ok]
    simp only
    rw [if_neg hn, hpair, Res.bind_ok, h4, Res.bind_ok, if_neg (fun h => hD ((hV.2 0).1 h))]
    rfl
  have hmain : editopMain U junk w.files (c.prog :: c.args) = .ok ⟨some c.report, Edo.write_edorpt D⟩ := by
    unfold editopMain
    rw [show Args.initialize_ (some Args.editopOptions) true (c.prog :: c.args) start = _ from e, Res.bind_ok]
    simp only
    rw [if_neg hn, hpair, Res.bind_ok]
    simp only
    rw [e2, Res.bind_ok]
    rfl
  obtain ⟨exec, hb⟩ := base_line hc
  obtain ⟨er, he⟩ := ends_ok (hdebug ▸ (c87_texts errmsg creatable hcr exec c.prog c.args hb U (fun _ => .Other) (fun x => some x)
    (fun _ _ => []) junk 0 false w.files).2.1)
  have hq := (c87_quiet errmsg creatable U (fun _ => .Other) (fun x => some x) (fun _ _ => []) junk 0 false false w.files exec c.prog c.args hb er).2.1 _ he
  subst hq
  obtain ⟨w1, hr, hd⟩ := (c97_reports errmsg creatable U (fun _ => .Other) (fun x => some x) (fun _ _ => []) junk 0 (c.prog :: c.args) w
    (by intro o h; rw [ho] at h; cases h)).1.produces _ _ he
  exact ⟨w1, _, hr, hd, junk, w.files, c.prog, c.args, ss, some c.report, ⟨a, b, [c.report], f0, f1, hc, by simp, g0, g1, hh, p0, p1⟩, hmain⟩

theorem wordacc_call (prop : Nat → Word.WB) (nfc : List Nat → Option (List Nat)) (pct : Int → Int → List Nat) (hpct : Acc.PctFormat pct)
    (hj : Bytes junk) (junk' : Nat) (w : World) (c : Call) (p : WordPage) (hm : Manageable p) (hl : p.correct.length < 10^8) (ho : w.opened = [])
    (h : WordaccCall U prop nfc w.files c p) : ∃ w' e bytes,
      (wordacc errmsg creatable U prop nfc pct junk junk').run (c.prog :: c.args) w = .ok () w' ∧ Done w e [] ⟨some c.report, bytes⟩ w' ∧
      WordaccReport U prop nfc pct p bytes := by
  obtain ⟨a, b, f0, f1, ss, t0, t1, hc, _, _, _, g0, g1, hh, p0, p1, hu, hv, hs⟩ := h
  obtain ⟨bytes, flags, D, E, hmain, _⟩ := c59_wordacc U prop nfc pct hpct junk hj junk' w.files c.prog c.args a b [c.report] ss hc (by simp)
    f0 f1 g0 g1 t0 t1 hh p0 p1 p.correct p.generated p.stops hu hv hs hm.1 hm.2 hl
  obtain ⟨exec, hb⟩ := base_line hc
  obtain ⟨er, he⟩ := ends_ok (hmain ▸ (c87_texts errmsg creatable hcr exec c.prog c.args hb U prop nfc pct junk junk' false w.files).2.2.1)
  obtain ⟨w1, hr, hd⟩ := (c97_reports errmsg creatable U prop nfc pct junk junk' (c.prog :: c.args) w
    (by intro o h; rw [ho] at h; cases h)).2.1.produces _ _ he
  exact ⟨w1, er, _, hr, hd, junk, junk', w.files, c.prog, c.args, ss, some c.report, t0, t1, hj,
    ⟨a, b, [c.report], f0, f1, hc, by simp, g0, g1, hh, p0, p1⟩, hu, hv, hs, hmain⟩

/-! ## Scripts -/

/-- C99 (edit operations).  `editop` for every page, `editopsum report1 report2 ... >sum`, `editopcost sum >xy`.  The script ends normally
without a message; the sum states the sizes of the multiset differences of all pages together; the costs are the sums of the costs of the
pages; no other file is changed, and none is open. -/
theorem c99_editop (cs : List Call) (pages : List (List Ch × List Ch)) (w : World) (ho : w.opened = []) (hroom : w.room = none)
    (hp : List.Forall₂ (EditopCall U w.files) cs pages) (hs : Separate cs) (hl : (pages.map (fun p => p.1.length + p.2.length)).sum < 10^13)
    (prog : List Nat) (args : List (List Nat)) (ss : List Args.Setting) (hc : CommandLine [] prog args (cs.map Call.report) ss)
    (h2 : 2 ≤ cs.length) (sum : List Nat) (hsum : sum ∉ cs.map Call.report)
    (prog' : List Nat) (args' : List (List Nat)) (ss' : List Args.Setting) (hc' : CommandLine [] prog' args' [sum] ss') (xy : List Nat) (hxy : xy ≠ sum) :
    ∃ w' bytes D Ds, (calls (editop errmsg creatable U junk) cs >>= fun _ => redirect sum ((editopsum errmsg).run (prog :: args)) >>= fun _ =>
        redirect xy (editopcost.run (prog' :: args'))) w = .ok () w' ∧
      w'.opened = [] ∧ w'.input = w.input ∧ w'.out = w.out ∧ w'.err = w.err ∧
      (∀ name, name ∉ cs.map Call.report → name ≠ sum → name ≠ xy → w'.files name = w.files name) ∧
      w'.files sum = some bytes ∧ Edo.read_edorpt Edo.Edodata.zero bytes = .ok D ∧
      D.total_insertions =
        (pages.map (fun p => (((p.1.map Ch.value).filter (fun c => c ≠ 126)).diff (p.2.map Ch.value)).length)).sum ∧
      D.total_deletions =
        (pages.map (fun p => ((p.2.map Ch.value).diff ((p.1.map Ch.value).filter (fun c => c ≠ 126))).length)).sum ∧
      List.Forall₂ (fun name E => name ≠ xy → ∃ file, w'.files name = some file ∧ Edo.read_edorpt Edo.Edodata.zero file = .ok E)
        (cs.map Call.report) Ds ∧
      w'.files xy = some ((List.range 101).flatMap (fun T : Nat =>
        fmtLong 3 T ++ [32] ++ fmtLong 10 (Ds.map (fun E => Edo.cost E T)).sum ++ [10])) := by
  have hl1 : ∀ p ∈ pages, p.1.length + p.2.length < 10^13 := fun p hp =>
    lt_of_le_of_lt (List.single_le_sum (by simp) _ (List.mem_map.2 ⟨p, hp, rfl⟩)) hl
  have hp' : List.Forall₂ (fun c p => EditopCall U w.files c p ∧ p.1.length + p.2.length < 10^13) cs pages := by
    clear hl hs hc h2 hsum
    induction hp with
    | nil => exact .nil
    | cons h _ ih => exact .cons ⟨h, hl1 _ (by simp)⟩ (ih (fun p hp => hl1 p (by simp [hp])))
  obtain ⟨w1, reports, e, r1, r2, r3, r4, r5, r6, r7, r8, r9⟩ := calls_done (editop errmsg creatable U junk)
    (fun files c p => EditopCall U files c p ∧ p.1.length + p.2.length < 10^13) (EditopReport U) True
    (fun w c p ho h => by
      obtain ⟨w', bytes, k1, k2, k3⟩ := editop_call errmsg creatable hcr U junk w c p h.2 ho h.1
      exact ⟨w', [], bytes, k1, k2, k3, fun _ => rfl⟩)
    (fun files files' c p h hg => ⟨editopCall_local U files files' c p h hg.1, hg.2⟩) cs pages w ho hroom hp' hs
  cases r9 trivial
  rw [List.append_nil] at r5
  obtain ⟨bytes, D, Ds, s1, s2, s3, s4, s5, s6⟩ := c62_editop U (store w1.files sum []) prog args _ ss hc (by simpa using h2) reports pages
    (still hsum r7) r6 (lt_trans hl (by norm_num))
  obtain ⟨exec, hb⟩ := base_line hc
  obtain ⟨e, he⟩ := ends_ok (s1 ▸ (c87_reports errmsg creatable hcr exec prog args hb U (fun _ => .Other) (fun x => some x) (fun _ _ => []) junk 0
    false (store w1.files sum [])).2.2.1)
  have hq := (c87_quiet errmsg creatable U (fun _ => .Other) (fun x => some x) (fun _ _ => []) junk 0 false false (store w1.files sum []) exec prog args
    hb e).2.2.2.2.2.2.2.2.1 _ he
  subst hq
  obtain ⟨w2, t1, t2⟩ := (c97_stdout errmsg U (fun _ => .Other) (fun x => some x) (fun _ _ => []) junk 0 false false (prog :: args)
    { w1 with files := store w1.files sum [], out := [] } (by intro o h; rw [show _ = w1.opened from rfl, r2] at h; cases h)).2.2.2.2.2.1.produces _ _ he
  obtain ⟨w3, u1, u2, u3, u4, u5, u6⟩ := redirect_done t1 t2
  have hfs : store w3.files xy [] sum = some bytes := by rw [store_ne (Ne.symm hxy), u2, store_eq]
  have v1 := s6 (store w3.files xy []) prog' args' sum ss' hc' hfs
  obtain ⟨exec', hb'⟩ := base_line hc'
  obtain ⟨e, he⟩ := ends_ok (v1 ▸ (c87_reports errmsg creatable hcr exec' prog' args' hb' U (fun _ => .Other) (fun x => some x) (fun _ _ => []) junk 0
    false (store w3.files xy [])).2.2.2.1)
  have hq := (c87_quiet errmsg creatable U (fun _ => .Other) (fun x => some x) (fun _ _ => []) junk 0 false false (store w3.files xy []) exec' prog' args'
    hb' e).2.2.2.2.2.2.2.2.2.1 _ he
  subst hq
  obtain ⟨w4, x1, x2⟩ := (c97_stdout errmsg U (fun _ => .Other) (fun x => some x) (fun _ _ => []) junk 0 false false (prog' :: args')
    { w3 with files := store w3.files xy [], out := [] }
    (by intro o h; rw [show _ = w3.opened from rfl, u3, r2] at h; cases h)).2.2.2.2.2.2.1.produces _ _ he
  obtain ⟨w5, y1, y2, y3, y4, y5, y6⟩ := redirect_done x1 x2
  refine ⟨w5, bytes, D, Ds, ?_, y3.trans (u3.trans r2), y4.trans (u4.trans r3), y5.trans (u5.trans r4), y6.trans (u6.trans r5), ?_, ?_, s2, s4, s5,
    ?_, ?_⟩
  · rw [wbind_ok r1, wbind_ok u1]
    exact y1
  · intro name n1 n2 n3
    rw [y2, store_ne n3, u2, store_ne n2]
    exact r8 name n1
  · rw [y2, store_ne (Ne.symm hxy), u2, store_eq]
  · have hw : ∀ name, name ≠ xy → name ≠ sum → w5.files name = w1.files name := fun name n1 n2 => by
      rw [y2, store_ne n1, u2, store_ne n2]
    exact held hw hsum r7 s3
  · rw [y2, store_eq]

/-- C99 (word accuracy).  `wordacc` for every page, each with its stopwords, and `wordaccsum report1 report2 ... >sum`.  The words in the
sum are those of all correct texts; those that are missed are left over by longest common subsequences. -/
theorem c99_wordacc (prop : Nat → Word.WB) (nfc : List Nat → Option (List Nat)) (pct : Int → Int → List Nat) (hpct : Acc.PctFormat pct)
    (hj : Bytes junk) (junk' : Nat) (cs : List Call) (pages : List WordPage) (w : World) (ho : w.opened = []) (hroom : w.room = none)
    (hp : List.Forall₂ (WordaccCall U prop nfc w.files) cs pages) (hs : Separate cs) (hm : ∀ p ∈ pages, Manageable p)
    (hl : (pages.map (fun p => p.correct.length)).sum < 10^8)
    (prog : List Nat) (args : List (List Nat)) (ss : List Args.Setting) (hc : CommandLine [] prog args (cs.map Call.report) ss)
    (h2 : 2 ≤ cs.length) (sum : List Nat) (hsum : sum ∉ cs.map Call.report) :
    ∃ w' e bytes D, (calls (wordacc errmsg creatable U prop nfc pct junk junk') cs >>= fun _ =>
        redirect sum ((wordaccsum errmsg pct).run (prog :: args))) w = .ok () w' ∧
      w'.opened = [] ∧ w'.input = w.input ∧ w'.out = w.out ∧ w'.err = w.err ++ e ∧
      (∀ name, name ∉ cs.map Call.report → name ≠ sum → w'.files name = w.files name) ∧
      w'.files sum = some bytes ∧ Wac.read_wacrpt Wac.Wacdata.zero bytes = .ok D ∧ D.total.count = (pages.map (fun p => p.correct.length)).sum ∧
      ∀ lcs : List (List (List Nat)), List.Forall₂ (fun (p : WordPage) c => Wordacc.IsLCS c p.correct p.generated) pages lcs →
        D.total.missed = (pages.map (fun p => p.correct.length)).sum - (lcs.map List.length).sum := by
  have hl1 : ∀ p ∈ pages, p.correct.length < 10^8 := fun p hp =>
    lt_of_le_of_lt (List.single_le_sum (by simp) _ (List.mem_map.2 ⟨p, hp, rfl⟩)) hl
  have hp' : List.Forall₂ (fun c p => WordaccCall U prop nfc w.files c p ∧ Manageable p ∧ p.correct.length < 10^8) cs pages := by
    clear hl hs hc h2 hsum
    induction hp with
    | nil => exact .nil
    | cons h _ ih => exact .cons ⟨h, hm _ (by simp), hl1 _ (by simp)⟩ (ih (fun p hp => hm p (by simp [hp])) (fun p hp => hl1 p (by simp [hp])))
  obtain ⟨w1, reports, e, r1, r2, r3, r4, r5, r6, r7, r8, _⟩ := calls_done (wordacc errmsg creatable U prop nfc pct junk junk')
    (fun files c p => WordaccCall U prop nfc files c p ∧ Manageable p ∧ p.correct.length < 10^8) (WordaccReport U prop nfc pct) False
    (fun w c p ho h => by
      obtain ⟨w', e, bytes, k1, k2, k3⟩ := wordacc_call errmsg creatable hcr U junk prop nfc pct hpct hj junk' w c p h.2.1 h.2.2 ho h.1
      exact ⟨w', e, bytes, k1, k2, k3, fun h => h.elim⟩)
    (fun files files' c p h hg => ⟨wordaccCall_local U prop nfc files files' c p h hg.1, hg.2⟩) cs pages w ho hroom hp' hs
  obtain ⟨bytes, D, Ds, s1, s2, _, _, s5, s6⟩ := c62_wordacc U prop nfc pct hpct (store w1.files sum []) prog args _ ss hc (by simpa using h2) reports
    pages (still hsum r7) r6 hm hl
  obtain ⟨exec, hb⟩ := base_line hc
  obtain ⟨e', he⟩ := ends_ok (s1 ▸ (c87_reports errmsg creatable hcr exec prog args hb U prop nfc pct junk junk'
    false (store w1.files sum [])).2.1)
  have hq := (c87_quiet errmsg creatable U prop nfc pct junk junk' false false (store w1.files sum []) exec prog args
    hb e').2.2.2.2.2.2.2.1 _ he
  subst hq
  obtain ⟨w2, t1, t2⟩ := (c97_stdout errmsg U prop nfc pct junk junk' false false (prog :: args)
    { w1 with files := store w1.files sum [], out := [] } (by intro o h; rw [show _ = w1.opened from rfl, r2] at h; cases h)).2.2.2.2.1.produces _ _ he
  obtain ⟨w3, u1, u2, u3, u4, u5, u6⟩ := redirect_done t1 t2
  refine ⟨w3, e, bytes, D, ?_, u3.trans r2, u4.trans r3, u5.trans r4, u6.trans r5, ?_, ?_, s2, s5, s6⟩
  · rw [wbind_ok r1]
    exact u1
  · intro name n1 n2
    rw [u2, store_ne n2]
    exact r8 name n1
  · rw [u2, store_eq]

end

/-! ## Non-vacuity -/

/-- The sample page twice: the second report is written over the correct text, the costs over the first report. -/
def sampleEditops : List Call :=
  [⟨ascii "editop", [ascii "a", ascii "b", ascii "x"], [ascii "a", ascii "b"], ascii "x"⟩,
    ⟨ascii "bin/editop", [ascii "a", ascii "b", ascii "a"], [ascii "a", ascii "b"], ascii "a"⟩]

theorem sample_editop (prog r : String) (hp : (ascii prog).length ≤ 32768) (hr : 0 ∉ ascii r ∧ 45 ∉ ascii r) :
    EditopCall sampleUnicode sampleFs ⟨ascii prog, [ascii "a", ascii "b", ascii r], [ascii "a", ascii "b"], ascii r⟩ (sampleText0, sampleText1) :=
  ⟨ascii "a", ascii "b", _, _, [], ⟨hp, by simp, by intro x hx; simp at hx; rcases hx with rfl | rfl | rfl; decide +kernel; decide +kernel; exact hr.1,
      by simp, .operand (by rintro ⟨c, r, e⟩; simp [ascii] at e) (.operand (by rintro ⟨c, r, e⟩; simp [ascii] at e)
        (.operand (by rintro ⟨c, r, e⟩; rw [e] at hr; simp at hr) .nil)), by simp [Args.Once]⟩,
    by simp, by simp, by simp, show sampleFs (ascii "a") = _ by decide +kernel, show sampleFs (ascii "b") = _ by decide +kernel, not_headed_a,
    sample_a, .inl ⟨not_headed_b, sample_b⟩⟩

example : ∃ w' bytes D, (calls (editop [] (fun _ => true) sampleUnicode []) sampleEditops >>= fun _ =>
      redirect (ascii "sum") ((editopsum []).run [ascii "editopsum", ascii "x", ascii "a"]) >>= fun _ =>
      redirect (ascii "x") (editopcost.run [ascii "editopcost", ascii "sum"])) (atStart sampleFs) = .ok () w' ∧
    w'.out = [] ∧ w'.err = [] ∧ w'.files (ascii "b") = some (ascii "The mat c^at sat\non the hat.") ∧ w'.files (ascii "sum") = some bytes ∧
    Edo.read_edorpt Edo.Edodata.zero bytes = .ok D ∧ D.total_insertions = 0 ∧ D.total_deletions = 8 := by
  obtain ⟨w', bytes, D, Ds, h1, _, _, h4, h5, h6, h7, h8, h9, h10, _⟩ := c99_editop [] (fun _ => true) (fun _ => rfl) sampleUnicode []
    sampleEditops [(sampleText0, sampleText1), (sampleText0, sampleText1)] (atStart sampleFs) rfl rfl
    (.cons (sample_editop "editop" "x" (by decide +kernel) (by decide +kernel))
      (.cons (sample_editop "bin/editop" "a" (by decide +kernel) (by decide +kernel)) .nil))
    (by unfold Separate; decide +kernel) (by decide +kernel) (ascii "editopsum") [ascii "x", ascii "a"] []
    (Ending.pair_line [] "editopsum" "x" "a" (by decide +kernel) (by decide +kernel) (by decide +kernel)) (by decide +kernel)
    (ascii "sum") (by decide +kernel) (ascii "editopcost") [ascii "sum"] [] (one_line "editopcost" (by decide +kernel)) (ascii "x") (by decide +kernel)
  refine ⟨w', bytes, D, h1, h4, h5, ?_, h7, h8, by rw [h9]; decide +kernel, by rw [h10]; decide +kernel⟩
  rw [h6 _ (by decide +kernel) (by decide +kernel) (by decide +kernel)]
  decide +kernel

/-- The same for words, with stopwords. -/
def sampleWordaccs : List Call :=
  [⟨ascii "wordacc", [ascii "-S", ascii "s", ascii "a", ascii "b", ascii "x"], [ascii "s", ascii "a", ascii "b"], ascii "x"⟩,
    ⟨ascii "wordacc", [ascii "-S", ascii "s", ascii "a", ascii "b", ascii "s"], [ascii "s", ascii "a", ascii "b"], ascii "s"⟩]

theorem sample_wordacc (r : String) (hr : 0 ∉ ascii r ∧ 45 ∉ ascii r) : WordaccCall sampleUnicode Word.wbProp some sampleFs
    ⟨ascii "wordacc", [ascii "-S", ascii "s", ascii "a", ascii "b", ascii r], [ascii "s", ascii "a", ascii "b"], ascii r⟩
    ⟨["the", "cat", "sat", "on", "the", "mat"].map ascii, ["the", "mat", "cat", "sat", "on", "the", "hat"].map ascii, ["on", "the"].map ascii⟩ :=
  ⟨ascii "a", ascii "b", _, _, [⟨.value 0, ascii "s"⟩], _, _,
    ⟨show (ascii "wordacc").length ≤ 32768 by decide +kernel, by simp, by intro x hx; simp at hx; rcases hx with rfl | rfl | rfl | rfl | rfl; all_goals first | decide +kernel | exact hr.1,
      by simp, .separate (by unfold Args.Help; decide +kernel) (by decide) (.operand (by rintro ⟨c, r, e⟩; simp [ascii] at e)
        (.operand (by rintro ⟨c, r, e⟩; simp [ascii] at e) (.operand (by rintro ⟨c, r, e⟩; rw [e] at hr; simp at hr) .nil))), by simp [Args.Once]⟩,
    by simp, by simp, by simp, show sampleFs (ascii "a") = _ by decide +kernel, show sampleFs (ascii "b") = _ by decide +kernel, not_headed_a,
    page_a, .inl ⟨not_headed_b, page_b⟩, words_a, words_b,
    .inr ⟨ascii "s", ascii "On the", Prog.plain "on the", by simp, by decide +kernel, bytes_ascii (by decide +kernel), list_s, words_s⟩⟩

example : ∃ w' e bytes D, (calls (wordacc [] (fun _ => true) sampleUnicode Word.wbProp some Acc.samplePct [] 0) sampleWordaccs >>= fun _ =>
      redirect (ascii "a") ((wordaccsum [] Acc.samplePct).run [ascii "wordaccsum", ascii "x", ascii "s"])) (atStart sampleFs) = .ok () w' ∧
    w'.err = e ∧ w'.files (ascii "a") = some bytes ∧ Wac.read_wacrpt Wac.Wacdata.zero bytes = .ok D ∧ D.total.count = 12 := by
  obtain ⟨w', e, bytes, D, h1, _, _, _, h5, _, h7, h8, h9, _⟩ := c99_wordacc [] (fun _ => true) (fun _ => rfl) sampleUnicode [] Word.wbProp some
    Acc.samplePct Acc.samplePct_format (by intro b hb; cases hb) 0 sampleWordaccs _ (atStart sampleFs) rfl rfl
    (.cons (sample_wordacc "x" (by decide +kernel)) (.cons (sample_wordacc "s" (by decide +kernel)) .nil))
    (by unfold Separate; decide +kernel) (by unfold Manageable; decide +kernel) (by decide +kernel) (ascii "wordaccsum") [ascii "x", ascii "s"] []
    (Ending.pair_line [] "wordaccsum" "x" "s" (by decide +kernel) (by decide +kernel) (by decide +kernel)) (by decide +kernel)
    (ascii "a") (by decide +kernel)
  exact ⟨w', e, bytes, D, h1, by rw [h5]; rfl, h7, h8, by rw [h9]; decide +kernel⟩

/-- `editopsum x y >y`, where `x` is a report. -/
def ontoFs : Fs := fun name =>
  if name = ascii "x" ∨ name = ascii "y" then some (Edo.write_edorpt ⟨0, 4, 1, fun i => if i = 3 then 1 else 0⟩) else none

theorem onto_reads : Ending.ReadsEditop (Edo.write_edorpt ⟨0, 4, 1, fun i => if i = 3 then 1 else 0⟩) () := by
  have h : ((AnyReport.editop (AnyReport.lines (Edo.write_edorpt ⟨0, 4, 1, fun i => if i = 3 then 1 else 0⟩))).elim false
      (fun p => p.2.2.2.all (fun r => decide (0 ≤ r.second ∧ r.second ≤ 100)))) = true := by decide +kernel
  cases e : AnyReport.editop (AnyReport.lines (Edo.write_edorpt ⟨0, 4, 1, fun i => if i = 3 then 1 else 0⟩)) with
  | none => rw [e] at h; cases h
  | some p =>
    rw [e] at h
    exact ⟨p.1, p.2.1, p.2.2.1, p.2.2.2, e, by simpa using h⟩

example : ∃ w', redirect (ascii "y") ((editopsum []).run [ascii "editopsum", ascii "x", ascii "y"]) (atStart ontoFs) = .exit 1 w' ∧
    w'.files (ascii "y") = some [] ∧ w'.out = [] ∧ w'.err = ascii "editopsum: invalid format in \"y\"\n" := by
  obtain ⟨w', h1, h2, h3, h4⟩ := (c99_onto [] sampleUnicode Acc.samplePct (ascii "editopsum") (ascii "editopsum") [ascii "x", ascii "y"] [ascii "x"] []
    (ascii "y") [] (by decide +kernel) (two_line "editopsum" (by decide +kernel)) (by simp) (by decide +kernel) (atStart ontoFs)
    (by intro o h; cases h) (by
      intro name file h
      simp only [atStart, ontoFs] at h
      split at h
      · cases h; unfold Bytes; decide +kernel
      · cases h)).1 [()] (.cons ⟨_, show ontoFs (ascii "x") = _ by decide +kernel, onto_reads⟩ .nil)
  exact ⟨w', h1, by rw [h2, store_eq], h3, by rw [h4]; decide +kernel⟩

end Ocr.Disk
