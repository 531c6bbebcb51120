import Verif.Spec.Process
import Verif.Proof.Endings
import Verif.Proof.Broken
import Verif.Proof.TextEndings

namespace Ocr.Process
open Text Res Prog

variable {α β : Type}

@[simp] theorem after_nil (o : Out α) : o.after [] = o := by cases o <;> simp [Out.after]
theorem bind_def (o : Out α) (f : α → Out β) : (o >>= f) = o.bind f := rfl
@[simp] theorem obind_ok (a : α) (f : α → Out β) : ((.ok [] a : Out α) >>= f) = f a := by simp [bind_def, Out.bind]
@[simp] theorem obind_exit (s : Nat) (e : List Nat) (f : α → Out β) : ((.exit s e : Out α) >>= f) = .exit s e := rfl
@[simp] theorem obind_ub (f : α → Out β) : ((.ub : Out α) >>= f) = .ub := rfl
@[simp] theorem opure (a : α) : (pure a : Out α) = .ok [] a := rfl

theorem error_eq (exec m : List Nat) : (error exec m : Out α) = .exit 1 (errorLine exec m) := rfl
theorem error_string_eq (exec m s : List Nat) : (error_string exec m s : Out α) = .exit 1 (namedLine exec m s) := by
  have : ascii "\"\n" = ascii "\"" ++ ascii "\n" := by decide
  simp [error_string, namedLine, errorLine, this]
theorem show_usage_eq (exec u : List Nat) : (show_usage exec u : Out α) = .exit 0 (usageLine exec u) := rfl

variable {exec errmsg : List Nat}

theorem warnings_append (a b : List (List Nat)) : warnings exec (a ++ b) = warnings exec a ++ warnings exec b := by
  simp [warnings]

theorem Agrees.after {o : Out α} {r : Res α} (h : Agrees exec errmsg o r) (ws : List (List Nat)) :
    Agrees exec errmsg (o.after (warnings exec ws)) r := by
  cases h with
  | ok ws' a => rw [Out.after, ← warnings_append]; exact .ok _ _
  | message ws' m => rw [Out.after, ← List.append_assoc, ← warnings_append]; exact .message _ _
  | named ws' m s => rw [Out.after, ← List.append_assoc, ← warnings_append]; exact .named _ _ _
  | abort => exact .abort
  | ub => exact .ub
  | fuel => exact .fuel

theorem Agrees.bind {o : Out α} {r : Res α} {f : α → Out β} {g : α → Res β} (h : Agrees exec errmsg o r)
    (hf : ∀ a, r = .ok a → Agrees exec errmsg (f a) (g a)) : Agrees exec errmsg (o >>= f) (r >>= g) := by
  cases h with
  | ok ws a => rw [bind_def, Out.bind, bind_ok]; exact (hf a rfl).after ws
  | message ws m => exact .message ws m
  | named ws m s => exact .named ws m s
  | abort => exact .abort
  | ub => exact .ub
  | fuel => exact .fuel

theorem Agrees.pure (a : α) : Agrees exec errmsg (pure a) (.ok a) := .ok [] a

theorem agrees_error (m : String) (h : m ≠ "utf8proc_errmsg") : Agrees (α := α) exec errmsg (error exec (ascii m)) (.err m) := by
  have := Agrees.message (α := α) (exec := exec) (errmsg := errmsg) [] m
  rwa [messageText, if_neg h] at this

theorem agrees_plain (r : Res α) : Agrees exec errmsg (plain exec errmsg r) r := by
  cases r with
  | ok a => exact .ok [] a
  | ub => exact .ub
  | fuel => exact .fuel
  | err m =>
    unfold plain
    by_cases h1 : m = "utf8proc_errmsg"
    · have := Agrees.message (α := α) (exec := exec) (errmsg := errmsg) [] m
      rw [messageText, if_pos h1] at this
      simp only [if_pos h1]
      exact this
    · simp only [if_neg h1]
      by_cases h2 : m = "assertion encoded_length > 0 failed"
      · rw [if_pos h2, h2]; exact .abort
      · rw [if_neg h2]; exact agrees_error m h1

theorem agrees_about (s : List Nat) (r : Res α) : Agrees exec errmsg (about exec s r) r := by
  cases r with
  | ok a => exact .ok [] a
  | ub => exact .ub
  | fuel => exact .fuel
  | err m => rw [about, error_string_eq]; exact .named [] m s

/-- Parts without messages. -/
theorem agrees_silent {r : Res α} (h : ∀ m, r ≠ .err m) : Agrees exec errmsg (silent r) r := by
  cases r with
  | ok a => exact .ok [] a
  | ub => exact .ub
  | fuel => exact .fuel
  | err m => exact absurd rfl (h m)

theorem rd_quiet (l : List α) (i : Nat) (m : String) : rd l i ≠ .err m := by
  unfold rd; split <;> simp
theorem wr_quiet (l : List α) (i : Nat) (a : α) (m : String) : wr l i a ≠ .err m := by
  unfold wr; split <;> simp
theorem byteAt_quiet (l : List Nat) (i : Nat) (m : String) : byteAt l i ≠ .err m := by
  unfold byteAt; repeat' split
  all_goals simp
theorem isOption_quiet (a : List Nat) (m : String) : Args.isOption a ≠ .err m := by
  unfold Args.isOption
  intro h
  cases h0 : byteAt a 0 with
  | err m => exact byteAt_quiet _ _ _ h0
  | ub => rw [h0] at h; cases h
  | fuel => rw [h0] at h; cases h
  | ok c =>
    rw [h0, bind_ok] at h
    split at h
    · cases h1 : byteAt a 1 with
      | err m => exact byteAt_quiet _ _ _ h1
      | ub => rw [h1] at h; cases h
      | fuel => rw [h1] at h; cases h
      | ok c => rw [h1, bind_ok] at h; cases h
    · cases h
theorem strings_quiet (l : List (Option (List Nat))) (m : String) : strings l ≠ .err m := by
  induction l with
  | nil => simp [strings]
  | cons a l ih =>
    cases a with
    | none => simp [strings]
    | some w =>
      unfold strings
      cases e : strings l with
      | err m' => intro h; rw [bind_err] at h; exact ih (by rw [e]; exact h)
      | ok x => simp
      | ub => simp
      | fuel => simp

theorem silent_ok (a : α) : silent (.ok a) = .ok [] a := rfl

/-! ## The command line -/

section
variable {usage : List Nat}

theorem argStep_agrees (option : Option (List Args.Opt)) (argc i j : Nat) (argv : List (List Nat)) (V : Args.Vars) :
    EndsLike exec errmsg usage (argStep exec usage option argc i j argv V) (Args.argStep option argc i j argv V) := by
  unfold argStep Args.argStep
  cases h1 : rd argv i with
  | err m => exact absurd h1 (rd_quiet _ _ _)
  | ub => exact .inr .ub
  | fuel => exact .inr .fuel
  | ok arg =>
    simp only [silent_ok, obind_ok, bind_ok]
    cases h2 : Args.isOption arg with
    | err m => exact absurd h2 (isOption_quiet _ _)
    | ub => exact .inr .ub
    | fuel => exact .inr .fuel
    | ok b =>
      simp only [silent_ok, obind_ok, bind_ok]
      by_cases hb : b = true
      · simp only [if_pos hb]
        by_cases hh : Args.isHelp arg = true
        · simp only [if_pos hh]; exact .inl ⟨rfl, rfl⟩
        · simp only [if_neg hh]
          refine .inr (.bind (agrees_silent ?_) ?_)
          · intro m
            split
            · cases h : rd argv (i + 1) with
              | err m => exact absurd h (rd_quiet _ _ _)
              | ok _ => simp
              | ub => simp
              | fuel => simp
            · simp
          · intro a _
            refine .bind (agrees_about _ _) ?_
            rintro ⟨u, V⟩ _
            exact .pure _
      · simp only [if_neg hb]
        exact .inr (.bind (agrees_silent (wr_quiet _ _ _)) (fun _ _ => .pure _))

theorem EndsLike.bind {o : Out α} {r : Res α} {f : α → Out β} {g : α → Res β} (h : EndsLike exec errmsg usage o r)
    (hf : ∀ a, r = .ok a → EndsLike exec errmsg usage (f a) (g a)) (hn : ∀ e a, o = .ok e a → e = []) :
    EndsLike exec errmsg usage (o >>= f) (r >>= g) := by
  rcases h with ⟨rfl, rfl⟩ | h
  · exact .inl ⟨rfl, rfl⟩
  · cases h with
    | ok ws a =>
      rw [hn _ _ rfl, obind_ok, bind_ok]; exact hf a rfl
    | message ws m => exact .inr (.message ws m)
    | named ws m s => exact .inr (.named ws m s)
    | abort => exact .inr .abort
    | ub => exact .inr .ub
    | fuel => exact .inr .fuel

/-- Nothing is printed if the run goes on. -/
def Mute (o : Out α) : Prop := ∀ e a, o = .ok e a → e = []

theorem Mute.bind {o : Out α} {f : α → Out β} (h : Mute o) (hf : ∀ a, Mute (f a)) : Mute (o >>= f) := by
  cases o with
  | ok e a => rw [h e a rfl, obind_ok]; exact hf a
  | exit s e => intro e a h; cases h
  | abort => intro e a h; cases h
  | ub => intro e a h; cases h
  | fuel => intro e a h; cases h
theorem mute_ok (a : α) : Mute (.ok [] a) := by intro e b h; cases h; rfl
theorem mute_exit (s : Nat) (e : List Nat) : Mute (.exit s e : Out α) := by intro e b h; cases h
theorem mute_about (exec s : List Nat) (r : Res α) : Mute (about exec s r) := by
  intro e a h
  cases r with
  | ok b => cases h; rfl
  | err m => cases h
  | ub => cases h
  | fuel => cases h
theorem mute_argStep (option : Option (List Args.Opt)) (argc i j : Nat) (argv : List (List Nat)) (V : Args.Vars) :
    Mute (argStep exec usage option argc i j argv V) := by
  unfold argStep
  refine .bind (mute_about _ _ _) (fun arg => .bind (mute_about _ _ _) (fun b => ?_))
  split
  · split
    · exact mute_exit _ _
    · exact .bind (mute_about _ _ _) (fun n => .bind (mute_about _ _ _) (fun _ => mute_ok _))
  · exact .bind (mute_about _ _ _) (fun _ => mute_ok _)

theorem argsLoop_agrees (option : Option (List Args.Opt)) (argc : Nat) : ∀ (fuel i j : Nat) (argv : List (List Nat)) (V : Args.Vars),
    EndsLike exec errmsg usage (argsLoop exec usage option argc fuel i j argv V) (Args.argsLoop option argc fuel i j argv V) ∧
      Mute (argsLoop exec usage option argc fuel i j argv V)
  | 0, i, j, argv, V => ⟨.inr .fuel, by intro e a h; cases h⟩
  | n + 1, i, j, argv, V => by
    unfold argsLoop Args.argsLoop
    by_cases h1 : i < argc
    · simp only [if_pos h1]
      by_cases h2 : 32767 < i
      · simp only [if_pos h2]; exact ⟨.inr .ub, by intro e a h; cases h⟩
      · simp only [if_neg h2]
        exact ⟨(argStep_agrees option argc i j argv V).bind (fun a _ => (argsLoop_agrees option argc n _ _ _ _).1)
          (mute_argStep option argc i j argv V), (mute_argStep option argc i j argv V).bind (fun a => (argsLoop_agrees option argc n _ _ _ _).2)⟩
    · simp only [if_neg h1]; exact ⟨.inr (.ok [] _), mute_ok _⟩

theorem initialize_agrees (option : Option (List Args.Opt)) {prog : List Nat} {args : List (List Nat)} (V : Args.Vars)
    (hb : Args.basefilename prog = .ok exec) :
    EndsLike exec errmsg usage (initialize_ usage option (prog :: args) V) (Args.initialize_ option true (prog :: args) V) ∧
      Mute (initialize_ usage option (prog :: args) V) := by
  unfold initialize_ Args.initialize_
  have h0 : rd (prog :: args) 0 = .ok prog := rfl
  simp only [h0, silent_ok, obind_ok, bind_ok, hb]
  have key : EndsLike exec errmsg usage (parse_args exec usage option (prog :: args) V) (Args.parse_args option true (prog :: args) V) ∧
      Mute (parse_args exec usage option (prog :: args) V) := by
    unfold parse_args Args.parse_args
    by_cases h : (prog :: args).length = 1
    · rw [if_pos h, if_pos ⟨h, rfl⟩]; exact ⟨.inl ⟨rfl, rfl⟩, mute_exit _ _⟩
    · rw [if_neg h, if_neg (fun h' => h h'.1)]; exact argsLoop_agrees option _ _ _ _ _ _
  exact ⟨key.1.bind (fun a _ => .inr (.pure _)) key.2, key.2.bind (fun a => mute_ok _)⟩

/-- A run agrees with a program if the bodies do. -/
theorem run_agrees {P : Program α} {main : List Nat → List (List Nat) → Args.Vars → Res α} {prog : List Nat} {args : List (List Nat)}
    (hb : Args.basefilename prog = .ok exec)
    (hm : ∀ argv V, Agrees exec errmsg (P.body exec argv V) (main exec argv V)) :
    EndsLike exec errmsg P.usage (P.run (prog :: args))
      (Args.initialize_ P.option true (prog :: args) start >>= fun x => main x.1 x.2.1 x.2.2) := by
  obtain ⟨h1, h2⟩ := initialize_agrees (errmsg := errmsg) (usage := P.usage) P.option (args := args) start hb
  unfold Program.run
  refine h1.bind ?_ h2
  rintro ⟨b, argv, V⟩ e
  have : b = exec := by
    unfold Args.initialize_ at e
    have h0 : rd (prog :: args) 0 = .ok prog := rfl
    rw [h0, bind_ok, hb, bind_ok] at e
    obtain ⟨x, _, e⟩ := bind_eq_ok.1 e
    cases e; rfl
  subst this
  exact .inr (hm argv V)

theorem run_agrees' {P : Program α} {k : List Nat × List (List Nat) × Args.Vars → Res α} {prog : List Nat} {args : List (List Nat)}
    (hb : Args.basefilename prog = .ok exec) (hm : ∀ argv V, Agrees exec errmsg (P.body exec argv V) (k (exec, argv, V))) :
    EndsLike exec errmsg P.usage (P.run (prog :: args)) (Args.initialize_ P.option true (prog :: args) start >>= k) :=
  run_agrees (main := fun a b c => k (a, b, c)) hb hm

theorem argStep_ok {option : Option (List Args.Opt)} {argc i j : Nat} {argv : List (List Nat)} {V : Args.Vars} {x}
    (h : Args.argStep option argc i j argv V = .ok x) : argStep exec usage option argc i j argv V = .ok [] x := by
  have h1 := argStep_agrees (exec := exec) (errmsg := []) (usage := usage) option argc i j argv V
  have h2 := mute_argStep (exec := exec) (usage := usage) option argc i j argv V
  rw [h] at h1
  rcases h1 with ⟨_, h1⟩ | h1
  · cases h1
  · generalize argStep exec usage option argc i j argv V = o at h1 h2 ⊢
    cases h1 with
    | ok ws a => rw [h2 _ _ rfl]

theorem steps_loop {os : Option (List Args.Opt)} {argc fuel i j argv V fuel' i' j' argv' V'}
    (h : Args.Steps os argc fuel i j argv V fuel' i' j' argv' V') :
    argsLoop exec usage os argc fuel i j argv V = argsLoop exec usage os argc fuel' i' j' argv' V' := by
  induction h with
  | none => rfl
  | round h1 h2 h3 _ ih => rw [argsLoop, if_pos h1, if_neg h2, argStep_ok h3, obind_ok]; exact ih

theorem argsLoop_fault {T : List (Nat × Args.Kind)} (hT : Args.Table T) {argc : Nat} (hi : argc ≤ 32768) {n i j argv V a rest ops ss e}
    (h : Args.At argc i j argv V n (a :: rest) ops ss) (hF : Args.Fault T ss a rest e) :
    argsLoop exec usage (some (T.map Args.optOf)) argc n i j argv V =
      if e = "usage" then .exit 0 (usageLine exec usage) else .exit 1 (namedLine exec (ascii e) a) := by
  obtain ⟨f, rfl⟩ := h.fuel_pos
  have hlt := h.i_lt
  rw [argsLoop, if_pos hlt, if_neg (by omega)]
  obtain ⟨c, r, rfl, hs⟩ := Args.split_fault hT h hF
  have hc : c ≠ 0 := by
    rintro rfl
    exact h.nul _ (List.mem_cons_self ..) (by simp)
  unfold argStep
  simp only [h.rd, silent_ok, obind_ok, Args.isOption_true hc, if_true]
  rcases hs with ⟨h1, rfl⟩ | ⟨h1, h2, h3⟩
  · rw [if_pos (Args.help_iff.2 h1), if_pos rfl]; rfl
  · rw [if_neg (fun h' => h1 (Args.help_iff.1 h')), if_neg h2]
    rw [h.next_arg, silent_ok, obind_ok, h3, about, error_string_eq]
    rfl

theorem null_table (u : List Nat) (argv : List (List Nat)) (V : Args.Vars) : initialize_ u none argv V = initialize_ u (some []) argv V := by
  have hs : ∀ arg next V, (2 ≤ arg.length) → Args.split_option none arg next V = Args.split_option (some []) arg next V := by
    intro arg next V hl
    unfold Args.split_option
    rcases arg with _ | ⟨x, _ | ⟨y, r⟩⟩
    · simp at hl
    · simp at hl
    · have : byteAt (x :: y :: r) 1 = .ok y := by simp [byteAt]
      simp [this, Args.findOpt]
  have hstep : ∀ exec argc i j argv V, argStep exec u none argc i j argv V = argStep exec u (some []) argc i j argv V := by
    intro exec argc i j argv V
    unfold argStep
    refine congrArg _ ?_
    funext arg
    cases hb : Args.isOption arg with
    | err s => rfl
    | ub => rfl
    | fuel => rfl
    | ok b =>
      simp only [silent_ok, obind_ok]
      cases b with
      | false => rfl
      | true =>
        have h2 : 2 ≤ arg.length := by
          refine Nat.le_of_not_lt (fun hlt => ?_)
          rw [Args.isOption_false (by rintro ⟨c, r, rfl⟩; simp at hlt)] at hb
          cases hb
        simp only [if_true, hs arg _ _ h2]
  have hloop : ∀ exec argc n i j argv V, argsLoop exec u none argc n i j argv V = argsLoop exec u (some []) argc n i j argv V := by
    intro exec argc n
    induction n with
    | zero => intro i j argv V; rfl
    | succ n ih =>
      intro i j argv V
      rw [argsLoop, argsLoop, hstep]
      simp only [ih]
  unfold initialize_ parse_args
  simp only [hloop]

end

/-! ## Files -/

theorem agrees_create (creatable : List Nat → Bool) (f : Option (List Nat)) (h : ∀ n, creatable n = true) :
    create exec creatable f = .ok [] () := by
  cases f with
  | none => rfl
  | some n => simp [create, h n]

theorem agrees_forFiles (fs : Fs) {stepO : List Nat → α → List Nat → Out α} {step : α → List Nat → Res α}
    (hs : ∀ name a file, Agrees exec errmsg (stepO name a file) (step a file)) :
    ∀ (names : List (List Nat)) (a : α), Agrees exec errmsg (forFiles exec fs stepO names a) (Prog.forFiles fs step names a)
  | [], a => .ok [] a
  | name :: names, a => by
    unfold forFiles Prog.forFiles
    exact (agrees_about _ _).bind (fun file _ => (hs _ _ _).bind (fun a _ => agrees_forFiles fs hs names a))

theorem agrees_forReports (fs : Fs) (step : α → List Nat → Res α) (names : List (List Nat)) (a : α) :
    Agrees exec errmsg (forReports exec fs step names a) (Prog.forFiles fs step names a) :=
  agrees_forFiles fs (stepO := fun name a file => about exec name (step a file)) (fun _ _ _ => agrees_about _ _) names a

theorem agrees_forTexts (fs : Fs) (step : α → List Nat → Res α) (names : List (List Nat)) (a : α) :
    Agrees exec errmsg (forTexts exec errmsg fs step names a) (Prog.forFiles fs step names a) :=
  agrees_forFiles fs (stepO := fun _ a file => plain exec errmsg (step a file)) (fun _ _ _ => agrees_plain _) names a

theorem agrees_readFile (U : Unicode) (junk : List Nat) (fs : Fs) (name : List Nat) (opt : Textopt) :
    Agrees exec errmsg (readFile exec errmsg U junk fs name opt) (Prog.readFile U junk fs name opt) :=
  (agrees_about _ _).bind (fun _ _ => agrees_plain _)

theorem agrees_rd (l : List α) (i : Nat) : Agrees exec errmsg (silent (rd l i)) (rd l i) := agrees_silent (rd_quiet _ _)

theorem agrees_readPair (U : Unicode) (junk : List Nat) (fs : Fs) (argv : List (List Nat)) :
    Agrees exec errmsg (readPair exec errmsg U junk fs argv) (Prog.readPair U junk fs argv) := by
  unfold readPair Prog.readPair
  refine (agrees_rd _ _).bind (fun name0 _ => (agrees_readFile _ _ _ _ _).bind ?_)
  rintro ⟨text0, opt⟩ _
  dsimp only
  split
  · exact agrees_error _ (by decide)
  · refine (agrees_rd _ _).bind (fun name1 _ => (agrees_readFile _ _ _ _ _).bind ?_)
    rintro ⟨text1, opt'⟩ _
    exact .pure _

theorem warn_eq (ws : List (List Nat)) : warn exec ws = .ok (warnings exec ws) () := by
  induction ws with
  | nil => rfl
  | cons w ws ih =>
    have : ascii "\"\n" = ascii "\"" ++ ascii "\n" := by decide
    unfold warn
    rw [ih, bind_def, warning_string, Out.bind, Out.after]
    simp [warnings, namedLine, errorLine, this]

theorem agrees_initStopwords (U : Unicode) (prop : Nat → Word.WB) (nfc : List Nat → Option (List Nat)) (junk : List Nat) (junk' : Nat)
    (fs : Fs) (filename : Option (List Nat)) :
    Agrees exec errmsg (initStopwords exec errmsg U prop nfc junk junk' fs filename)
      (Prog.initStopwords U prop nfc junk junk' fs filename) := by
  have key : ∀ r : Res Stopword.State, Agrees exec errmsg (plain exec errmsg r >>= fun S => warn exec S.warnings >>= fun _ => pure S) r := by
    intro r
    have h : r = (r >>= fun S => .ok S) := by cases r <;> rfl
    have := (agrees_plain (exec := exec) (errmsg := errmsg) r).bind (f := fun S => warn exec S.warnings >>= fun _ => pure S) (g := fun S => .ok S) (by
      intro S _
      rw [warn_eq, bind_def, Out.bind, opure, Out.after, List.append_nil]
      exact .ok _ _)
    rwa [← h] at this
  unfold initStopwords Prog.initStopwords
  cases filename with
  | none => simp only [opure, obind_ok]; exact key _
  | some name =>
    simp only
    unfold open_file
    cases fs name with
    | none => rw [about, error_string_eq]; exact .named [] _ _
    | some file => simp only [about, opure, obind_ok, bind_ok]; exact key _

theorem agrees_readWords (U : Unicode) (prop : Nat → Word.WB) (nfc : List Nat → Option (List Nat)) (junk : List Nat) (junk' : Nat)
    (fs : Fs) (argv : List (List Nat)) :
    Agrees exec errmsg (readWords exec errmsg U prop nfc junk junk' fs argv) (Prog.readWords U prop nfc junk junk' fs argv) := by
  unfold readWords Prog.readWords
  refine (agrees_rd _ _).bind (fun name0 _ => (agrees_readFile _ _ _ _ _).bind ?_)
  rintro ⟨text0, opt⟩ _
  dsimp only
  split
  · exact agrees_error _ (by decide)
  · refine (agrees_plain _).bind (fun w _ => (agrees_silent (strings_quiet _)).bind (fun w0 _ => (agrees_rd _ _).bind (fun name1 _ =>
      (agrees_readFile _ _ _ _ _).bind ?_)))
    rintro ⟨text1, opt'⟩ _
    exact (agrees_plain _).bind (fun w _ => (agrees_silent (strings_quiet _)).bind (fun w1 _ => .pure _))

theorem agrees_readTexts (U : Unicode) (junk : List Nat) (fs : Fs) : ∀ (names : List (List Nat)) (opt : Textopt),
    Agrees exec errmsg (readTexts exec errmsg U junk fs names opt) (Synctext.readTexts U junk fs names opt)
  | [], opt => .ok [] _
  | name :: names, opt => by
    unfold readTexts Synctext.readTexts readFile open_file
    cases fs name with
    | none => simp only [about, error_string_eq, obind_exit]; exact .named [] _ _
    | some file =>
      simp only [about, obind_ok]
      refine (agrees_plain _).bind ?_
      rintro ⟨text, opt⟩ _
      exact (agrees_readTexts U junk fs names opt).bind (fun _ _ => .pure _)

theorem agrees_validate (signed : Bool) (argc : Nat) (optimize : Bool) (s w : Option (List Nat))
    (h : ¬ (argc < Vote.MIN_VOTERS ∨ argc > Vote.MAX_VOTERS)) :
    Agrees exec errmsg (validate_args exec signed argc optimize s w) (Vote.validate_args signed argc optimize s w) := by
  unfold validate_args Vote.validate_args
  rw [if_neg h]
  refine (agrees_about _ _).bind ?_
  rintro ⟨sw, uw⟩ _
  exact (agrees_about _ _).bind (fun _ _ => .pure _)

/-! ## Runs that go on -/

theorem agrees_ok {o : Out α} {a : α} (h : Agrees exec errmsg o (.ok a)) : ∃ ws, o = .ok (warnings exec ws) a := by
  cases h with
  | ok ws => exact ⟨ws, rfl⟩

theorem goes_on {o : Out α} {a : α} (h : Agrees exec errmsg o (.ok a)) (hm : Mute o) : o = .ok [] a := by
  obtain ⟨ws, e⟩ := agrees_ok h
  rw [e, hm _ _ e]

theorem mute_plain (r : Res α) : Mute (plain exec errmsg r) := by
  intro e a h
  cases r with
  | ok b => cases h; rfl
  | err m => unfold plain at h; simp only at h; repeat' split at h
             all_goals cases h
  | ub => cases h
  | fuel => cases h

theorem mute_error (m : List Nat) : Mute (error exec m : Out α) := mute_exit _ _

theorem mute_create (creatable : List Nat → Bool) (f : Option (List Nat)) : Mute (create exec creatable f) := by
  unfold create
  split
  · exact mute_ok _
  · split
    · exact mute_ok _
    · exact mute_exit _ _

theorem mute_forFiles (fs : Fs) {stepO : List Nat → α → List Nat → Out α} (hs : ∀ name a file, Mute (stepO name a file)) :
    ∀ (names : List (List Nat)) (a : α), Mute (forFiles exec fs stepO names a)
  | [], a => mute_ok a
  | name :: names, a => by
    unfold forFiles
    exact (mute_about _ _ _).bind (fun file => (hs _ _ _).bind (fun a => mute_forFiles fs hs names a))

theorem mute_forReports (fs : Fs) (step : α → List Nat → Res α) (names : List (List Nat)) (a : α) :
    Mute (forReports exec fs step names a) := mute_forFiles fs (fun _ _ _ => mute_about _ _ _) names a
theorem mute_forTexts (fs : Fs) (step : α → List Nat → Res α) (names : List (List Nat)) (a : α) :
    Mute (forTexts exec errmsg fs step names a) := mute_forFiles fs (fun _ _ _ => mute_plain _) names a
theorem mute_readFile (U : Unicode) (junk : List Nat) (fs : Fs) (name : List Nat) (opt : Textopt) :
    Mute (readFile exec errmsg U junk fs name opt) := (mute_about _ _ _).bind (fun _ => mute_plain _)
theorem mute_readPair (U : Unicode) (junk : List Nat) (fs : Fs) (argv : List (List Nat)) : Mute (readPair exec errmsg U junk fs argv) := by
  unfold readPair
  refine (mute_about _ _ _).bind (fun name0 => (mute_readFile _ _ _ _ _).bind (fun x => ?_))
  dsimp only
  split
  · exact mute_error _
  · exact (mute_about _ _ _).bind (fun name1 => (mute_readFile _ _ _ _ _).bind (fun x => mute_ok _))
theorem mute_readWords (U : Unicode) (prop : Nat → Word.WB) (nfc : List Nat → Option (List Nat)) (junk : List Nat) (junk' : Nat)
    (fs : Fs) (argv : List (List Nat)) : Mute (readWords exec errmsg U prop nfc junk junk' fs argv) := by
  unfold readWords
  refine (mute_about _ _ _).bind (fun name0 => (mute_readFile _ _ _ _ _).bind (fun x => ?_))
  dsimp only
  split
  · exact mute_error _
  · exact (mute_plain _).bind (fun _ => (mute_about _ _ _).bind (fun _ => (mute_about _ _ _).bind (fun name1 =>
      (mute_readFile _ _ _ _ _).bind (fun x => (mute_plain _).bind (fun _ => (mute_about _ _ _).bind (fun _ => mute_ok _))))))
theorem mute_readTexts (U : Unicode) (junk : List Nat) (fs : Fs) : ∀ (names : List (List Nat)) (opt : Textopt),
    Mute (readTexts exec errmsg U junk fs names opt)
  | [], opt => mute_ok _
  | name :: names, opt => by
    unfold readTexts
    exact (mute_readFile _ _ _ _ _).bind (fun x => (mute_readTexts U junk fs names _).bind (fun _ => mute_ok _))
theorem mute_validate (signed : Bool) (argc : Nat) (optimize : Bool) (s w : Option (List Nat)) :
    Mute (validate_args exec signed argc optimize s w) := by
  unfold validate_args
  exact (mute_about _ _ _).bind (fun x => (mute_about _ _ _).bind (fun _ => mute_ok _))

theorem mute_run {P : Program α} {prog : List Nat} {args : List (List Nat)} (hb : Args.basefilename prog = .ok exec)
    (h : ∀ exec argv V, Mute (P.body exec argv V)) : Mute (P.run (prog :: args)) :=
  (initialize_agrees (exec := exec) (errmsg := []) P.option start hb).2.bind (fun _ => h _ _ _)

theorem plain_ok {r : Res α} {a : α} (h : r = .ok a) : plain exec errmsg r = .ok [] a := by rw [h]; rfl
theorem about_ok {s : List Nat} {r : Res α} {a : α} (h : r = .ok a) : about exec s r = .ok [] a := by rw [h]; rfl

/-- A run of which the arguments are accepted. -/
theorem run_accepted {P : Program α} {prog : List Nat} {args ops : List (List Nat)} {b : List Nat} {V : Args.Vars}
    (h : Args.initialize_ P.option true (prog :: args) start = .ok (b, ops, V)) : P.run (prog :: args) = P.body b ops V := by
  have hb : Args.basefilename prog = .ok b := by
    unfold Args.initialize_ at h
    have h0 : rd (prog :: args) 0 = .ok prog := rfl
    rw [h0, bind_ok] at h
    obtain ⟨x, e, h⟩ := bind_eq_ok.1 h
    obtain ⟨y, _, h⟩ := bind_eq_ok.1 h
    cases h
    exact e
  obtain ⟨h1, h2⟩ := initialize_agrees (exec := b) (errmsg := []) (usage := P.usage) P.option (args := args) start hb
  rw [h] at h1
  rcases h1 with ⟨_, h1⟩ | h1
  · cases h1
  · unfold Program.run
    rw [goes_on h1 h2, obind_ok]

/-- The run stops at the first file that is not read. -/
theorem forReports_halts {γ : Type} {fs : Fs} {step : α → List Nat → Res α} {R : List Nat → γ → Prop} {F : List Nat → String → Prop}
    {P : List Nat → Prop} (hP : ∀ name file, fs name = some file → P file)
    (hR : ∀ a f o, P f → R f o → ∃ a', step a f = .ok a')
    (hF : ∀ a name msg, F name msg → (fs name = none ∧ msg = "unable to open file") ∨ ∃ file, fs name = some file ∧ step a file = .err msg)
    {name : List Nat} {msg : String} : ∀ {names : List (List Nat)} (a : α), Halts fs R F names name msg →
      forReports exec fs step names a = .exit 1 (namedLine exec (ascii msg) name) := by
  rintro names a ⟨pre, post, os, rfl, hpre, hf⟩
  unfold Ending.AllRead at hpre
  induction hpre generalizing a with
  | nil =>
    unfold forReports
    rw [List.nil_append, forFiles]
    unfold open_file
    rcases hF a _ _ hf with ⟨e, rfl⟩ | ⟨file, e, e'⟩
    · rw [e]; simp only [about]; rw [error_string_eq]; rfl
    · rw [e]; simp only [about, obind_ok, e']; rw [error_string_eq]; rfl
  | cons hx _ ih =>
    obtain ⟨file, e, hr⟩ := hx
    obtain ⟨a', e'⟩ := hR a _ _ (hP _ _ e) hr
    unfold forReports
    rw [List.cons_append, forFiles]
    unfold open_file
    rw [e]
    simp only [about, obind_ok, e']
    exact ih a'

open Spec AnyText in
theorem plain_broken {body : List Nat} {m : String} (h : Broken body m) :
    (plain exec errmsg (.err m) : Out α) = .exit 1 (errorLine exec (messageText errmsg m)) := by
  have hm : m ≠ "assertion encoded_length > 0 failed" := by cases h <;> decide
  unfold plain messageText
  simp only [if_neg hm]
  split <;> rfl

open Spec AnyText

/-- The same for texts. -/
theorem forTexts_halts {fs : Fs} (hfs : ∀ name file, fs name = some file → Bytes file) {step : α → List Nat → Res α} {J : α → Prop}
    (hR : ∀ a f, J a → Bytes f → WellFormed f → ∃ a', step a f = .ok a' ∧ J a')
    (hF : ∀ a f m, J a → Bytes f → Broken (bodyOf f) m → step a f = .err m)
    {name line : List Nat} : ∀ {names : List (List Nat)} (a : α), J a → Halts fs ReadsText (TextFault exec errmsg fs) names name line →
      forTexts exec errmsg fs step names a = .exit 1 line := by
  rintro names a hJ ⟨pre, post, os, rfl, hpre, hf⟩
  unfold Ending.AllRead at hpre
  induction hpre generalizing a with
  | nil =>
    unfold forTexts
    rw [List.nil_append, forFiles]
    unfold open_file
    cases hf with
    | missing e => rw [e]; simp only [about]; rw [error_string_eq]; rfl
    | broken file m e h =>
      rw [e]
      simp only [about, obind_ok]
      rw [hF a file m hJ (hfs _ _ e) h, plain_broken h]
      rfl
  | cons hx _ ih =>
    obtain ⟨file, e, hr⟩ := hx
    obtain ⟨a', e', hJ'⟩ := hR a _ hJ (hfs _ _ e) hr
    unfold forTexts
    rw [List.cons_append, forFiles]
    unfold open_file
    rw [e]
    simp only [about, obind_ok, e', plain]
    exact ih a' hJ'

theorem readFile_fault {fs : Fs} (hfs : ∀ name file, fs name = some file → Bytes file) (U : Unicode) {junk : List Nat} (hj : Bytes junk)
    (fold b : Bool) {name line : List Nat} (h : TextFault exec errmsg fs name line) :
    readFile exec errmsg U junk fs name { pageText fold with found_header := b } = .exit 1 line := by
  unfold readFile open_file
  cases h with
  | missing e => rw [e]; simp only [about]; rw [error_string_eq]; rfl
  | broken file m e h =>
    rw [e]
    simp only [about, obind_ok]
    rw [(read_broken U junk fold b file (hfs _ _ e) hj m).2 h, plain_broken h]

theorem readFile_reads {fs : Fs} (hfs : ∀ name file, fs name = some file → Bytes file) (U : Unicode) {junk : List Nat} (hj : Bytes junk)
    (fold b : Bool) {name file : List Nat} (e : fs name = some file) (h : WellFormed file) : ∃ t, TextOf U fold file t ∧
    readFile exec errmsg U junk fs name { pageText fold with found_header := b } =
      .ok [] (t, { pageText fold with found_header := decide (Headed file) }) := by
  obtain ⟨t, ht⟩ := (textOf_iff U fold file).2 h
  refine ⟨t, ht, ?_⟩
  unfold readFile open_file
  rw [e]
  simp only [about, obind_ok]
  rw [(read_any U junk fold b file (hfs _ _ e) hj t _).2 ⟨ht, rfl⟩]
  rfl

theorem readTexts_halts {fs : Fs} (hfs : ∀ name file, fs name = some file → Bytes file) (U : Unicode) {junk : List Nat} (hj : Bytes junk)
    (fold : Bool) {name line : List Nat} {names : List (List Nat)} (b : Bool) (h : Halts fs ReadsText (TextFault exec errmsg fs) names name line) :
    readTexts exec errmsg U junk fs names { pageText fold with found_header := b } = .exit 1 line := by
  obtain ⟨pre, post, os, rfl, hpre, hf⟩ := h
  unfold Ending.AllRead at hpre
  induction hpre generalizing b with
  | nil => rw [List.nil_append, readTexts, readFile_fault hfs U hj fold b hf]; rfl
  | cons hx _ ih =>
    obtain ⟨file, e, hr⟩ := hx
    obtain ⟨t, _, e'⟩ := readFile_reads (exec := exec) (errmsg := errmsg) hfs U hj fold b e hr
    rw [List.cons_append, readTexts, e', obind_ok]
    simp only
    rw [ih]
    rfl

theorem readPair_fault {fs : Fs} (hfs : ∀ name file, fs name = some file → Bytes file) (U : Unicode) {junk : List Nat} (hj : Bytes junk)
    {n0 n1 line : List Nat} (rest : List (List Nat)) (h : PairFault exec errmsg fs n0 n1 line) :
    readPair exec errmsg U junk fs (n0 :: n1 :: rest) = .exit 1 line := by
  unfold readPair
  rw [show rd (n0 :: n1 :: rest) 0 = .ok n0 from rfl, show rd (n0 :: n1 :: rest) 1 = .ok n1 from rfl, silent_ok, obind_ok,
    show textopt = { pageText false with found_header := false } from rfl]
  cases h with
  | first _ h => rw [readFile_fault hfs U hj false false h]; rfl
  | header file e hw hh =>
    obtain ⟨t, _, e'⟩ := readFile_reads (exec := exec) (errmsg := errmsg) hfs U hj false false e hw
    rw [e', obind_ok]
    simp only
    rw [if_pos (by simpa using hh)]
    rfl
  | second file _ e hw hh h =>
    obtain ⟨t, _, e'⟩ := readFile_reads (exec := exec) (errmsg := errmsg) hfs U hj false false e hw
    rw [e', obind_ok]
    simp only
    rw [if_neg (by simpa using hh), silent_ok, obind_ok, readFile_fault hfs U hj false _ h]
    rfl

end Ocr.Process
