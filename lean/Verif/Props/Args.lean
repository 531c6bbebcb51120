import Verif.Proof.Args

/-!
# C52: the command line.  C53: the base name of a file
-/

namespace Ocr.Args
open Res

/-- C53.  For a path of at most 32768 bytes, `basefilename` returns the part after the last `/`: the longest suffix without
`/`. -/
theorem c53_base (path : List Nat) (h : path.length ≤ 32768) :
    ∃ b, basefilename path = .ok b ∧ 47 ∉ b ∧ b <:+ path ∧ (b = path ∨ (47 :: b) <:+ path) ∧
      ∀ s, s <:+ path → 47 ∉ s → s.length ≤ b.length := by
  obtain ⟨m, h1, h2, h3, h4⟩ := baseLoop_spec path path.length (path.length + 1) (Nat.le_refl _) (by omega)
  have hn : narrow16 ((path.length : Int) - 1) = (path.length : Int) - 1 := by
    unfold narrow16; omega
  have hno : 47 ∉ path.drop m := by
    intro hm
    obtain ⟨k, hk, e⟩ := List.mem_iff_getElem.1 hm
    rw [List.length_drop] at hk
    rw [List.getElem_drop] at e
    exact h3 (m + k) (by omega) (by omega) (by omega) e
  have hsuf : path.drop m = path ∨ (47 :: path.drop m) <:+ path := by
    rcases h4 with rfl | ⟨hm, e⟩
    · exact .inl rfl
    · by_cases h0 : m = 0
      · subst h0; exact .inl rfl
      · right
        have := List.drop_suffix (m - 1) path
        rw [List.drop_eq_getElem_cons hm, e, show m - 1 + 1 = m by omega] at this
        exact this
  refine ⟨path.drop m, ?_, hno, List.drop_suffix m path, hsuf, ?_⟩
  · unfold basefilename
    rw [hn, h2, bind_ok, if_neg (by omega)]
    rw [show (m : Int) - 1 + 1 = (m : Int) by omega, Int.toNat_natCast]
    rfl
  · intro s hs hs47
    rcases hsuf with e | hsuf
    · rw [e]; exact hs.length_le
    · refine Nat.le_of_not_lt (fun hlt => hs47 ?_)
      have := List.suffix_of_suffix_length_le hsuf hs (by simp only [List.length_cons]; omega)
      exact this.subset (by simp)

/-- C53 (exception).  The position is a `short`: for a path of more than 32768 and less than 65536 bytes the pointer returned is
before the path. -/
theorem c53_long (path : List Nat) (h1 : 32768 < path.length) (h2 : path.length < 65536) : basefilename path = .ub := by
  have hn : narrow16 ((path.length : Int) - 1) = (path.length : Int) - 1 - 65536 := by
    unfold narrow16; omega
  unfold basefilename
  rw [hn, baseLoop, if_neg (by omega), bind_ok, if_pos (by omega)]

theorem at_start {prog : List Nat} {args : List (List Nat)} (h0 : ∀ a ∈ args, 0 ∉ a) :
    At (args.length + 1) 1 0 (prog :: args) unset (args.length + 1) args [] [] :=
  ⟨rfl, by simp, by omega, rfl, holds_nil, by simp [Once], fun _ _ h => (by cases h), h0, by omega, by omega⟩

/-- The outcome for the arguments after the program's name. -/
theorem parse_run {T : List (Nat × Kind)} (hT : Table T) {prog : List Nat} {args pre rest ops : List (List Nat)}
    (hl : args.length < rest.length + 32768) (h0 : ∀ a ∈ args, 0 ∉ a) {ss : List Setting} (e : args = pre ++ rest) (hP : Parse T pre ops ss) (ho : Once ss) :
    Reaches (some (T.map optOf)) (args.length + 1) (args.length + 1) 1 0 (prog :: args) unset rest ops ss := by
  have hA := at_start (prog := prog) h0
  have hA' : At (args.length + 1) 1 0 (prog :: args) unset (args.length + 1) (pre ++ rest) [] [] := e ▸ hA
  have := reaches_parse hT (by omega) hP hA' (by simpa using ho)
  simpa using this

theorem parse_ok {T : List (Nat × Kind)} (hT : Table T) {prog : List Nat} {args : List (List Nat)} (hl : args.length < 32768)
    (h0 : ∀ a ∈ args, 0 ∉ a) {ops : List (List Nat)} {ss : List Setting} (hP : Parse T args ops ss) (ho : Once ss) :
    ∃ argv j V, argsLoop (some (T.map optOf)) (args.length + 1) (args.length + 1) 1 0 (prog :: args) unset = .ok (argv, j, V) ∧
      argv.take j = ops ∧ Holds ss V := by
  obtain ⟨f, i, j, argv, V, e, hA⟩ := parse_run (prog := prog) hT (by simp; omega) h0 (by simp : args = args ++ []) hP ho
  exact ⟨argv, j, V, e.eq.trans (loop_end hA), hA.take, hA.holds⟩

theorem parse_err {T : List (Nat × Kind)} (hT : Table T) {prog : List Nat} {args : List (List Nat)} (hl : args.length < 32768)
    (h0 : ∀ a ∈ args, 0 ∉ a) {pre post ops : List (List Nat)} {a : List Nat} {ss : List Setting} {s : String} (e : args = pre ++ a :: post)
    (hP : Parse T pre ops ss) (ho : Once ss) (hF : Fault T ss a post s) :
    argsLoop (some (T.map optOf)) (args.length + 1) (args.length + 1) 1 0 (prog :: args) unset = .err s := by
  obtain ⟨f, i, j, argv, V, e, hA⟩ := parse_run (prog := prog) hT (by omega) h0 e hP ho
  exact e.eq.trans (loop_fault hT (by have := hA.i_lt; omega) hA hF)

theorem init_eq {os : Option (List Opt)} {u : Bool} {prog : List Nat} {args : List (List Nat)} {V : Vars} (hp : prog.length ≤ 32768) :
    ∃ b, basefilename prog = .ok b ∧ initialize_ os u (prog :: args) V =
      (if args = [] ∧ u = true then .err "usage" else
        argsLoop os (args.length + 1) (args.length + 1) 1 0 (prog :: args) V >>= fun x => .ok (b, x.1.take x.2.1, x.2.2)) := by
  obtain ⟨b, hb, _⟩ := c53_base prog hp
  refine ⟨b, hb, ?_⟩
  unfold initialize_
  have : rd (prog :: args) 0 = .ok prog := rfl
  rw [this, bind_ok, hb, bind_ok]
  unfold parse_args
  have hc : ((prog :: args).length = 1 ∧ u = true) ↔ (args = [] ∧ u = true) := by simp
  by_cases h : args = [] ∧ u = true
  · rw [if_pos (hc.2 h), if_pos h, bind_err]
  · rw [if_neg (fun h' => h (hc.1 h')), if_neg h]
    rfl

/-- C52 (acceptance).  For every option table and every command line, `initialize` succeeds exactly if the arguments are made
up of operands and options of the table, no option twice; it leaves the operands in their order, and sets exactly the variables
of the options given, to the values given. -/
theorem c52_accepts (T : List (Nat × Kind)) (hT : Table T) (u : Bool) (prog : List Nat) (args : List (List Nat))
    (hp : prog.length ≤ 32768) (hl : args.length < 32768) (h0 : ∀ a ∈ args, 0 ∉ a) (b : List Nat) (ops : List (List Nat)) (V : Vars) :
    initialize_ (some (T.map optOf)) u (prog :: args) unset = .ok (b, ops, V) ↔
      basefilename prog = .ok b ∧ ¬ (args = [] ∧ u = true) ∧ ∃ ss, Parse T args ops ss ∧ Once ss ∧ Holds ss V := by
  obtain ⟨b', hb, e⟩ := init_eq (os := some (T.map optOf)) (u := u) (args := args) (V := unset) hp
  rw [e]
  constructor
  · intro h
    split at h
    · cases h
    · rename_i hu
      rcases parse_or_fault T args.length args (Nat.le_refl _) [] (by simp [Once]) with ⟨ops', ss, h1, h2⟩ | ⟨pre, a, post, ops', ss, s, h1, h2, h3, h4⟩
      · obtain ⟨argv, j, W, e1, e2, e3⟩ := parse_ok (prog := prog) hT hl h0 h1 (by simpa using h2)
        rw [e1, bind_ok] at h
        obtain ⟨e4, e5⟩ := Prod.mk.inj (Res.ok.inj h)
        obtain ⟨e6, e7⟩ := Prod.mk.inj e5
        simp only at e4 e6 e7
        refine ⟨e4 ▸ hb, hu, ss, ?_, by simpa using h2, e7 ▸ e3⟩
        rw [← e6, e2]
        exact h1
      · rw [parse_err (prog := prog) hT hl h0 h1 h2 (by simpa using h3) (by simpa using h4), bind_err] at h
        cases h
  · rintro ⟨h1, hu, ss, h2, h3, h4⟩
    obtain ⟨argv, j, W, e1, e2, e3⟩ := parse_ok (prog := prog) hT hl h0 h2 h3
    rw [if_neg hu, e1, bind_ok]
    simp only
    rw [e2, e3.unique h4]
    rw [hb] at h1
    rw [Res.ok.inj h1]

/-- C52 (rejection).  Otherwise the program stops with a message, which depends on the first argument that is refused. -/
theorem c52_rejects (T : List (Nat × Kind)) (hT : Table T) (u : Bool) (prog : List Nat) (args : List (List Nat))
    (hp : prog.length ≤ 32768) (hl : args.length < 32768) (h0 : ∀ a ∈ args, 0 ∉ a) (s : String) :
    initialize_ (some (T.map optOf)) u (prog :: args) unset = .err s ↔
      (args = [] ∧ u = true ∧ s = "usage") ∨
      ∃ pre a post ops ss, args = pre ++ a :: post ∧ Parse T pre ops ss ∧ Once ss ∧ Fault T ss a post s := by
  obtain ⟨b', hb, e⟩ := init_eq (os := some (T.map optOf)) (u := u) (args := args) (V := unset) hp
  rw [e]
  constructor
  · intro h
    split at h
    · rename_i hu
      exact .inl ⟨hu.1, hu.2, (Res.err.inj h).symm⟩
    · rename_i hu
      rcases parse_or_fault T args.length args (Nat.le_refl _) [] (by simp [Once]) with ⟨ops', ss, h1, h2⟩ | ⟨pre, a, post, ops', ss, s', h1, h2, h3, h4⟩
      · obtain ⟨argv, j, W, e1, e2, e3⟩ := parse_ok (prog := prog) hT hl h0 h1 (by simpa using h2)
        rw [e1, bind_ok] at h
        cases h
      · rw [parse_err (prog := prog) hT hl h0 h1 h2 (by simpa using h3) (by simpa using h4), bind_err] at h
        cases Res.err.inj h
        exact .inr ⟨pre, a, post, ops', ss, h1, h2, by simpa using h3, by simpa using h4⟩
  · rintro (⟨rfl, rfl, rfl⟩ | ⟨pre, a, post, ops, ss, h1, h2, h3, h4⟩)
    · rw [if_pos ⟨rfl, rfl⟩]
    · rw [if_neg (by rintro ⟨rfl, _⟩; simp at h1), parse_err (prog := prog) hT hl h0 h1 h2 h3 h4, bind_err]

/-- C52 (totality).  There is no other outcome. -/
theorem c52_total (T : List (Nat × Kind)) (hT : Table T) (u : Bool) (prog : List Nat) (args : List (List Nat))
    (hp : prog.length ≤ 32768) (hl : args.length < 32768) (h0 : ∀ a ∈ args, 0 ∉ a) :
    (∃ r, initialize_ (some (T.map optOf)) u (prog :: args) unset = .ok r) ∨
      ∃ s, initialize_ (some (T.map optOf)) u (prog :: args) unset = .err s := by
  by_cases hu : args = [] ∧ u = true
  · exact .inr ⟨"usage", (c52_rejects T hT u prog args hp hl h0 _).2 (.inl ⟨hu.1, hu.2, rfl⟩)⟩
  · rcases parse_or_fault T args.length args (Nat.le_refl _) [] (by simp [Once]) with ⟨ops', ss, h1, h2⟩ | ⟨pre, a, post, ops', ss, s, h1, h2, h3, h4⟩
    · obtain ⟨b', hb, e⟩ := init_eq (os := some (T.map optOf)) (u := u) (args := args) (V := unset) hp
      obtain ⟨argv, j, W, e1, _, _⟩ := parse_ok (prog := prog) hT hl h0 h1 (by simpa using h2)
      exact .inl ⟨_, by rw [e, if_neg hu, e1, bind_ok]⟩
    · exact .inr ⟨s, (c52_rejects T hT u prog args hp hl h0 s).2 (.inr ⟨pre, a, post, ops', ss, h1, h2, by simpa using h3, by simpa using h4⟩)⟩

/-- C52 (exception).  The index of an argument is a `short`: if nothing is wrong with the first 32767 arguments and there are more, it
overflows. -/
theorem c52_many (T : List (Nat × Kind)) (hT : Table T) (u : Bool) (prog : List Nat) (args pre post ops : List (List Nat)) (ss : List Setting)
    (hp : prog.length ≤ 32768) (h0 : ∀ a ∈ args, 0 ∉ a) (e : args = pre ++ post) (hl : pre.length = 32767) (hn : post ≠ [])
    (hP : Parse T pre ops ss) (ho : Once ss) : initialize_ (some (T.map optOf)) u (prog :: args) unset = .ub := by
  obtain ⟨b, _, hi⟩ := init_eq (os := some (T.map optOf)) (u := u) (args := args) (V := unset) hp
  obtain ⟨f, i, j, argv, V, hs, hA⟩ := parse_run (prog := prog) hT (by rw [e, List.length_append]; omega) h0 e hP ho
  have hl' := congrArg List.length e
  rw [List.length_append] at hl'
  obtain ⟨a, post, rfl⟩ := List.exists_cons_of_ne_nil hn
  obtain ⟨f, rfl⟩ := hA.fuel_pos
  have hi' := hA.place
  rw [hi, if_neg (by rintro ⟨rfl, _⟩; simp at e), hs.eq, argsLoop, if_pos hA.i_lt, if_pos (by omega), bind_ub]

/-- C52 (no table).  A null pointer instead of a table is an empty table. -/
theorem c52_null (u : Bool) (argv : List (List Nat)) (V : Vars) : initialize_ none u argv V = initialize_ (some []) u argv V := by
  have hs : ∀ arg next V, (2 ≤ arg.length) → split_option none arg next V = split_option (some []) arg next V := by
    intro arg next V hl
    unfold split_option
    rcases arg with _ | ⟨x, _ | ⟨y, r⟩⟩
    · simp at hl
    · simp at hl
    · have : byteAt (x :: y :: r) 1 = .ok y := by simp [byteAt]
      simp [this, findOpt]
  have hstep : ∀ argc i j argv V, argStep none argc i j argv V = argStep (some []) argc i j argv V := by
    intro argc i j argv V
    unfold argStep
    refine congrArg _ ?_
    funext arg
    cases hb : isOption arg with
    | err s => rfl
    | ub => rfl
    | fuel => rfl
    | ok b =>
      simp only [bind_ok]
      cases b with
      | false => rfl
      | true =>
        have h2 : 2 ≤ arg.length := by
          refine Nat.le_of_not_lt (fun hlt => ?_)
          rw [isOption_false (by rintro ⟨c, r, rfl⟩; simp at hlt; omega)] at hb
          cases hb
        simp only [if_true, hs arg _ V h2]
  have hloop : ∀ argc fuel i j argv V, argsLoop none argc fuel i j argv V = argsLoop (some []) argc fuel i j argv V := by
    intro argc fuel
    induction fuel with
    | zero => intro i j argv V; rfl
    | succ fuel ih =>
      intro i j argv V
      rw [argsLoop, argsLoop, hstep]
      simp only [ih]
  unfold initialize_ parse_args
  simp only [hloop]

/-! Non-vacuity: the options of vote.c. -/

def voteTable : List (Nat × Kind) := [(68, .flag 0), (79, .flag 1), (111, .value 0), (115, .value 1), (119, .value 2)]

example : Table voteTable := ⟨by decide, by decide, by decide⟩
example : voteTable.map optOf = voteOptions := by decide
example : Table [(72, .flag 0), (105, .flag 1), (115, .flag 2), (84, .flag 3)] ∧
    ([(72, .flag 0), (105, .flag 1), (115, .flag 2), (84, .flag 3)] : List (Nat × Kind)).map optOf = synctextOptions :=
  ⟨⟨by decide, by decide, by decide⟩, by decide⟩
example : Table [(110, .value 0)] ∧ ([(110, .value 0)] : List (Nat × Kind)).map optOf = ngramOptions :=
  ⟨⟨by decide, by decide, by decide⟩, by decide⟩
example : Table [(83, .value 0)] ∧ ([(83, .value 0)] : List (Nat × Kind)).map optOf = wordaccOptions :=
  ⟨⟨by decide, by decide, by decide⟩, by decide⟩
example : Table [(68, .flag 0)] ∧ ([(68, .flag 0)] : List (Nat × Kind)).map optOf = editopOptions :=
  ⟨⟨by decide, by decide, by decide⟩, by decide⟩

/-- `vote a -s 1/2 -w1/3 - -O b`. -/
example : Parse voteTable [ascii "a", ascii "-s", ascii "1/2", ascii "-w1/3", ascii "-", ascii "-O", ascii "b"]
    [ascii "a", ascii "-", ascii "b"] [⟨.value 1, ascii "1/2"⟩, ⟨.value 2, ascii "1/3"⟩, ⟨.flag 1, []⟩] := by
  have nd : ∀ (x : Nat), ¬ Dashed [x] := by rintro x ⟨c, r, h⟩; cases h
  refine .operand (nd _) (.separate (c := 115) (r := ascii "1/2") (by unfold Help; decide) (by decide)
    (.attached (c := 119) (x := 49) (r := ascii "/3") (by unfold Help; decide) (by decide) (.operand (nd _)
    (.flag (c := 79) (by unfold Help; decide) (by decide) (.operand (nd _) .nil)))))

example : Fault voteTable [⟨.flag 1, []⟩] (ascii "-O") [] "duplicate option" :=
  .again_flag (c := 79) (v := 1) (by unfold Help; decide) (by decide) (by decide)

example : basefilename (ascii "/usr/bin/vote") = .ok (ascii "vote") := by decide +kernel
example : basefilename (List.replicate 40000 97) = .ub := 
  c53_long _ (by rw [List.length_replicate]; omega) (by rw [List.length_replicate]; omega)

/-- 40000 files. -/
example : initialize_ (some (voteTable.map optOf)) true ([118] :: List.replicate 40000 [120]) unset = .ub := by
  have op : ∀ n : Nat, Parse voteTable (List.replicate n [120]) (List.replicate n [120]) [] := by
    intro n
    induction n with
    | zero => exact .nil
    | succ n ih => exact .operand (by rintro ⟨c, r, e⟩; simp at e) ih
  refine c52_many voteTable ⟨by decide, by decide, by decide⟩ true [118] _ (List.replicate 32767 [120]) (List.replicate 7233 [120]) _ [] (by simp) ?_ ?_
    List.length_replicate ?_ (op _) (by simp [Once])
  · intro a h
    rw [List.eq_of_mem_replicate h]
    decide
  · rw [← List.replicate_add]
  · intro h
    have := congrArg List.length h
    rw [List.length_replicate] at this
    simp at this

end Ocr.Args
