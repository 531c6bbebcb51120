import Verif.Spec.VoteTrace
import Verif.Model.VoteDebug
import Verif.Props.PrintEndings

/-!
# C77: what option `-D` of vote prints
-/

namespace Ocr.Vote
open Text Res

theorem half_text (d : Int) (h : 0 ≤ d) : HalfText d (fmtHalf d) := by
  obtain ⟨n, rfl⟩ := Int.eq_ofNat_of_zero_le h
  have e : fmtInt ((n : Int) / 2) = decDigits (n / 2) := by
    unfold fmtInt
    rw [if_neg (by omega)]
    congr 1
  refine ⟨11 - (decDigits (n / 2) ++ [46, 48 + 5 * (n % 2)]).length, n / 2, n % 2, ?_, by omega, by omega, ?_, ?_⟩
  · unfold fmtHalf
    simp only
    rw [e]
    rcases Nat.mod_two_eq_zero_or_one n with h | h
    · rw [if_pos (by omega), h, show ascii ".0" = [46, 48 + 5 * 0] from rfl]; simp
    · rw [if_neg (by omega), h, show ascii ".5" = [46, 48 + 5 * 1] from rfl]; simp
  · unfold fmtHalf
    simp only [List.length_append, List.length_replicate]
    omega
  · unfold fmtHalf
    simp only [List.length_append, List.length_replicate, List.length_cons, List.length_nil]
    rw [e]
    have : (ascii (if (n : Int) % 2 = 0 then ".0" else ".5")).length = 2 := by split <;> rfl
    omega

/-- What is printed for a distance determines it. -/
theorem half_unique {d d' : Int} {s : List Nat} (h : HalfText d s) (h' : HalfText d' s) : d = d' := by
  obtain ⟨k, n, r, e, hd, hr, _⟩ := h
  obtain ⟨k', n', r', e', hd', hr', _⟩ := h'
  rw [e] at e'
  have h2 := List.append_inj' e' rfl
  have hr2 : r = r' := by simpa using h2.2
  have hdig : ∀ m, ∀ b ∈ decDigits m, b ≠ 32 := by
    intro m b hb
    have := Report.decDigits_digit m b hb
    rintro rfl
    exact absurd this (by decide)
  have hdrop : ∀ k m, (List.replicate k 32 ++ decDigits m).dropWhile (· == 32) = decDigits m := by
    intro k m
    induction k with
    | zero =>
      have hne : decDigits m ≠ [] := Report.decDigits_ne m
      cases hd : decDigits m with
      | nil => exact absurd hd hne
      | cons b l =>
        have := hdig m b (by rw [hd]; simp)
        simp [this]
    | succ k ih => rw [List.replicate_succ, List.cons_append, List.dropWhile_cons_of_pos (by simp)]; exact ih
  have hn : decDigits n = decDigits n' := by rw [← hdrop k n, h2.1, hdrop]
  have : n = n' := by rw [← Report.decVal_decDigits n, hn, Report.decVal_decDigits]
  omega

theorem distance2_nonneg (texts : List (List Ch)) (t : List Ch) : 0 ≤ distance2 texts t := by
  unfold distance2
  apply List.sum_nonneg
  intro x hx
  obtain ⟨d, _, rfl⟩ := List.mem_map.1 hx
  omega

theorem rankLines_spec {names : List (List Nat)} {texts : List (List Ch)} (hn : names.length = texts.length) : ∀ l : List Voter,
    (∀ v ∈ l, v.argnum < texts.length ∧ v.distance2 = distance2 texts (texts.getD v.argnum [])) →
    ∃ lines, rankLines names l = .ok lines.flatten ∧ List.Forall₂ (RankLine names texts) (l.map Voter.argnum) lines := by
  intro l
  induction l with
  | nil => intro _; exact ⟨[], rfl, .nil⟩
  | cons v l ih =>
    intro h
    obtain ⟨lines, e, hf⟩ := ih (fun x hx => h x (by simp [hx]))
    obtain ⟨h1, h2⟩ := h v (by simp)
    have hi : v.argnum < names.length := by omega
    refine ⟨(fmtHalf v.distance2 ++ [32] ++ names[v.argnum] ++ [10]) :: lines, ?_, .cons ⟨_, names[v.argnum], ?_, by simp [hi], rfl⟩ hf⟩
    · rw [rankLines, Edo.rd_ok hi, bind_ok, e, bind_ok, pure_eq, List.flatten_cons]
    · rw [h2]
      exact half_text _ (distance2_nonneg _ _)

/-- C77 (selection).  With -O and -D one line is printed for each of 2 to 16 voters, ranked by their distance from the median digram
counts; the first three (or two) of the ranking are used. -/
theorem c77_select (U : Unicode) (F : UnicodeFacts U) (s w : Option (List Nat)) (names : List (List Nat)) (texts : List (List Ch))
    (hn : names.length = texts.length) (cfg : Config)
    (hcfg : Settings texts.length true s w cfg) (hval : ∀ t ∈ texts, ∀ c ∈ t, c.value ≤ 0x10FFFF)
    (hlen : ∀ t ∈ texts, t.length < 2 ^ 31) :
    ∃ order lines, Ranking names texts order lines ∧
      select_voters U true cfg.actual_voters texts = .ok ((order.take (min 3 texts.length)).map (fun i => texts.getD i [])) ∧
      select_votersD U true true cfg.actual_voters names texts =
        .ok ((order.take (min 3 texts.length)).map (fun i => texts.getD i []), lines.flatten) := by
  have ha := hcfg.actual
  simp only [if_true] at ha
  have h16 := hcfg.voters
  obtain ⟨t, array, l, e1, e2, e3, hmemv, hperm, hcl⟩ := rank_spec F (fun t ht c hc => by have := hval t ht c hc; omega) hlen h16.2 (by omega)
  obtain ⟨lines, el, hf⟩ := rankLines_spec hn l (fun v hv => ⟨(hmemv v hv).1, (hmemv v hv).2.2⟩)
  have hl : l.length = texts.length := by have := hperm.length_eq; simpa using this
  have hsel : (l.take cfg.actual_voters).map Voter.text =
      ((l.map Voter.argnum).take (min 3 texts.length)).map (fun i => texts.getD i []) := by
    rw [ha, ← List.map_take, List.map_map]
    apply List.map_congr_left
    intro v hvm
    exact (hmemv v (List.mem_of_mem_take hvm)).2.1
  refine ⟨l.map Voter.argnum, lines, ⟨hperm, hcl, hf⟩, ?_, ?_⟩
  · unfold select_voters
    simp only [if_true]
    rw [e1]
    simp only [bind_ok]
    rw [e2]
    simp only [bind_ok]
    rw [e3]
    simp only [bind_ok]
    rw [if_pos (by omega), hsel]
    rfl
  · unfold select_votersD
    simp only [if_true]
    rw [e1]
    simp only [bind_ok]
    rw [e2]
    simp only [bind_ok]
    rw [e3]
    simp only [bind_ok]
    rw [el]
    simp only [bind_ok, pure_eq]
    rw [if_pos (by omega), hsel]

theorem selectD_off {U : Unicode} {debug optimize : Bool} (h : ¬ (debug = true ∧ optimize = true)) (n : Nat) (names : List (List Nat))
    (texts : List (List Ch)) : select_votersD U debug optimize n names texts = select_voters U optimize n texts >>= fun i => .ok (i, []) := by
  unfold select_votersD select_voters
  cases optimize with
  | false =>
    simp only [Bool.false_eq_true, if_false, pure_eq, bind_ok]
    split <;> rfl
  | true =>
    have : debug = false := by simpa using h
    subst this
    simp only [if_true, Bool.false_eq_true, if_false]
    cases countAll U 0 texts [] with
    | ok t =>
      simp only [bind_ok]
      cases medianAll texts.length (Store.in_array Seq.key t) with
      | ok array =>
        simp only [bind_ok]
        cases Sort.sort texts.length compare_distances
          (texts.zipIdx.map (fun (p : List Ch × Nat) => (⟨p.2, p.1, compute_distance p.2 array⟩ : Voter))) with
        | ok l =>
          simp only [bind_ok, pure_eq]
          split <;> rfl
        | err m => rfl
        | ub => rfl
        | fuel => rfl
      | err m => rfl
      | ub => rfl
      | fuel => rfl
    | err m => rfl
    | ub => rfl
    | fuel => rfl

theorem voteTextsD_eq {U : Unicode} {debug optimize : Bool} {cfg : Config} {names : List (List Nat)} {texts input : List (List Ch)} {out : List Nat}
    (h : select_voters U optimize cfg.actual_voters texts = .ok input)
    (hD : select_votersD U debug optimize cfg.actual_voters names texts = .ok (input, out)) :
    voteTextsD U debug optimize cfg names texts = voteTexts U optimize cfg texts >>= fun o => .ok (o, out) := by
  unfold voteTextsD voteTexts
  rw [h, hD]
  simp only [bind_ok]
  cases Sync.synchronize (input.map (·.map Ch.value)) with
  | ok r => rfl
  | err m => rfl
  | ub => rfl
  | fuel => rfl

end Ocr.Vote

namespace Ocr.Ending
open Text Res Prog Spec AnyText

section
variable (U : Unicode) (F : UnicodeFacts U) (junk : List Nat) (hj : Bytes junk) (fs : Fs)
  (hfs : ∀ name file, fs name = some file → Bytes file)
include F hj hfs

/-- C77 (the program).  A run of vote that writes its output: with `-O` and `-D` the ranking of the voters is printed, otherwise nothing; then
the same output is written in either case. -/
theorem c77_program (signed : Bool) (prog : List Nat) (args names : List (List Nat)) (ss : List Args.Setting)
    (hc : CommandLine voteTable prog args names ss) (ts : List (List Ch)) (cfg : Vote.Config) (hp : Polled U fs names ss ts cfg)
    (hlen : ∀ t ∈ ts, t.length < 2 ^ 31) (o : Option (List Nat)) (ho : Given ss 0 o) (out : List Ch)
    (hv : Vote.voteTexts U (decide (⟨.flag 1, []⟩ ∈ ss)) cfg ts = .ok out) (hshort : ∀ c ∈ out, ¬ TooLong U c) :
    ∃ bytes, voteProgram U signed junk fs (prog :: args) = .ok ⟨o, bytes⟩ ∧
      (⟨.flag 0, []⟩ ∈ ss → ⟨.flag 1, []⟩ ∈ ss → ∃ order lines, Vote.Ranking names ts order lines ∧
        voteDebug U signed junk fs (prog :: args) = .ok (lines.flatten, ⟨o, bytes⟩)) ∧
      (¬ (⟨.flag 0, []⟩ ∈ ss ∧ ⟨.flag 1, []⟩ ∈ ss) → voteDebug U signed junk fs (prog :: args) = .ok ([], ⟨o, bytes⟩)) := by
  obtain ⟨b, V, e, hV⟩ := init_args table_vote hc
  obtain ⟨out', e', hval⟩ := c75_result U F fs hfs names ss ts cfg hp
  rw [hv] at e'
  cases e'
  obtain ⟨hr, s, w, g1, g2, hcfg⟩ := hp
  have hO : V.boolean 1 = decide (⟨.flag 1, []⟩ ∈ ss) := by
    rw [Bool.eq_iff_iff, decide_eq_true_iff]
    exact hV.2 1
  have hn : ¬ (names.length < Vote.MIN_VOTERS ∨ names.length > Vote.MAX_VOTERS) := by
    have := hcfg.voters
    unfold Vote.MIN_VOTERS Vote.MAX_VOTERS
    omega
  have htv : ∀ t ∈ ts, ∀ c ∈ t, c.value < 0x110000 := by
    intro t ht
    obtain ⟨name, file, h1, h2⟩ := allRead_mem hr t ht
    exact textOf_value (hfs _ _ h1) h2
  obtain ⟨opt, ef⟩ : ∃ opt, forFiles fs (voteFile U junk) names (Vote.textopt, []) = .ok (opt, ts) := by
    rcases voters_give U hj hfs names false [] _ rfl with ⟨opt, ts', hr', ef⟩ | ⟨no, msg, ef⟩
    · have : ts' = ts := allRead_unique (R := TextOf U false) (fun f o o' h h' => textOf_unique h h') hr' hr
      subst this
      exact ⟨opt, ef⟩
    · exact absurd ⟨ts, hr⟩ no
  have ev : Vote.validate_args signed names.length (V.boolean 1) (V.string 1) (V.string 2) = .ok cfg := by
    rw [← (given_iff hV 1 _).1 g1, ← (given_iff hV 2 _).1 g2, hO]
    exact validate_eq hcfg
  have hv' : ∀ c ∈ out, c.value < 0x110000 := by
    intro c hc
    rcases hval c hc with e | ⟨t, ht, d, hd, e⟩
    · omega
    · rw [← e]
      exact htv t ht d hd
  have cut : Cut (write_text U out none) (∃ c ∈ out, TooLong U c) := by
    unfold write_text
    exact (writeLoop_cut out hv').map (fun r => ⟨_, rfl⟩)
  obtain ⟨bytes, eb⟩ : ∃ bytes, write_text U out none = .ok bytes := cut.2 (fun ⟨c, hc, hl⟩ => hshort c hc hl)
  have eo : V.string 0 = o := ((given_iff hV 0 _).1 ho).symm
  have prog_eq : ∀ printed, Vote.voteTextsD U (V.boolean 0) (V.boolean 1) cfg names ts = .ok (out, printed) →
      voteDebug U signed junk fs (prog :: args) = .ok (printed, ⟨o, bytes⟩) := by
    intro printed hd
    unfold voteDebug
    rw [show Args.initialize_ (some Args.voteOptions) true (prog :: args) start = _ from e, bind_ok]
    simp only
    rw [if_neg hn, ef, bind_ok]
    simp only
    rw [ev, bind_ok, hd, bind_ok]
    simp only
    rw [eb, bind_ok, pure_eq, eo]
  refine ⟨bytes, ?_, ?_, ?_⟩
  · unfold voteProgram
    rw [show Args.initialize_ (some Args.voteOptions) true (prog :: args) start = _ from e, bind_ok]
    simp only
    rw [if_neg hn, ef, bind_ok]
    simp only
    rw [ev, bind_ok, hO, hv, bind_ok, eb, bind_ok, pure_eq, eo]
  · intro h0 h1
    have hcfg' := hcfg
    rw [show names.length = ts.length from hr.length_eq, decide_eq_true h1] at hcfg'
    obtain ⟨order, lines, hrank, s1, s2⟩ := Vote.c77_select U F s w names ts hr.length_eq cfg hcfg'
      (fun t ht c hc => by have := htv t ht c hc; omega) hlen
    refine ⟨order, lines, hrank, prog_eq _ ?_⟩
    rw [(hV.2 0).2 h0, (hV.2 1).2 h1, Vote.voteTextsD_eq s1 s2]
    rw [decide_eq_true h1] at hv
    rw [hv, bind_ok]
  · intro hno
    refine prog_eq _ ?_
    have hno' : ¬ (V.boolean 0 = true ∧ V.boolean 1 = true) := fun h => hno ⟨(hV.2 0).1 h.1, (hV.2 1).1 h.2⟩
    have hsel : ∃ input, Vote.select_voters U (V.boolean 1) cfg.actual_voters ts = .ok input := by
      rw [hO]
      unfold Vote.voteTexts at hv
      cases hs : Vote.select_voters U (decide (⟨.flag 1, []⟩ ∈ ss)) cfg.actual_voters ts with
      | ok input => exact ⟨input, rfl⟩
      | err m => rw [hs] at hv; cases hv
      | ub => rw [hs] at hv; cases hv
      | fuel => rw [hs] at hv; cases hv
    obtain ⟨input, hs⟩ := hsel
    rw [Vote.voteTextsD_eq hs (by rw [Vote.selectD_off hno', hs, bind_ok]), hO, hv, bind_ok]

end

/-! ## Non-vacuity -/

/-- Three texts; the second is one digram closer to the median than the others. -/
example : Vote.select_votersD sampleUnicode true true 3 [ascii "x", ascii "y", ascii "z"]
    [Vote.plainText "aab", Vote.plainText "ab", Vote.plainText "abc"] =
    .ok ([Vote.plainText "ab", Vote.plainText "aab", Vote.plainText "abc"],
      ascii "        0.0 y\n        1.0 x\n        1.0 z\n") := by decide +kernel

/-- `vote -D -O x z`. -/
theorem debug_line : CommandLine voteTable (ascii "vote") [ascii "-D", ascii "-O", ascii "x", ascii "z"] [ascii "x", ascii "z"]
    [⟨.flag 0, []⟩, ⟨.flag 1, []⟩] :=
  ⟨by decide +kernel, by decide +kernel, by decide +kernel, by simp,
    .flag (by unfold Args.Help; decide +kernel) (by decide) (.flag (by unfold Args.Help; decide +kernel) (by decide)
      (.operand (by rintro ⟨c, r, e⟩; simp [ascii] at e) (.operand (by rintro ⟨c, r, e⟩; simp [ascii] at e) .nil))), by simp [Args.Once]⟩

theorem polled_xz : Polled sampleUnicode (threeFiles textX textM textZ) [ascii "x", ascii "z"] [⟨.flag 0, []⟩, ⟨.flag 1, []⟩]
    [plain "The cat", [⟨false, 99⟩, ⟨false, 0x10FFFF⟩]] ⟨2, 0, 1, 1⟩ :=
  ⟨.cons ⟨_, rfl, of_x⟩ (.cons ⟨_, file_z _ _ _, of_z⟩ .nil), none, none, by intro x; simp, by intro x; simp,
    ⟨by decide, by decide +kernel, .inl ⟨rfl, rfl, rfl⟩, .inl ⟨rfl, rfl⟩⟩⟩

/-- Both voters are ranked. -/
example : ∃ order lines bytes, Vote.Ranking [ascii "x", ascii "z"] [plain "The cat", [⟨false, 99⟩, ⟨false, 0x10FFFF⟩]] order lines ∧
    voteDebug sampleUnicode true [] (threeFiles textX textM textZ) [ascii "vote", ascii "-D", ascii "-O", ascii "x", ascii "z"] =
      .ok (lines.flatten, ⟨none, bytes⟩) := by
  obtain ⟨out, ho, _⟩ := c75_result _ sampleFacts _ xmz_bytes _ _ _ _ polled_xz
  obtain ⟨bytes, _, h, _⟩ := c77_program _ sampleFacts [] (by simp [Bytes]) _ xmz_bytes true _ _ _ _ debug_line _ _ polled_xz
    (by decide +kernel) none (by intro x; simp) out ho
    (c75_fits _ sampleFacts _ xmz_bytes _ _ _ _ polled_xz (.inl (by simp)) out ho)
  obtain ⟨order, lines, h1, h2⟩ := h (by simp) (by simp)
  exact ⟨order, lines, bytes, h1, h2⟩

end Ocr.Ending
