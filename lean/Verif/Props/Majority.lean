import Verif.Proof.Majority
import Verif.Props.Programs

/-!
# Claims about vote.c: C84 (majorities)
-/

namespace Ocr.Vote
open Text Sync Res

/-! ## Counting -/

theorem count_all {texts : List (List Ch)} (P : List Ch × Nat → Bool) (k : Nat)
    (h : ∀ p : List Ch × Nat, k ≤ p.2 → p.2 < k + texts.length → P p = true) : (texts.zipIdx k).countP P = texts.length := by
  have e : (texts.zipIdx k).countP P = (texts.zipIdx k).length := by
    rw [List.countP_eq_length]
    intro p hp
    have := List.mem_zipIdx hp
    exact h p this.1 this.2.1
  rw [e, List.length_zipIdx]

theorem count_none {texts : List (List Ch)} (P : List Ch × Nat → Bool) (k : Nat)
    (h : ∀ p : List Ch × Nat, k ≤ p.2 → p.2 < k + texts.length → P p = false) : (texts.zipIdx k).countP P = 0 := by
  rw [List.countP_eq_zero]
  intro p hp
  have := List.mem_zipIdx hp
  rw [h p this.1 this.2.1]
  simp

/-- The settings leave positive weights. -/
theorem settings_weights {n : Nat} {optimize : Bool} {s w : Option (List Nat)} {cfg : Config} (h : Settings n optimize s w cfg) :
    1 ≤ cfg.suspect_weight ∧ cfg.suspect_weight ≤ cfg.unmarked_weight := by
  rcases h.weights with ⟨_, h1, h2⟩ | ⟨f, m, n, _, ⟨_, _, _, _⟩, h1, h2⟩ <;> omega

/-- Without optimization all texts are used, in the order given. -/
theorem vote_plain (U : Unicode) {s w : Option (List Nat)} {texts : List (List Ch)} {cfg : Config}
    (h : Settings texts.length false s w cfg) {r out} (e1 : synchronize (texts.map (·.map Ch.value)) = .ok r)
    (e2 : perform_vote cfg texts (rounds texts) r.items [] = .ok out) : voteTexts U false cfg texts = .ok out := by
  have hact := h.actual
  simp only [Bool.false_eq_true, if_false] at hact
  have e : select_voters U false cfg.actual_voters texts = .ok texts := by
    unfold select_voters
    simp only [Bool.false_eq_true, if_false, pure_eq, bind_ok]
    rw [if_pos (by simp [hact])]
    refine congrArg Res.ok ?_
    rw [List.take_of_length_le (by simp [hact]), List.map_map]
    apply List.ext_getElem (by simp)
    intro i _ _
    simp
  unfold voteTexts
  rw [e]
  simp only [bind_ok]
  rw [e1]
  simp only [bind_ok]
  exact e2

/-- What the voters in `same` weigh at least. -/
theorem Heavy.lo {cfg : Config} {same : List (List Ch)} {k : Nat} (h : Heavy cfg same k)
    (hs : 1 ≤ cfg.suspect_weight ∧ cfg.suspect_weight ≤ cfg.unmarked_weight) :
    ∃ lo, lo ≤ cfg.unmarked_weight ∧ (∀ t ∈ same, ∀ c ∈ t, lo ≤ weight cfg (some c)) ∧
      cfg.unmarked_weight * (k : Int) < lo * (same.length : Int) := by
  rcases h with ⟨h1, h2⟩ | h
  · refine ⟨cfg.unmarked_weight, Int.le_refl _, ?_, ?_⟩
    · intro t ht c hc
      simp [weight, h1 t ht c hc]
    · exact Int.mul_lt_mul_of_pos_left (by omega) (by omega)
  · refine ⟨cfg.suspect_weight, hs.2, ?_, ?_⟩
    · intro t _ c _
      unfold weight
      simp only
      split
      · exact Int.le_refl _
      · exact hs.2
    · rw [Int.mul_comm, Int.mul_comm cfg.suspect_weight]
      exact h

/-! ## C84 -/

theorem run_vote (cfg : Config) (pre same post : List (List Ch)) (v : List Nat)
    (h2 : 2 ≤ (pre ++ same ++ post).length) (h16 : (pre ++ same ++ post).length ≤ 16)
    (hs : 1 ≤ cfg.suspect_weight ∧ cfg.suspect_weight ≤ cfg.unmarked_weight) (hsame : ∀ t ∈ same, t.map Ch.value = v) (hr : 126 ∉ v)
    (hm : Heavy cfg same (pre.length + post.length)) :
    ∃ r out, synchronize ((pre ++ same ++ post).map (·.map Ch.value)) = .ok r ∧
      perform_vote cfg (pre ++ same ++ post) (rounds (pre ++ same ++ post)) r.items [] = .ok out ∧ out.map Ch.value = v := by
  obtain ⟨lo, l1, l2, l3⟩ := hm.lo hs
  have hin : ∀ i t, decide (pre.length ≤ i ∧ i < pre.length + same.length) = true → (pre ++ same ++ post)[i]? = some t → t ∈ same := by
    intro i t hi ht
    have hi := of_decide_eq_true hi
    rw [List.append_assoc, List.getElem?_append_right hi.1, List.getElem?_append_left (by omega)] at ht
    exact List.mem_of_getElem? ht
  refine heavy_vote cfg _ v h2 h16 (fun i => decide (pre.length ≤ i ∧ i < pre.length + same.length)) ?_
    (fun i t hi ht => hsame t (hin i t hi ht)) hr ⟨by omega, hs.2⟩ lo l1 (fun i t hi ht => l2 t (hin i t hi ht)) ?_
  · have := stable_run pre.length same.length
    simpa only [decide_eq_true_eq] using this
  · rw [List.zipIdx_append, List.zipIdx_append, List.countP_append, List.countP_append, List.countP_append, List.countP_append]
    rw [count_all (texts := pre), count_none (texts := same), count_all (texts := post), count_none (texts := pre), count_all (texts := same),
      count_none (texts := post)]
    · push_cast at l3 ⊢
      simpa using l3
    all_goals
      intro p p1 p2
      simp at p1 p2 ⊢
      omega

/-- C84 (neighbours).  If voters next to each other on the command line have the same text, without reject characters, and outweigh the
other voters, then without optimization the output is this text, whatever the other voters have. -/
theorem c84_neighbours (U : Unicode) (s w : Option (List Nat)) (pre same post : List (List Ch)) (cfg : Config)
    (hcfg : Settings (pre ++ same ++ post).length false s w cfg) (v : List Nat) (hsame : ∀ t ∈ same, t.map Ch.value = v)
    (hr : REJECT_CHARACTER ∉ v) (hm : Heavy cfg same (pre.length + post.length)) :
    ∃ out, voteTexts U false cfg (pre ++ same ++ post) = .ok out ∧ out.map Ch.value = v := by
  obtain ⟨r, out, e1, e2, hv⟩ := run_vote cfg pre same post v hcfg.voters.1 hcfg.voters.2 (settings_weights hcfg) hsame hr hm
  exact ⟨out, vote_plain U hcfg e1 e2, hv⟩

theorem but_one_vote (cfg : Config) (pre : List (List Ch)) (x : List Ch) (post : List (List Ch)) (v : List Nat)
    (h2 : 2 ≤ (pre ++ x :: post).length) (h16 : (pre ++ x :: post).length ≤ 16)
    (hs : 1 ≤ cfg.suspect_weight ∧ cfg.suspect_weight ≤ cfg.unmarked_weight) (hsame : ∀ t ∈ pre ++ post, t.map Ch.value = v) (hr : 126 ∉ v)
    (hm : Heavy cfg (pre ++ post) 1) :
    ∃ r out, synchronize ((pre ++ x :: post).map (·.map Ch.value)) = .ok r ∧
      perform_vote cfg (pre ++ x :: post) (rounds (pre ++ x :: post)) r.items [] = .ok out ∧ out.map Ch.value = v := by
  obtain ⟨lo, l1, l2, l3⟩ := hm.lo hs
  have hin : ∀ i t, decide (i ≠ pre.length) = true → (pre ++ x :: post)[i]? = some t → t ∈ pre ++ post := by
    intro i t hi ht
    have hi := of_decide_eq_true hi
    rw [List.getElem?_append] at ht
    split at ht
    · exact List.mem_append.2 (.inl (List.mem_of_getElem? ht))
    · rw [List.getElem?_cons, if_neg (by omega)] at ht
      exact List.mem_append.2 (.inr (List.mem_of_getElem? ht))
  refine heavy_vote cfg _ v h2 h16 (fun i => decide (i ≠ pre.length)) ?_
    (fun i t hi ht => hsame t (hin i t hi ht)) hr ⟨by omega, hs.2⟩ lo l1 (fun i t hi ht => l2 t (hin i t hi ht)) ?_
  · have := stable_but_one pre.length
    simpa only [decide_eq_true_eq] using this
  · rw [show pre ++ x :: post = pre ++ ([x] ++ post) from rfl, List.zipIdx_append, List.zipIdx_append, List.countP_append,
      List.countP_append, List.countP_append, List.countP_append]
    rw [count_none (texts := pre), count_all (texts := [x]), count_none (texts := post), count_all (texts := pre), count_none (texts := [x]),
      count_all (texts := post)]
    · push_cast at l3 ⊢
      simpa using l3
    all_goals
      intro p p1 p2
      simp at p1 p2 ⊢
      omega

/-- C84 (all but one).  If all voters but one have the same text, without reject characters, and outweigh the other one, then without
optimization the output is this text, wherever the other one stands on the command line. -/
theorem c84_but_one (U : Unicode) (s w : Option (List Nat)) (pre : List (List Ch)) (x : List Ch) (post : List (List Ch)) (cfg : Config)
    (hcfg : Settings (pre ++ x :: post).length false s w cfg) (v : List Nat) (hsame : ∀ t ∈ pre ++ post, t.map Ch.value = v)
    (hr : REJECT_CHARACTER ∉ v) (hm : Heavy cfg (pre ++ post) 1) :
    ∃ out, voteTexts U false cfg (pre ++ x :: post) = .ok out ∧ out.map Ch.value = v := by
  obtain ⟨r, out, e1, e2, hv⟩ := but_one_vote cfg pre x post v hcfg.voters.1 hcfg.voters.2 (settings_weights hcfg) hsame hr hm
  exact ⟨out, vote_plain U hcfg e1 e2, hv⟩

theorem plain_any (U U' : Unicode) (cfg : Config) (texts : List (List Ch)) :
    voteTexts U false cfg texts = voteTexts U' false cfg texts := by
  unfold voteTexts select_voters
  simp only [Bool.false_eq_true, if_false]

/-- C84 (lost majorities).  Otherwise a majority can lose: of five voters the first and the last two have "ab xab", but the vote is for
"ab".  With the three next to each other their text wins. -/
theorem c84_lost (U : Unicode) : voteTexts U false ⟨5, 0, 1, 1⟩
      [plainText "ab xab", plainText "xab", plainText "ab", plainText "ab xab", plainText "ab xab"] = .ok (plainText "ab") ∧
    Majority [plainText "ab xab", plainText "xab", plainText "ab", plainText "ab xab", plainText "ab xab"] (ascii "ab xab") ∧
    voteTexts U false ⟨5, 0, 1, 1⟩
      [plainText "xab", plainText "ab", plainText "ab xab", plainText "ab xab", plainText "ab xab"] = .ok (plainText "ab xab") := by
  refine ⟨?_, by unfold Majority; decide +kernel, ?_⟩
  · rw [plain_any U sampleUnicode]
    decide +kernel
  · rw [plain_any U sampleUnicode]
    decide +kernel

/-- C84 (optimization).  With -O and four or more voters, a text without reject characters that more than half of the voters have is the
output, wherever they stand and whatever is marked, unless another voter has the same pairs of characters in another order. -/
theorem c84_optimized (U : Unicode) (F : UnicodeFacts U) (s w : Option (List Nat)) (texts : List (List Ch)) (cfg : Config)
    (hcfg : Settings texts.length true s w cfg) (hval : ∀ t ∈ texts, ∀ c ∈ t, c.value ≤ 0x10FFFF) (hlen : ∀ t ∈ texts, t.length < 2 ^ 31)
    (h4 : 4 ≤ texts.length) (v : List Nat) (hm : Majority texts v) (hr : REJECT_CHARACTER ∉ v)
    (hd : ∀ t ∈ texts, (digrams t).Perm (v.zip v.tail) → t.map Ch.value = v) :
    ∃ out, voteTexts U true cfg texts = .ok out ∧ out.map Ch.value = v := by
  obtain ⟨order, hp, hcl, e⟩ := c43_select U F s w texts cfg hcfg hval hlen
  rw [show min 3 texts.length = 3 by omega] at e
  have hmem : ∀ i ∈ order, texts.getD i [] ∈ texts := by
    intro i hi
    have := List.mem_range.1 (hp.mem_iff.1 hi)
    rw [List.getD_eq_getElem?_getD, List.getElem?_eq_getElem this]
    exact List.getElem_mem this
  have hfirst := first_ones (fun i => decide ((texts.getD i []).map Ch.value = v)) order 3 (by
    refine List.Pairwise.imp_of_mem ?_ hcl
    intro i j hi hj hc h
    simp only [decide_eq_true_eq] at h ⊢
    have z := distance_zero hm hr h
    by_contra hne
    have := distance_pos hm hr (hmem i hi) (fun hpm => hne (hd _ (hmem i hi) hpm))
    rcases hc with hc | hc <;> omega) (by
    rw [hp.countP_eq]
    have e1 : (List.range texts.length).countP (fun i => decide ((texts.getD i []).map Ch.value = v)) =
        (texts.filter (fun t => t.map Ch.value = v)).length := by
      rw [← List.countP_eq_length_filter]
      have : texts = (List.range texts.length).map (fun i => texts.getD i []) := by
        apply List.ext_getElem (by simp)
        intro i h1 _
        simp [List.getElem?_eq_getElem h1]
      conv => rhs; rw [this, List.countP_map]
      rfl
    rw [e1]
    unfold Majority at hm
    omega)
  have hl := hp.length_eq
  rw [List.length_range] at hl
  obtain ⟨r, out, e1, e2, hv⟩ := same_vote cfg ((order.take 3).map (fun i => texts.getD i [])) v (by simp; omega) (by simp) (by
    intro t ht
    obtain ⟨i, hi, rfl⟩ := List.mem_map.1 ht
    have := hfirst i hi
    simpa using this) hr
  refine ⟨out, ?_, hv⟩
  unfold voteTexts
  rw [e]
  simp only [bind_ok]
  rw [e1]
  simp only [bind_ok]
  exact e2

/-- C84 (lost by optimization).  Three of five voters have "bab", but it has the same pairs of characters as "aba", which comes first. -/
theorem c84_anagram : voteTexts sampleUnicode true ⟨3, 0, 1, 1⟩
      [plainText "aba", plainText "bab", plainText "aba", plainText "bab", plainText "bab"] = .ok (plainText "aba") ∧
    Majority [plainText "aba", plainText "bab", plainText "aba", plainText "bab", plainText "bab"] (ascii "bab") ∧
    voteTexts sampleUnicode false ⟨5, 0, 1, 1⟩
      [plainText "aba", plainText "bab", plainText "aba", plainText "bab", plainText "bab"] = .ok (plainText "bab") := by
  refine ⟨by decide +kernel, by unfold Majority; decide +kernel, by decide +kernel⟩

/-- C84 (three voters).  With or without -O, if two of three voters have the same text, without reject characters, and outweigh the third,
then the output is this text. -/
theorem c84_three (U : Unicode) (F : UnicodeFacts U) (optimize : Bool) (s w : Option (List Nat)) (texts : List (List Ch)) (cfg : Config)
    (hcfg : Settings texts.length optimize s w cfg) (hval : ∀ t ∈ texts, ∀ c ∈ t, c.value ≤ 0x10FFFF)
    (hlen : ∀ t ∈ texts, t.length < 2 ^ 31) (a b x : List Ch) (h3 : texts.Perm [x, a, b]) (v : List Nat)
    (ha : a.map Ch.value = v) (hb : b.map Ch.value = v) (hr : REJECT_CHARACTER ∉ v) (hm : Heavy cfg [a, b] 1) :
    ∃ out, voteTexts U optimize cfg texts = .ok out ∧ out.map Ch.value = v := by
  have key : ∀ input : List (List Ch), input.Perm [x, a, b] → ∃ r out, synchronize (input.map (·.map Ch.value)) = .ok r ∧
      perform_vote cfg input (rounds input) r.items [] = .ok out ∧ out.map Ch.value = v := by
    intro input hp
    obtain ⟨pre, post, rfl⟩ := List.append_of_mem (hp.mem_iff.2 (show x ∈ [x, a, b] by simp))
    have hp2 : (pre ++ post).Perm [a, b] := (List.perm_middle.symm.trans hp).cons_inv
    have hl := hp2.length_eq
    simp at hl
    refine but_one_vote cfg pre x post v (by simp; omega) (by simp; omega) (settings_weights hcfg) ?_ hr ?_
    · intro t ht
      have := hp2.mem_iff.1 ht
      simp at this
      rcases this with rfl | rfl
      · exact ha
      · exact hb
    · rcases hm with ⟨h1, h2⟩ | h
      · exact .inl ⟨fun t ht => h1 t (hp2.mem_iff.1 ht), by rw [hp2.length_eq]; exact h2⟩
      · exact .inr (by rw [hp2.length_eq]; exact h)
  have hl := h3.length_eq
  simp at hl
  cases optimize with
  | false =>
    obtain ⟨r, out, e1, e2, hv⟩ := key texts h3
    exact ⟨out, vote_plain U hcfg e1 e2, hv⟩
  | true =>
    obtain ⟨order, hp, _, e⟩ := c43_select U F s w texts cfg hcfg hval hlen
    have hol := hp.length_eq
    rw [List.length_range] at hol
    rw [List.take_of_length_le (by omega)] at e
    have hin : (order.map (fun i => texts.getD i [])).Perm texts := by
      refine (hp.map _).trans (List.Perm.of_eq ?_)
      apply List.ext_getElem (by simp)
      intro i _ h1
      simp [List.getElem?_eq_getElem h1]
    obtain ⟨r, out, e1, e2, hv⟩ := key _ (hin.trans h3)
    refine ⟨out, ?_, hv⟩
    unfold voteTexts
    rw [e]
    simp only [bind_ok]
    rw [e1]
    simp only [bind_ok]
    exact e2

/-- C84 (all cases). -/
theorem c84_wins (U : Unicode) (F : UnicodeFacts U) (optimize : Bool) (s w : Option (List Nat)) (texts : List (List Ch)) (cfg : Config)
    (hcfg : Settings texts.length optimize s w cfg) (hval : ∀ t ∈ texts, ∀ c ∈ t, c.value ≤ 0x10FFFF)
    (hlen : ∀ t ∈ texts, t.length < 2 ^ 31) (v : List Nat) (hr : REJECT_CHARACTER ∉ v) (h : Wins cfg v optimize texts) :
    ∃ out, voteTexts U optimize cfg texts = .ok out ∧ out.map Ch.value = v := by
  cases h with
  | neighbours h1 h2 => exact c84_neighbours U s w _ _ _ cfg hcfg v h1 hr h2
  | but_one h1 h2 => exact c84_but_one U s w _ _ _ cfg hcfg v h1 hr h2
  | three h1 h2 h3 h4 => exact c84_three U F optimize s w texts cfg hcfg hval hlen _ _ _ h1 v h2 h3 hr h4
  | optimized h1 h2 h3 => exact c84_optimized U F s w texts cfg hcfg hval hlen h1 v h2 hr h3

/-- Who wins is somebody's text. -/
theorem Wins.somebody {cfg : Config} {v : List Nat} {optimize : Bool} {texts : List (List Ch)} (h : Wins cfg v optimize texts)
    (hs : 1 ≤ cfg.suspect_weight ∧ cfg.suspect_weight ≤ cfg.unmarked_weight) : ∃ t ∈ texts, t.map Ch.value = v := by
  have pos : ∀ same k, Heavy cfg same k → ∃ t, t ∈ same := by
    intro same k h
    rcases h with ⟨_, h⟩ | h
    · exact List.exists_mem_of_length_pos (by omega)
    · apply List.exists_mem_of_length_pos
      rcases Nat.eq_zero_or_pos same.length with h0 | h0
      · rw [h0] at h
        have : 0 ≤ (k : Int) * cfg.unmarked_weight := Int.mul_nonneg (by omega) (by omega)
        simp at h
        omega
      · exact h0
  cases h with
  | neighbours h1 h2 =>
    obtain ⟨t, ht⟩ := pos _ _ h2
    exact ⟨t, by simp [ht], h1 t ht⟩
  | but_one h1 h2 =>
    obtain ⟨t, ht⟩ := pos _ _ h2
    refine ⟨t, ?_, h1 t ht⟩
    rcases List.mem_append.1 ht with h | h <;> simp [h]
  | three h1 h2 _ _ => exact ⟨_, h1.mem_iff.2 (by simp), h2⟩
  | optimized h1 h2 _ =>
    unfold Majority at h2
    obtain ⟨t, ht⟩ := List.exists_mem_of_length_pos (l := texts.filter (fun t => t.map Ch.value = v)) (by omega)
    rw [List.mem_filter, decide_eq_true_iff] at ht
    exact ⟨t, ht⟩

end Ocr.Vote

namespace Ocr.Prog
open Text Res Spec

/-- C84 (files).  In these cases the file written by `vote` is a page with the characters of the majority. -/
theorem c84_files (U : Unicode) (F : UnicodeFacts U) (signed : Bool) (junk : List Nat) (fs : Fs)
    (prog : List Nat) (args ops : List (List Nat)) (ss : List Args.Setting) (hc : CommandLine voteTable prog args ops ss)
    (files : List (List Nat)) (texts : List (List Ch)) (hf : List.Forall₂ (fun name file => fs name = some file) ops files)
    (ht : List.Forall₂ (HoldsText U false) files texts) (out s w : Option (List Nat)) (optimize : Bool)
    (ho : Given ss 0 out) (hs : Given ss 1 s) (hw : Given ss 2 w) (hO : optimize = true ↔ ⟨.flag 1, []⟩ ∈ ss)
    (cfg : Vote.Config) (hcfg : Vote.Settings ops.length optimize s w cfg) (v : List Nat) (hm : Vote.Wins cfg v optimize texts)
    (hr : 126 ∉ v) (hwr : ∀ x ∈ v, Writable U x) (hval : ∀ t ∈ texts, ∀ c ∈ t, c.value ≤ 0x10FFFF) (hlen : ∀ t ∈ texts, t.length < 2^31) :
    ∃ bytes o, voteProgram U signed junk fs (prog :: args) = .ok ⟨out, bytes⟩ ∧ IsPage U false bytes o ∧ o.map Ch.value = v := by
  have hl : ops.length = texts.length := hf.length_eq.trans ht.length_eq
  obtain ⟨o, e, hv⟩ := Vote.c84_wins U F optimize s w texts cfg (hl ▸ hcfg) hval hlen v hr hm
  obtain ⟨t, hmem, htv⟩ := hm.somebody (Vote.settings_weights hcfg)
  have hn : NormalForm U o := by
    obtain ⟨i, hi, rfl⟩ := List.mem_iff_getElem.1 hmem
    have h := ht.get (by rw [ht.length_eq]; exact hi) hi
    simp only [List.get_eq_getElem] at h
    have hnt : NormalForm U texts[i] := by
      rcases h with ⟨_, h⟩ | ⟨body, _, h⟩ <;> exact page_normal h
    exact normal_values hnt (hv.trans htv.symm)
  obtain ⟨bytes, e1, e2⟩ := written_page (U := U) (t := o) (by
    intro c hc
    exact hwr _ (hv ▸ List.mem_map_of_mem hc)) hn
  exact ⟨bytes, o, vote_run hc hf ht ho hs hw hO hcfg e e1, e2, hv⟩

/-! ## Non-vacuity -/

/-- `vote a b report`: the first and the third file are equal. -/
example : ∃ bytes o, voteProgram sampleUnicode true [] sampleFs [ascii "vote", ascii "a", ascii "b", ascii "report"] = .ok ⟨none, bytes⟩ ∧
      IsPage sampleUnicode false bytes o ∧ o.map Ch.value = sampleText0.map Ch.value :=
  c84_files sampleUnicode sampleFacts true [] sampleFs (ascii "vote") _ _ _ (sample_line voteTable "vote" (by decide +kernel)) _ _
    (.cons (by decide +kernel) (.cons (by decide +kernel) (.cons (by decide +kernel) .nil)))
    (.cons (.inl ⟨not_headed_a, sample_a⟩) (.cons (.inl ⟨not_headed_b, sample_b⟩) (.cons (.inl ⟨not_headed_a, sample_a⟩) .nil)))
    none none none false (by intro x; simp) (by intro x; simp) (by intro x; simp) (by simp) ⟨3, 0, 1, 1⟩
    ⟨by decide, by decide, .inl ⟨rfl, rfl, rfl⟩, .inl ⟨rfl, rfl⟩⟩ (sampleText0.map Ch.value)
    (.three (x := sampleText1) (a := sampleText0) (b := sampleText0) (List.Perm.swap _ _ _) rfl rfl (.inr (by decide)))
    (by decide +kernel) (by
      intro x hx
      have : ∀ x ∈ sampleText0.map Ch.value, x < 0xD800 ∧ x ≠ 0 ∧ x ≠ SUSPECT_MARKER ∧
        (x = NEWLINE ∨ (is_graphic sampleUnicode x = true ∧ is_combining sampleUnicode x = false)) := by decide +kernel
      exact ⟨.inl (this x hx).1, (this x hx).2⟩) (by decide +kernel) (by decide +kernel)

open Vote

/-- Two next to each other against one, which is in the middle of a word for both. -/
example : Heavy ⟨5, 0, 1, 2⟩ [plainText "ab xab", plainText "ab xab", plainText "ab xab"] ([plainText "xab"].length + [plainText "ab"].length) ∧
    voteTexts sampleUnicode false ⟨5, 0, 1, 2⟩ ([plainText "xab"] ++ [plainText "ab xab", plainText "ab xab", plainText "ab xab"] ++
      [plainText "ab"]) = .ok (plainText "ab xab") := by
  refine ⟨.inl ⟨by decide +kernel, by decide⟩, by decide +kernel⟩

/-- Marked characters count half: three voters with marks do not outweigh two without (3 < 4), four do outweigh one. -/
example : ¬ Heavy ⟨5, 0, 1, 2⟩ (List.replicate 3 [⟨true, 97⟩]) 2 ∧ Heavy ⟨5, 0, 1, 2⟩ (List.replicate 4 [⟨true, 97⟩]) 1 ∧
    voteTexts sampleUnicode false ⟨5, 0, 1, 2⟩ (List.replicate 3 [⟨true, 97⟩] ++ List.replicate 2 [⟨false, 98⟩]) = .ok [⟨false, 98⟩] ∧
    voteTexts sampleUnicode false ⟨5, 0, 1, 2⟩ (List.replicate 4 [⟨true, 97⟩] ++ List.replicate 1 [⟨false, 98⟩]) = .ok [⟨false, 97⟩] := by
  unfold Heavy
  decide +kernel

/-- The theorems apply: the settings of `vote -w 1/2` with three files. -/
example : ∃ out, voteTexts sampleUnicode false ⟨3, 0, 1, 2⟩ [plainText "the cat", plainText "tbe cut sat", plainText "the cat"] = .ok out ∧
    out.map Ch.value = ascii "the cat" :=
  c84_but_one sampleUnicode none (some (ascii "1/2")) [plainText "the cat"] (plainText "tbe cut sat") [plainText "the cat"] ⟨3, 0, 1, 2⟩
    ⟨by decide, by decide, .inr ⟨_, 1, 2, rfl, ⟨by omega, by omega, by omega, by decide⟩, rfl, rfl⟩, .inl ⟨rfl, rfl⟩⟩ (ascii "the cat")
    (by decide +kernel) (by decide +kernel) (.inl ⟨by decide +kernel, by decide⟩)

/-- Three of five, scattered: with -O their text wins. -/
example : ∃ out, voteTexts sampleUnicode true ⟨3, 0, 1, 1⟩ [plainText "ab xab", plainText "xab", plainText "ab", plainText "ab xab",
    plainText "ab xab"] = .ok out ∧ out.map Ch.value = ascii "ab xab" :=
  c84_optimized sampleUnicode sampleFacts none none _ ⟨3, 0, 1, 1⟩ ⟨by decide, by decide, .inl ⟨rfl, rfl, rfl⟩, .inl ⟨rfl, rfl⟩⟩
    (by decide +kernel) (by decide +kernel) (by decide) (ascii "ab xab") (by unfold Majority; decide +kernel) (by decide +kernel)
    (by decide +kernel)

end Ocr.Prog
