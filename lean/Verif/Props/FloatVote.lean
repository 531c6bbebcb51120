import Verif.Proof.FloatVote
import Verif.Props.VoteTrace

/-!
# C80: the selection of voters, computed in floating point
-/

namespace Ocr.Vote
open Text Res Fp

/-- C80 (selection).  For at most 16 texts of fewer than 2^23 characters, the medians in `float` and the distances in `double` lead to the
selection and the printout of exact arithmetic. -/
theorem c80_select (U : Unicode) (F : UnicodeFacts U) (debug optimize : Bool) (actual : Nat) (names : List (List Nat)) (texts : List (List Ch))
    (hval : ∀ t ∈ texts, ∀ c ∈ t, c.value ≤ 0x10FFFF) (hlen : ∀ t ∈ texts, t.length < 2 ^ 23) (h : 1 ≤ texts.length ∧ texts.length ≤ 16) :
    select_votersF U debug optimize actual names texts = select_votersD U debug optimize actual names texts :=
  selectF_eq F debug optimize actual names (fun t ht c hc => by have := hval t ht c hc; omega) hlen h.2 (by omega)

/-! ## Longer texts -/

/-- A text of `n` digrams of the same character. -/
def row (n : Nat) : List Ch := List.replicate (n + 1) ⟨false, 97⟩

theorem row_digrams (n : Nat) : digrams (row n) = List.replicate n (97, 97) := by
  unfold digrams row
  rw [List.map_replicate, List.replicate_succ, List.tail_cons, ← List.replicate_succ]
  apply List.ext_getElem (by simp)
  intro i h1 h2
  simp

theorem row_valid (n : Nat) : Valid (row n) := by
  intro c hc
  rw [List.eq_of_mem_replicate hc]
  decide

/-- The four texts: one of 2^24 digrams, three with one more. -/
def rows : List (List Ch) := [row (2 ^ 24), row (2 ^ 24 + 1), row (2 ^ 24 + 1), row (2 ^ 24 + 1)]

theorem rows_count {U} (F : UnicodeFacts U) : ∃ s : Seq, countAll U 0 rows [] = .ok [s] ∧ s.median2 = 2 ∧ s.count 0 = 2 ^ 24 ∧
    s.count 1 = 2 ^ 24 + 1 ∧ s.count 2 = 2 ^ 24 + 1 ∧ s.count 3 = 2 ^ 24 + 1 := by
  obtain ⟨t, e1, ds, hnd, hmem, rfl⟩ := countAll_spec F rows 0 [] [] (by
    intro x hx
    simp only [rows, List.mem_cons, List.not_mem_nil, or_false] at hx
    rcases hx with rfl | rfl | rfl | rfl <;> exact row_valid _) (by decide) ⟨[], by simp, by simp, rfl⟩ (by intro e he; simp at he)
  simp only [List.nil_append] at hmem
  have hmem' : ∀ d, d ∈ ds ↔ d ∈ [((97 : Nat), (97 : Nat))] := by
    intro d
    rw [hmem, mem_events]
    simp only [rows, List.flatMap_cons, List.flatMap_nil, row_digrams, List.mem_append, List.mem_replicate, List.not_mem_nil, or_false,
      List.mem_singleton]
    constructor
    · rintro (h | h | h | h) <;> exact h.2
    · intro h; exact .inl ⟨by norm_num, h⟩
  have hds : ds = [(97, 97)] := List.perm_singleton.1 ((List.perm_ext_iff_of_nodup hnd (by simp)).2 hmem')
  subst hds
  have hc : ∀ i, (entry U ([] ++ events 0 rows) (97, 97)).count i = ((digrams (rows.getD i [])).count (97, 97) : Int) := by
    intro i
    unfold entry
    simp only [List.nil_append, count_events, Nat.zero_le, if_true, Nat.sub_zero]
  have hr : ∀ n, (digrams (row n)).count (97, 97) = n := by intro n; rw [row_digrams, List.count_replicate_self]
  refine ⟨entry U ([] ++ events 0 rows) (97, 97), e1, ?_, ?_, ?_, ?_, ?_⟩
  · unfold entry; simp [REJECT_CHARACTER]
  · rw [hc, show rows.getD 0 [] = row (2 ^ 24) from rfl, hr]; norm_num
  · rw [hc, show rows.getD 1 [] = row (2 ^ 24 + 1) from rfl, hr]; norm_num
  · rw [hc, show rows.getD 2 [] = row (2 ^ 24 + 1) from rfl, hr]; norm_num
  · rw [hc, show rows.getD 3 [] = row (2 ^ 24 + 1) from rfl, hr]; norm_num

theorem single_array {s : Seq} : Store.in_array Seq.key [s] = [s] := List.perm_singleton.1 (Store.in_array_perm Seq.key [s])

/-- The comparison of voters by number and distance. -/
def comparePairs (x y : Nat × ℚ) : Int :=
  if x.2 ≠ y.2 then (if x.2 < y.2 then -1 else 1) else (x.1 : Int) - y.1

/-- C80 (the bound matters).  A text of 2^24 digrams `aa` and three of one more: in exact arithmetic the three equal texts are selected; in
floating point all distances are zero, and the first text is selected as well, at the expense of the last. -/
theorem c80_limit (U : Unicode) (F : UnicodeFacts U) (names : List (List Nat)) :
    select_votersD U false true 3 names rows = .ok ([row (2 ^ 24 + 1), row (2 ^ 24 + 1), row (2 ^ 24 + 1)], []) ∧
    select_votersF U false true 3 names rows = .ok ([row (2 ^ 24), row (2 ^ 24 + 1), row (2 ^ 24 + 1)], []) := by
  obtain ⟨s, e, hm, h0, h1, h2, h3⟩ := rows_count F
  have hl : rows.length = 4 := rfl
  have hcount : (List.range 4).map s.count = [2 ^ 24, 2 ^ 24 + 1, 2 ^ 24 + 1, 2 ^ 24 + 1] := by
    simp [List.range_succ, h0, h1, h2, h3]
  have hsort : Sort.sort 4 compare_counts [2 ^ 24, 2 ^ 24 + 1, 2 ^ 24 + 1, 2 ^ 24 + 1] =
      .ok [2 ^ 24, 2 ^ 24 + 1, 2 ^ 24 + 1, 2 ^ 24 + 1] := by decide +kernel
  have hz : rows.zipIdx = [(row (2 ^ 24), 0), (row (2 ^ 24 + 1), 1), (row (2 ^ 24 + 1), 2), (row (2 ^ 24 + 1), 3)] := rfl
  constructor
  · unfold select_votersD
    have em : medianAll 4 [s] = .ok [{ s with median2 := 2 ^ 25 + 2 }] := by
      unfold medianAll compute_median
      rw [if_neg (by omega), hcount, hsort]
      rfl
    simp only [if_true, e, bind_ok, single_array, hl, em, hz, List.map_cons, List.map_nil]
    have hd : ∀ i, compute_distance i [{ s with median2 := 2 ^ 25 + 2 }] = absI (2 * s.count i - (2 ^ 25 + 2)) := by
      intro i; simp [compute_distance]
    simp only [hd, h0, h1, h2, h3]
    have := Sort.sort_map (f := fun p : Nat × ℚ => (⟨p.1, rows.getD p.1 [], ⌊p.2⌋⟩ : Voter)) (cmp' := compare_distances)
      (cmp := fun x y => if ⌊x.2⌋ ≠ ⌊y.2⌋ then (if ⌊x.2⌋ < ⌊y.2⌋ then -1 else 1) else (x.1 : Int) - y.1) (fun x y => rfl)
      4 [(0, 2), (1, 0), (2, 0), (3, 0)]
    rw [show Sort.sort 4 (fun x y : Nat × ℚ => if ⌊x.2⌋ ≠ ⌊y.2⌋ then (if ⌊x.2⌋ < ⌊y.2⌋ then -1 else 1) else (x.1 : Int) - y.1)
      [(0, 2), (1, 0), (2, 0), (3, 0)] = .ok [(1, 0), (2, 0), (3, 0), (0, 2)] by decide +kernel] at this
    have hv : [(0, 2), (1, 0), (2, 0), (3, 0)].map (fun p : Nat × ℚ => (⟨p.1, rows.getD p.1 [], ⌊p.2⌋⟩ : Voter)) =
        [⟨0, row (2 ^ 24), absI (2 * 2 ^ 24 - (2 ^ 25 + 2))⟩, ⟨1, row (2 ^ 24 + 1), absI (2 * (2 ^ 24 + 1) - (2 ^ 25 + 2))⟩,
          ⟨2, row (2 ^ 24 + 1), absI (2 * (2 ^ 24 + 1) - (2 ^ 25 + 2))⟩, ⟨3, row (2 ^ 24 + 1), absI (2 * (2 ^ 24 + 1) - (2 ^ 25 + 2))⟩] := by
      rw [show absI (2 * 2 ^ 24 - (2 ^ 25 + 2)) = 2 by decide, show absI (2 * (2 ^ 24 + 1) - (2 ^ 25 + 2)) = 0 by decide]
      simp [rows]
    rw [hv] at this
    rw [this]
    rfl
  · unfold select_votersF
    have em : medianAllF 4 [s] = .ok [⟨s.count, 2 ^ 24⟩] := by
      unfold medianAllF compute_medianF
      rw [if_neg (by omega), hcount, hsort]
      have : rnd 24 (rnd 53 (ofLong ((2 ^ 24 + 1) + (2 ^ 24 + 1)) / 2)) = 2 ^ 24 := by decide +kernel
      rw [← this]
      rfl
    simp only [if_true, e, bind_ok, single_array, hl, em, hz, List.map_cons, List.map_nil]
    have hd : ∀ i, compute_distanceF i [⟨s.count, 2 ^ 24⟩] = rnd 53 (0 + differenceF i ⟨s.count, 2 ^ 24⟩) := fun i => rfl
    have dz : ∀ i, s.count i = 2 ^ 24 ∨ s.count i = 2 ^ 24 + 1 → differenceF i ⟨s.count, 2 ^ 24⟩ = 0 := by
      intro i hi
      unfold differenceF
      simp only
      rcases hi with hi | hi <;> rw [hi]
      · have : rnd 24 (rnd 24 (toLong (2 ^ 24) : ℚ) - 2 ^ 24) = 0 := by decide +kernel
        rw [this]; simp
      · have : rnd 24 (rnd 24 (toLong (2 ^ 24 + 1) : ℚ) - 2 ^ 24) = 0 := by decide +kernel
        rw [this]; simp
    simp only [hd, dz 0 (.inl h0), dz 1 (.inr h1), dz 2 (.inr h2), dz 3 (.inr h3), add_zero, rnd_zero]
    have := Sort.sort_map (f := fun p : Nat × ℚ => (⟨p.1, rows.getD p.1 [], p.2⟩ : VoterF)) (cmp' := compare_distancesF) (cmp := comparePairs)
      (fun x y => rfl) 4 [(0, 0), (1, 0), (2, 0), (3, 0)]
    rw [show Sort.sort 4 comparePairs [(0, 0), (1, 0), (2, 0), (3, 0)] = .ok [(0, 0), (1, 0), (2, 0), (3, 0)] by decide +kernel] at this
    have hv : [(0, 0), (1, 0), (2, 0), (3, 0)].map (fun p : Nat × ℚ => (⟨p.1, rows.getD p.1 [], p.2⟩ : VoterF)) =
        [⟨0, row (2 ^ 24), 0⟩, ⟨1, row (2 ^ 24 + 1), 0⟩, ⟨2, row (2 ^ 24 + 1), 0⟩, ⟨3, row (2 ^ 24 + 1), 0⟩] := rfl
    rw [hv] at this
    rw [this]
    rfl

end Ocr.Vote

namespace Ocr.Ending
open Text Res Prog Spec AnyText

/-- C80 (the program).  If all texts are shorter than 2^23 characters, vote prints and writes what it would with exact arithmetic. -/
theorem c80_program (U : Unicode) (F : UnicodeFacts U) (junk : List Nat) (hj : Bytes junk) (fs : Fs)
    (hfs : ∀ name file, fs name = some file → Bytes file)
    (hshort : ∀ name file t, fs name = some file → TextOf U false file t → t.length < 2 ^ 23) (signed : Bool) (argv : List (List Nat)) :
    voteProgramF U signed junk fs argv = voteDebug U signed junk fs argv := by
  unfold voteProgramF voteDebug
  cases Args.initialize_ (some Args.voteOptions) true argv start with
  | err => simp only [bind_err]
  | ub => simp only [bind_ub]
  | fuel => simp only [bind_fuel]
  | ok r =>
    obtain ⟨_, names, V⟩ := r
    simp only [bind_ok]
    by_cases hn : names.length < Vote.MIN_VOTERS ∨ names.length > Vote.MAX_VOTERS
    · rw [if_pos hn, if_pos hn]
    · rw [if_neg hn, if_neg hn]
      rcases voters_give U hj hfs names false [] _ rfl with ⟨opt, ts, hr, ef⟩ | ⟨no, msg, ef⟩
      · rw [show (forFiles fs (voteFile U junk) names (Vote.textopt, [])) = .ok (opt, [] ++ ts) from ef]
        simp only [bind_ok, List.nil_append]
        have hlen : names.length = ts.length := hr.length_eq
        have e : ∀ cfg, Vote.voteTextsF U (V.boolean 0) (V.boolean 1) cfg names ts =
            Vote.voteTextsD U (V.boolean 0) (V.boolean 1) cfg names ts := by
          intro cfg
          unfold Vote.voteTextsF Vote.voteTextsD
          rw [Vote.c80_select U F]
          · intro t ht c hc
            obtain ⟨name, file, h1, h2⟩ := allRead_mem hr t ht
            have := textOf_value (hfs _ _ h1) h2 c hc
            omega
          · intro t ht
            obtain ⟨name, file, h1, h2⟩ := allRead_mem hr t ht
            exact hshort _ _ _ h1 h2
          · unfold Vote.MIN_VOTERS Vote.MAX_VOTERS at hn
            omega
        simp only [e]
      · rw [show (forFiles fs (voteFile U junk) names (Vote.textopt, [])) = .err msg from ef]
        simp only [bind_err]

/-! ## Non-vacuity -/

/-- The three texts of C77. -/
example : Vote.select_votersF sampleUnicode true true 3 [ascii "x", ascii "y", ascii "z"]
    [Vote.plainText "aab", Vote.plainText "ab", Vote.plainText "abc"] =
    .ok ([Vote.plainText "ab", Vote.plainText "aab", Vote.plainText "abc"],
      ascii "        0.0 y\n        1.0 x\n        1.0 z\n") := by
  rw [Vote.c80_select _ sampleFacts _ _ _ _ _ (by decide +kernel) (by decide +kernel) (by decide)]
  decide +kernel

/-- `vote -D -O x z`. -/
example : voteProgramF sampleUnicode true [] (threeFiles textX textM textZ) [ascii "vote", ascii "-D", ascii "-O", ascii "x", ascii "z"] =
    voteDebug sampleUnicode true [] (threeFiles textX textM textZ) [ascii "vote", ascii "-D", ascii "-O", ascii "x", ascii "z"] := by
  refine c80_program _ sampleFacts [] (by simp [Bytes]) _ xmz_bytes ?_ true _
  intro name file t hf ht
  unfold threeFiles at hf
  split at hf
  · cases hf; rw [textOf_unique ht of_x]; decide +kernel
  · split at hf
    · cases hf; rw [textOf_unique ht of_m]; decide +kernel
    · split at hf
      · cases hf; rw [textOf_unique ht of_z]; decide +kernel
      · cases hf

end Ocr.Ending
