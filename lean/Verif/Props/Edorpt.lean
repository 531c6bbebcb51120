import Verif.Proof.Editop

/-!
# Properties C26, C27, C48, C49, C56: edit operation reports and editop
-/

namespace Ocr.Edo
open Text Res Report Sync

/-- Data used in the examples. -/
def sampleEdo : Edodata := ⟨123456789012, 7, 3, fun i => if i = 4 then 2 else if i = 100 then 1 else 0⟩

theorem sampleEdo_valid : sampleEdo.Valid := by
  refine ⟨⟨?_, ?_, ?_⟩, ?_, ?_, ?_⟩
  · unfold IsLong; decide
  · unfold IsLong; decide
  · unfold IsLong; decide
  · intro i; simp only [sampleEdo, IsLong]; split
    · omega
    · split <;> omega
  · intro i; simp only [sampleEdo]; split
    · omega
    · split <;> omega
  · intro _; decide

/-- C26.  Reading a report written by `write_edorpt` into zeroed data restores every field. -/
theorem c26_round_trip (D : Edodata) (h : D.Valid) : read_edorpt Edodata.zero (write_edorpt D) = .ok D := round_trip D h

example : (read_edorpt Edodata.zero (write_edorpt sampleEdo)).bind
    (fun D => .ok (D.total_insertions, D.moves 4, D.moves 100)) = .ok (123456789012, 2, 1) := by
  rw [c26_round_trip sampleEdo sampleEdo_valid]; rfl

example : write_edorpt ⟨10, 7, 2, fun i => if i = 4 then 2 else 0⟩ = ascii ("ocreval Edit Operation Report Version 7.0\n" ++
    "-----------------------------------------\n      10   Insertions\n       7   Deletions\n       2   Moves\n" ++
    "\nMoves\n   Count   Length\n       2        4\n") := by decide +kernel

/-- C27 (sum).  Reading any list of files, each of which is a readable report, adds up the figures field by field. -/
theorem c27_sum (files : List (List Nat)) (Es : List Edodata)
    (h : List.Forall₂ (fun f E => read_edorpt Edodata.zero f = .ok E) files Es) (h2 : 2 ≤ files.length) :
    editopsum files = .ok (write_edorpt (Edodata.total Es)) := by
  unfold editopsum
  rw [if_neg (by omega), readAll_spec h, zero_add]; rfl

/-- C27 (order).  The order of the files does not matter. -/
theorem c27_order (files files' : List (List Nat)) (hp : files.Perm files') (out : List Nat)
    (h : editopsum files = .ok out) : editopsum files' = .ok out := by
  unfold editopsum at h ⊢
  rw [hp.length_eq] at h
  split at h
  · simp at h
  · rename_i hl
    rw [if_neg hl]
    obtain ⟨D, h1, h2⟩ := bind_eq_ok.1 h
    rw [readAll_perm hp h1]
    exact h2

/-- C27 (reports).  The sum of written reports is the report of the sum. -/
theorem c27_written (Ds : List Edodata) (h : ∀ D ∈ Ds, D.Valid) (h2 : 2 ≤ Ds.length) :
    editopsum (Ds.map write_edorpt) = .ok (write_edorpt (Edodata.total Ds)) := by
  apply c27_sum _ _ _ (by simpa using h2)
  clear h2
  induction Ds with
  | nil => exact .nil
  | cons D Ds ih => exact .cons (round_trip D (h D (by simp))) (ih (fun E hE => h E (by simp [hE])))

/-- C27 (termination).  Reading terminates for every file. -/
theorem c27_terminates (D : Edodata) (file : List Nat) : read_edorpt D file ≠ .fuel := read_fuel D file

example : editopsum [write_edorpt sampleEdo, write_edorpt sampleEdo] =
    .ok (write_edorpt (Edodata.total [sampleEdo, sampleEdo])) ∧ (Edodata.total [sampleEdo, sampleEdo]).moves 4 = 4 :=
  ⟨c27_written [sampleEdo, sampleEdo] (by intro D hD; simp at hD; subst hD; exact sampleEdo_valid) (by decide), by decide⟩

/-- C48.  For a report whose moves by length add up to the total, the line for threshold T gives the cost at T. -/
theorem c48_cost (file : List Nat) (D : Edodata) (h : read_edorpt Edodata.zero file = .ok D) (hb : D.Balanced) :
    editopcost [file] =
      .ok ((List.range 101).flatMap (fun T : Nat => fmtLong 3 T ++ [32] ++ fmtLong 10 (cost D T) ++ [10])) := by
  unfold editopcost
  simp only
  rw [h, bind_ok, results_spec D hb]; rfl

/-- C48 (two reports).  With two reports the differences of the costs are printed. -/
theorem c48_difference (file file2 : List Nat) (D D2 : Edodata) (h : read_edorpt Edodata.zero file = .ok D)
    (h2 : read_edorpt Edodata.zero file2 = .ok D2) (hb : D.Balanced) (hb2 : D2.Balanced) (h0 : D2.moves 0 = 0) :
    editopcost [file, file2] =
      .ok ((List.range 101).flatMap (fun T : Nat => fmtLong 3 T ++ [32] ++ fmtLong 10 (cost D T - cost D2 T) ++ [10])) := by
  have hm : ∀ i ∈ List.range 101, (decrement_edodata D D2).moves i = D.moves i - D2.moves i := by
    intro i hi
    rw [List.mem_range] at hi
    show (if 1 ≤ i ∧ i ≤ MAX_MOVE_LENGTH then D.moves i - D2.moves i else D.moves i) = _
    unfold MAX_MOVE_LENGTH
    by_cases h1 : 1 ≤ i
    · rw [if_pos ⟨h1, by omega⟩]
    · have : i = 0 := by omega
      subst this; rw [if_neg (by omega), h0]; omega
  have hsum : ∀ (w : Nat → Int) (l : List Nat), (∀ i ∈ l, (decrement_edodata D D2).moves i = D.moves i - D2.moves i) →
      (l.map (fun i => w i * (decrement_edodata D D2).moves i)).sum =
        (l.map (fun i => w i * D.moves i)).sum - (l.map (fun i => w i * D2.moves i)).sum := by
    intro w l
    induction l with
    | nil => intro _; rfl
    | cons i l ih =>
      intro hl
      have := ih (fun j hj => hl j (by simp [hj]))
      simp only [List.map_cons, List.sum_cons]
      rw [this, hl i (by simp), Int.mul_sub]; omega
  have hbal : (decrement_edodata D D2).Balanced := by
    have := hsum (fun _ => 1) _ hm
    simp only [Int.one_mul] at this
    unfold Edodata.Balanced at *
    rw [show (decrement_edodata D D2).moves = fun i => (decrement_edodata D D2).moves i from rfl, this, ← hb, ← hb2]
    rfl
  unfold editopcost
  simp only
  rw [h, bind_ok, h2, bind_ok, results_spec _ hbal]
  show Res.ok _ = Res.ok _
  congr 1
  apply List.flatMap_congr
  intro T _
  congr 3
  unfold cost
  rw [hsum _ _ hm]
  simp only [decrement_edodata]
  omega

example : sampleEdo.Balanced ∧ cost sampleEdo 0 = 123456789012 ∧ cost sampleEdo 2 = 123456789018 ∧
    cost sampleEdo 100 = 123456789120 := by unfold Edodata.Balanced; decide +kernel

/-- C49.  Counting the moves of any arrangement of blocks (whose numbers are a permutation of 1..n) ends normally.  The
moves counted are block moves that put the blocks into the correct order; there are fewer of them than blocks, and none
exactly if the blocks are already in order; they are recorded by length. -/
theorem c49_moves (D : Edodata) (C : List Block) (hid : (C.map (·.id)).Nodup)
    (hp : (C.map (·.mtch)).Perm (List.range' 1 C.length)) (hl : ∀ b ∈ C, 1 ≤ b.length) :
    ∃ D' ls S, count_moves D C = .ok D' ∧ Recorded D ls D' ∧ Moves (C.map (fun b => (b.mtch, b.length))) ls S ∧
      S.map Prod.fst = List.range' 1 C.length ∧ (C ≠ [] → ls.length < C.length) ∧ (∀ l ∈ ls, 1 ≤ l) ∧
      (ls = [] ↔ C.map (·.mtch) = List.range' 1 C.length) := by
  obtain ⟨D', ls, S, h1, h2, h3, h4, h5, h6, h7⟩ := count_moves_spec D C hid hp hl
  refine ⟨D', ls, S, h1, h2, h3, h4, fun hC => ?_, h6, h7⟩
  have := List.length_pos_iff.2 hC
  omega

/-- Moves of positive lengths, recorded in zeroed data, are balanced. -/
theorem balanced_of_counts (D : Edodata) (ls : List Int) (h1 : D.total_moves = ls.length)
    (h2 : ∀ i : Nat, D.moves i = ls.countP (fun l : Int => min l 100 = i)) (h3 : ∀ l ∈ ls, 1 ≤ l) : D.Balanced := by
  unfold Edodata.Balanced
  rw [h1, show D.moves = fun i : Nat => ((ls.countP (fun l : Int => min l 100 = i) : Nat) : Int) from funext h2]
  clear h1 h2
  induction ls with
  | nil => simp
  | cons l ls ih =>
    have hl := h3 l (by simp)
    have ih := ih (fun x hx => h3 x (by simp [hx]))
    have : ∀ N : Nat, (min l 100).toNat < N → ((List.range N).map (fun i : Nat =>
        (((l :: ls).countP (fun l : Int => min l 100 = i) : Nat) : Int))).sum =
        ((List.range N).map (fun i : Nat => ((ls.countP (fun l : Int => min l 100 = i) : Nat) : Int))).sum + 1 := by
      intro N
      have low : ∀ M : Nat, M ≤ (min l 100).toNat → ((List.range M).map (fun i : Nat =>
          (((l :: ls).countP (fun l : Int => min l 100 = i) : Nat) : Int))).sum =
          ((List.range M).map (fun i : Nat => ((ls.countP (fun l : Int => min l 100 = i) : Nat) : Int))).sum := by
        intro M hM
        congr 1
        apply List.map_congr_left
        intro i hi
        rw [List.mem_range] at hi
        rw [List.countP_cons_of_neg]
        simp only [decide_eq_true_eq]; omega
      induction N with
      | zero => intro h; omega
      | succ N ihN =>
        intro h
        rw [List.range_succ, List.map_append, List.map_append, List.sum_append, List.sum_append]
        simp only [List.map_cons, List.map_nil, List.sum_cons, List.sum_nil]
        by_cases hN : (min l 100).toNat < N
        · rw [ihN hN, List.countP_cons_of_neg]
          · omega
          · simp only [decide_eq_true_eq]; omega
        · rw [low N (by omega), List.countP_cons_of_pos]
          · push_cast; omega
          · simp only [decide_eq_true_eq]; omega
    rw [this 101 (by omega), ← ih]
    simp

/-- C49 (editop).  For any two texts `editop` ends normally.  Its moves put the matched blocks of the generated text into
the order of the correct text, and its figures satisfy what the report (C26) and editopcost (C48) need. -/
theorem c49_editop (a b : List Nat) (ha : a.length < 2^62) (hb : b.length < 2^62) :
    ∃ r D ls S, transpose_sync a b = .ok r ∧ editop a b = .ok D ∧ D.Balanced ∧ D.Valid ∧
      D.total_moves = ls.length ∧ (∀ i : Nat, D.moves i = ls.countP (fun l : Int => min l 100 = i)) ∧
      Moves ((r.items2.filterMap (fun s => s.mtch.map (fun c => ((r.cells c).toNat, (s.sub 0).length))))) ls S ∧
      (S.map Prod.fst).Pairwise (· < ·) ∧ D.total_moves ≤ b.length := by
  obtain ⟨r, D, e1, e2, hins, hdel, ls, S, hm, hml, mv, hS, hlen, hpos, _⟩ := editop_spec a b
  have hbl : (blocks r.cells r.items2).length ≤ b.length := by
    obtain ⟨r', e, _, h2, hn, hp, _, _⟩ := Sync.transpose_spec a b
    rw [e1] at e
    cases e
    have key : ∀ l : List Sync, (∀ s ∈ l, s ∈ r.items2) → ∀ p : Int, Tiles p (l.map (·.sub 0)) b.length →
        p + (blocks r.cells l).length ≤ b.length := by
      intro l
      induction l with
      | nil => intro _ p h; simp only [List.map_nil, Tiles] at h; simp [blocks]; omega
      | cons s l ih =>
        intro hl p h
        simp only [List.map_cons, Tiles] at h
        have := ih (fun x hx => hl x (by simp [hx])) _ h.2.2.2
        unfold blocks at this ⊢
        cases hms : s.mtch with
        | none => rw [List.filterMap_cons, hms]; simp only [Option.map_none]; omega
        | some k =>
          rw [List.filterMap_cons, hms]
          simp only [Option.map_some, List.length_cons]
          obtain ⟨t, ht, hx⟩ := h2.nonempty s (hl s (by simp))
          have : t = 0 := by simpa using ht
          subst this
          push_cast; omega
    have := key r.items2 (fun _ h => h) 0 (by simpa using h2.tiles 0 (by simp))
    omega
  have hcp : ∀ i : Nat, ls.countP (fun l : Int => min l 100 = i) ≤ ls.length := fun i => List.countP_le_length
  have hd1 : ((a.filter (fun c => c ≠ REJECT_CHARACTER)).diff b).length ≤ a.length :=
    le_trans (List.Sublist.length_le (List.diff_sublist _ _)) (List.length_filter_le _ _)
  have hd2 : (b.diff (a.filter (fun c => c ≠ REJECT_CHARACTER))).length ≤ b.length :=
    List.Sublist.length_le (List.diff_sublist _ _)
  refine ⟨r, D, ls, S, e1, e2, balanced_of_counts D ls hm hml hpos, ?_, hm, hml, ?_, ?_, by omega⟩
  · refine ⟨⟨?_, ?_, ?_⟩, ?_, ?_, ?_⟩
    · unfold IsLong; omega
    · unfold IsLong; omega
    · unfold IsLong; omega
    · intro i; have := hcp i; rw [hml i]; unfold IsLong; omega
    · intro i hi
      rw [hml i] at hi
      have hi : ls.countP (fun l : Int => decide (min l 100 = i)) ≠ 0 := by omega
      rw [ne_eq, List.countP_eq_zero] at hi
      simp only [not_forall, decide_eq_true_eq, not_not] at hi
      obtain ⟨l, hl, hli⟩ := hi
      have := hpos l hl
      omega
    · rintro ⟨i, hi⟩
      have := hcp i
      rw [hml i] at hi
      omega
  · have : (blocks r.cells r.items2).map Block.pair =
        r.items2.filterMap (fun s => s.mtch.map (fun c => ((r.cells c).toNat, (s.sub 0).length))) := by
      unfold blocks
      rw [List.map_filterMap]
      congr 1
      funext s
      cases s.mtch <;> rfl
    rw [← this]; exact mv
  · rw [hS]; exact List.pairwise_lt_range' ..

example : (count_moves Edodata.zero [⟨7, 3, 4⟩, ⟨8, 1, 9⟩, ⟨9, 2, 200⟩]).bind
    (fun D => .ok (D.total_moves, D.moves 4, D.moves 100)) = .ok (1, 1, 0) := by decide +kernel

example : (editop (ascii "abXc") (ascii "cYab")).bind
    (fun D => .ok (D.total_insertions, D.total_deletions, D.total_moves, D.moves 1)) = .ok (1, 1, 1, 1) := by decide +kernel

/-- C56.  The insertions and deletions of `editop` are the multiset differences of the two texts: the order of the
characters does not matter.  Reject characters of the correct text need no insertion, those of the generated text are
deleted. -/
theorem c56_differences (a b : List Nat) : ∃ D, editop a b = .ok D ∧
    D.total_insertions = ((a.filter (fun c => c ≠ 126)).diff b).length ∧
    D.total_deletions = (b.diff (a.filter (fun c => c ≠ 126))).length := by
  obtain ⟨r, D, _, e2, hins, hdel, _⟩ := editop_spec a b
  exact ⟨D, e2, hins, hdel⟩

example : ((ascii "ab~Xc").filter (fun c => c ≠ 126)).diff (ascii "cYa~") = ascii "bX" ∧
    (editop (ascii "ab~Xc") (ascii "cYa~")).bind (fun D => .ok (D.total_insertions, D.total_deletions)) = .ok (2, 2) := by
  decide +kernel

end Ocr.Edo
