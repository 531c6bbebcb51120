import Verif.Spec.Edorpt
import Verif.Proof.Report
import Mathlib.Algebra.BigOperators.Group.List.Basic

namespace Ocr.Edo
open Text Res Report

/-! ## Adding into existing data -/

def Edodata.add (D E : Edodata) : Edodata where
  total_insertions := D.total_insertions + E.total_insertions
  total_deletions := D.total_deletions + E.total_deletions
  total_moves := D.total_moves + E.total_moves
  moves := fun i => D.moves i + E.moves i

theorem add_zero (D : Edodata) : D.add Edodata.zero = D := by cases D; simp [Edodata.add, Edodata.zero]
theorem zero_add (D : Edodata) : Edodata.zero.add D = D := by cases D; simp [Edodata.add, Edodata.zero]

theorem add_assoc (D E F : Edodata) : (D.add E).add F = D.add (E.add F) := by
  simp only [Edodata.add, Edodata.mk.injEq]
  refine ⟨by omega, by omega, by omega, ?_⟩
  funext i; omega

theorem moveLoop_add : ∀ (fuel : Nat) (file : List Nat) (D E : Edodata),
    moveLoop fuel file (D.add E) = (moveLoop fuel file E).bind (fun F => .ok (D.add F)) := by
  intro fuel
  induction fuel with
  | zero =>
    intro file D E
    obtain ⟨r, hr⟩ : ∃ r, read_two file = r := ⟨_, rfl⟩
    rw [moveLoop, moveLoop.eq_def 0 file E]
    simp only [hr]
    cases r with
    | none => rfl
    | some p => obtain ⟨⟨v1, v2, l⟩, rest⟩ := p; simp only; split <;> rfl
  | succ fuel ih =>
    intro file D E
    obtain ⟨r, hr⟩ : ∃ r, read_two file = r := ⟨_, rfl⟩
    rw [moveLoop, moveLoop.eq_def (fuel + 1) file E]
    simp only [hr]
    cases r with
    | none => rfl
    | some p =>
      obtain ⟨⟨v1, v2, l⟩, rest⟩ := p
      simp only
      split
      · rw [← ih]
        congr 1
        simp only [Edodata.add, Edodata.mk.injEq, true_and]
        funext i; split <;> omega
      · rfl

theorem read_add (D : Edodata) (file : List Nat) :
    read_edorpt D file = (read_edorpt Edodata.zero file).bind (fun E => .ok (D.add E)) := by
  unfold read_edorpt
  split
  · rfl
  · rename_i ins del moves f _
    have e : (⟨D.total_insertions + ins, D.total_deletions + del, D.total_moves + moves, D.moves⟩ : Edodata) =
        D.add ⟨Edodata.zero.total_insertions + ins, Edodata.zero.total_deletions + del, Edodata.zero.total_moves + moves,
          Edodata.zero.moves⟩ := by simp [Edodata.add, Edodata.zero]
    simp only [e]
    split
    · split
      · rw [moveLoop_add]
      · rfl
    · rfl

theorem moveLoop_fuel : ∀ (fuel : Nat) (file : List Nat) (D : Edodata), file.length ≤ fuel → moveLoop fuel file D ≠ .fuel := by
  intro fuel
  induction fuel with
  | zero =>
    intro file D h
    have : file = [] := List.length_eq_zero_iff.1 (by omega)
    subst this
    rw [moveLoop, read_two_nil]; simp
  | succ fuel ih =>
    intro file D h
    rw [moveLoop]
    split
    · simp
    · rename_i hr
      have := read_two_shorter hr
      split
      · exact ih _ _ (by omega)
      · simp

theorem read_fuel (D : Edodata) (file : List Nat) : read_edorpt D file ≠ .fuel := by
  unfold read_edorpt
  split
  · simp
  · simp only
    split
    · split
      · exact moveLoop_fuel _ _ _ (Nat.le_refl _)
      · simp
    · simp

/-! ## Reading several reports -/

theorem total_cons (E : Edodata) (Es : List Edodata) : Edodata.total (E :: Es) = E.add (Edodata.total Es) := by
  simp [Edodata.total, Edodata.add]

theorem readAll_spec {files : List (List Nat)} {Es : List Edodata}
    (h : List.Forall₂ (fun f E => read_edorpt Edodata.zero f = .ok E) files Es) (D : Edodata) :
    readAll D files = .ok (D.add (Edodata.total Es)) := by
  induction h generalizing D with
  | nil => simp [readAll, Edodata.total, Edodata.add]
  | @cons f E fs Es h1 _ ih =>
    rw [readAll, read_add, h1]
    show (readAll (D.add E) fs) = _
    rw [ih, total_cons, add_assoc]

theorem readAll_ok {files : List (List Nat)} {D R : Edodata} (h : readAll D files = .ok R) :
    ∃ Es, List.Forall₂ (fun f E => read_edorpt Edodata.zero f = .ok E) files Es := by
  induction files generalizing D with
  | nil => exact ⟨[], .nil⟩
  | cons f fs ih =>
    rw [readAll] at h
    obtain ⟨D1, h1, h2⟩ := bind_eq_ok.1 h
    obtain ⟨Es, hE⟩ := ih h2
    rw [read_add] at h1
    obtain ⟨E, h3, _⟩ := bind_eq_ok.1 h1
    exact ⟨E :: Es, .cons h3 hE⟩

theorem total_perm {Es Es' : List Edodata} (h : Es.Perm Es') : Edodata.total Es = Edodata.total Es' := by
  simp only [Edodata.total, Edodata.mk.injEq]
  exact ⟨(h.map _).sum_eq, (h.map _).sum_eq, (h.map _).sum_eq, funext fun i => (h.map _).sum_eq⟩

theorem readAll_perm {files files' : List (List Nat)} (hp : files.Perm files') {D R : Edodata}
    (h : readAll D files = .ok R) : readAll D files' = .ok R := by
  obtain ⟨Es, hE⟩ := readAll_ok h
  rw [readAll_spec hE] at h
  obtain ⟨Es', hE', hp'⟩ : ∃ Es', List.Forall₂ (fun f E => read_edorpt Edodata.zero f = .ok E) files' Es' ∧ Es.Perm Es' := by
    have := List.perm_comp_forall₂ hp.symm hE
    obtain ⟨Es', h1, h2⟩ := this
    exact ⟨Es', h1, h2.symm⟩
  rw [readAll_spec hE', ← total_perm hp', h]

/-! ## Round trip -/

theorem write_move_eq (v w : Int) : write_move v w = fmtLong 8 v ++ [32] ++ fmtLong 8 w ++ [] ++ [10] := by simp [write_move]

theorem moveLoop_write (D : Edodata) (hl : ∀ i, IsLong (D.moves i)) : ∀ (is : List Nat) (fuel : Nat) (E : Edodata),
    is.Nodup → (∀ i ∈ is, 1 ≤ i ∧ i ≤ 100) → (write_moves D is).length ≤ fuel →
    moveLoop fuel (write_moves D is) E =
      .ok { E with moves := fun i => if i ∈ is ∧ 0 < D.moves i then E.moves i + D.moves i else E.moves i } := by
  intro is
  induction is with
  | nil =>
    intro fuel E _ _ _
    rw [write_moves, moveLoop, read_two_nil]; simp
  | cons i is ih =>
    intro fuel E hnd hr hf
    rw [List.nodup_cons] at hnd
    have ih := fun fuel E => ih fuel E hnd.2 (fun j hj => hr j (by simp [hj]))
    have hi := hr i (by simp)
    rw [write_moves] at hf ⊢
    by_cases hp : D.moves i > 0
    · rw [if_pos hp] at hf ⊢
      have hline : Line (fmtLong 8 (D.moves i) ++ [32] ++ fmtLong 8 (i : Int) ++ []) := by
        have h1 := fmtLong_bytes 8 (D.moves i)
        have h2 := fmtLong_bytes 8 (i : Int)
        have h3 := fmtLong_len (hl i)
        have h4 := fmtLong_len (v := (i : Int)) (by unfold IsLong; omega)
        refine ⟨?_, ?_, ?_⟩
        · simp only [List.mem_append, not_or]
          exact ⟨⟨⟨fun h => (h1 _ h).1 rfl, by simp⟩, fun h => (h2 _ h).1 rfl⟩, by simp⟩
        · simp only [List.mem_append, not_or]
          exact ⟨⟨⟨fun h => (h1 _ h).2 rfl, by simp⟩, fun h => (h2 _ h).2 rfl⟩, by simp⟩
        · simp only [List.length_append, List.length_cons, List.length_nil]; omega
      have hr2 := read_two_eq hline (by simp) (write_moves D is)
      have e : write_move (D.moves i) i ++ write_moves D is =
          fmtLong 8 (D.moves i) ++ [32] ++ fmtLong 8 (i : Int) ++ [] ++ 10 :: write_moves D is := by
        rw [write_move_eq]; simp
      rw [e] at hf ⊢
      cases fuel with
      | zero => simp at hf
      | succ fuel =>
        rw [moveLoop, hr2]
        simp only
        rw [if_pos ⟨by omega, by unfold MAX_MOVE_LENGTH; omega⟩, ih fuel _ (by simp at hf; omega)]
        simp only [Int.toNat_natCast, Res.ok.injEq, Edodata.mk.injEq, true_and]
        funext j
        by_cases hj : j = i
        · subst hj; simp [hnd.1, hp]
        · simp [hj]
    · rw [if_neg hp, List.nil_append] at hf ⊢
      rw [ih fuel E hf]
      simp only [Res.ok.injEq, Edodata.mk.injEq, true_and]
      funext j
      by_cases hj : j = i
      · subst hj; simp [hnd.1, hp]
      · simp [hj]

theorem round_trip (D : Edodata) (h : D.Valid) : read_edorpt Edodata.zero (write_edorpt D) = .ok D := by
  obtain ⟨⟨h1, h2, h3⟩, hm, hs, hp⟩ := h
  obtain ⟨sec, hsec⟩ : ∃ sec, sec = (if D.total_moves > 0 then
    ascii "\nMoves\n   Count   Length\n" ++ write_moves D (List.range' 1 MAX_MOVE_LENGTH) else []) := ⟨_, rfl⟩
  have e : write_edorpt D = ascii "ocreval Edit Operation Report Version 7.0" ++ [10] ++
      (ascii "-----------------------------------------" ++ [10]) ++ (write_value D.total_insertions "Insertions" ++
      (write_value D.total_deletions "Deletions" ++ (write_value D.total_moves "Moves" ++ sec))) := by
    unfold write_edorpt
    rw [← hsec, show TITLE = ascii "ocreval Edit Operation Report Version 7.0" ++ [10] by decide +kernel,
      show DIVIDER = ascii "-----------------------------------------" ++ [10] by decide +kernel]
    simp only [List.append_assoc]
  unfold read_edorpt
  have ht := read_title_eq (title := ascii "ocreval Edit Operation Report Version 7.0")
    (divider := ascii "-----------------------------------------")
    ⟨by decide +kernel, by decide +kernel, by decide +kernel⟩ ⟨by decide +kernel, by decide +kernel, by decide +kernel⟩
    (write_value D.total_insertions "Insertions" ++
      (write_value D.total_deletions "Deletions" ++ (write_value D.total_moves "Moves" ++ sec)))
  rw [show ascii "ocreval Edit Operation Report Version 7.0" ++ [10] = TITLE by decide +kernel,
    show ascii "-----------------------------------------" ++ [10] = DIVIDER by decide +kernel] at ht e
  rw [e, ht]
  simp only [Option.bind_eq_bind, Option.bind_some]
  rw [read_value_eq h1 ⟨by decide +kernel, by decide +kernel, by decide +kernel⟩ (by decide +kernel)]
  simp only [Option.bind_some]
  rw [read_value_eq h2 ⟨by decide +kernel, by decide +kernel, by decide +kernel⟩ (by decide +kernel)]
  simp only [Option.bind_some]
  rw [read_value_eq h3 ⟨by decide +kernel, by decide +kernel, by decide +kernel⟩ (by decide +kernel)]
  simp only [Option.bind_some]
  by_cases hpos : D.total_moves > 0
  · rw [if_pos hpos] at hsec
    rw [if_pos hpos]
    have hsk : skip_lines 3 sec = some (write_moves D (List.range' 1 MAX_MOVE_LENGTH)) := by
      rw [hsec, show ascii "\nMoves\n   Count   Length\n" = [] ++ 10 :: (ascii "Moves" ++ 10 :: (ascii "   Count   Length" ++ 10 :: []))
        by decide +kernel]
      simp only [List.append_assoc, List.cons_append, List.nil_append]
      have l1 := skip_lines_eq (l := []) ⟨by simp, by simp, by simp⟩ 2 (ascii "Moves" ++ 10 ::
        (ascii "   Count   Length" ++ 10 :: write_moves D (List.range' 1 MAX_MOVE_LENGTH)))
      rw [List.nil_append] at l1
      rw [l1, skip_lines_eq ⟨by decide +kernel, by decide +kernel, by decide +kernel⟩,
        skip_lines_eq ⟨by decide +kernel, by decide +kernel, by decide +kernel⟩]
      rfl
    rw [hsk]
    simp only
    rw [moveLoop_write D (fun i => (hm i).2) _ _ _ (List.nodup_range' ..)
      (by intro i hi; rw [List.mem_range'_1] at hi; unfold MAX_MOVE_LENGTH at hi; omega) (Nat.le_refl _)]
    congr 1
    cases D
    simp only [Edodata.zero, Edodata.mk.injEq] at *
    refine ⟨by omega, by omega, by omega, ?_⟩
    funext i
    have a1 := (hm i).1
    have a2 := hs i
    split
    · omega
    · rename_i hn
      rw [List.mem_range'_1] at hn
      unfold MAX_MOVE_LENGTH at hn
      omega
  · rw [if_neg hpos]
    cases D
    simp only [Edodata.zero, Res.ok.injEq, Edodata.mk.injEq] at *
    refine ⟨by omega, by omega, by omega, ?_⟩
    funext i
    by_contra hne
    exact hpos (hp ⟨i, fun h => hne h.symm⟩)

/-! ## Costs -/

theorem resultLoop_spec (D : Edodata) : ∀ (n a : Nat) (ins mov : Int), n + a = 101 →
    resultLoop D ins mov (List.range' a n) =
      (List.range' a n).flatMap (fun T : Nat => fmtLong 3 T ++ [32] ++
        fmtLong 10 (ins + T * (mov - ((List.range' a (T - a)).map D.moves).sum) +
          ((List.range' a (T - a)).map (fun l : Nat => (l : Int) * D.moves l)).sum) ++ [10]) := by
  intro n
  induction n with
  | zero => intro a ins mov _; simp [resultLoop]
  | succ n ih =>
    intro a ins mov h
    rw [List.range'_succ, resultLoop, ih (a + 1) _ _ (by omega)]
    rw [List.flatMap_cons]
    congr 1
    · simp
    · apply List.flatMap_congr
      intro T hT
      rw [List.mem_range'_1] at hT
      obtain ⟨k, rfl⟩ : ∃ k, T = a + 1 + k := ⟨T - (a + 1), by omega⟩
      rw [show a + 1 + k - (a + 1) = k by omega, show a + 1 + k - a = k + 1 by omega, List.range'_succ]
      simp only [List.map_cons, List.sum_cons]
      congr 3
      generalize ((List.range' (a + 1) k).map D.moves).sum = x
      generalize ((List.range' (a + 1) k).map (fun l : Nat => (l : Int) * D.moves l)).sum = y
      rw [show mov - (D.moves a + x) = mov - D.moves a - x by omega]
      omega

theorem cost_split (m : Nat → Int) (T : Nat) : ∀ n, T ≤ n →
    ((List.range n).map (fun l => ((min l T : Nat) : Int) * m l)).sum =
      ((List.range T).map (fun l : Nat => (l : Int) * m l)).sum +
        T * (((List.range n).map m).sum - ((List.range T).map m).sum) := by
  intro n hn
  induction n with
  | zero => have : T = 0 := by omega
            subst this; simp
  | succ n ih =>
    by_cases h : T = n + 1
    · subst h
      simp only [sub_self, mul_zero, Int.add_zero]
      congr 1
      apply List.map_congr_left
      intro l hl
      rw [List.mem_range] at hl
      rw [Nat.min_eq_left (by omega)]
    · rw [List.range_succ, List.map_append, List.sum_append, ih (by omega), List.map_append, List.sum_append]
      simp only [List.map_cons, List.map_nil, List.sum_cons, List.sum_nil, Int.add_zero]
      rw [Nat.min_eq_right (by omega)]
      rw [show ((List.range n).map m).sum + m n - ((List.range T).map m).sum =
        (((List.range n).map m).sum - ((List.range T).map m).sum) + m n by omega, Int.mul_add]
      omega

theorem results_spec (D : Edodata) (h : D.Balanced) :
    write_results D = (List.range 101).flatMap (fun T : Nat => fmtLong 3 T ++ [32] ++ fmtLong 10 (cost D T) ++ [10]) := by
  unfold write_results MAX_MOVE_LENGTH
  rw [List.range_eq_range', resultLoop_spec D 101 0 _ _ rfl]
  apply List.flatMap_congr
  intro T hT
  rw [List.mem_range'_1] at hT
  congr 3
  unfold cost
  rw [cost_split D.moves T 101 (by omega), h, Nat.sub_zero, ← List.range_eq_range']
  omega

end Ocr.Edo
