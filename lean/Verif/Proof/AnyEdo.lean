import Verif.Proof.AnyReport
import Verif.Proof.Edorpt

namespace Ocr.AnyReport
open Text Report Res

theorem firsts_nil (p : Row → Prop) [DecidablePred p] : firsts p [] = 0 := rfl
theorem seconds_nil (p : Row → Prop) [DecidablePred p] : seconds p [] = 0 := rfl
theorem firsts_cons (p : Row → Prop) [DecidablePred p] (r : Row) (R : List Row) :
    firsts p (r :: R) = (if p r then r.first else 0) + firsts p R := by
  unfold firsts; by_cases h : p r <;> simp [h]
theorem seconds_cons (p : Row → Prop) [DecidablePred p] (r : Row) (R : List Row) :
    seconds p (r :: R) = (if p r then r.second else 0) + seconds p R := by
  unfold seconds; by_cases h : p r <;> simp [h]

theorem moveLoop_spec : ∀ (ls : List (List Nat)) (file : List Nat) (fuel : Nat) (D : Edo.Edodata), lines file = ls →
    file.length ≤ fuel →
    ((∀ r ∈ rows ls, 0 ≤ r.second ∧ r.second ≤ 100) → Edo.moveLoop fuel file D =
      .ok { D with moves := fun i => D.moves i + firsts (fun r => r.second = i) (rows ls) }) ∧
    ((∃ r ∈ rows ls, ¬ (0 ≤ r.second ∧ r.second ≤ 100)) → Edo.moveLoop fuel file D = .ub) := by
  intro ls
  induction ls with
  | nil =>
    intro file fuel D hl _
    rw [Edo.moveLoop, read_two_none (by simp [hl])]
    simp [rows_nil, firsts_nil]
  | cons l ls ih =>
    intro file fuel D hl hf
    cases hr : row? l with
    | none =>
      rw [Edo.moveLoop, read_two_none (by intro l' ls' h; rw [hl] at h; rw [← (List.cons.inj h).1]; exact hr)]
      simp [rows_none hr, firsts_nil]
    | some r =>
      obtain ⟨f, h1, h2, h3⟩ := read_two_some hl hr
      obtain ⟨n, rfl⟩ : ∃ n, fuel = n + 1 := ⟨fuel - 1, by omega⟩
      rw [Edo.moveLoop, h1, rows_some hr]
      simp only
      by_cases hb : 0 ≤ r.second ∧ r.second ≤ (Edo.MAX_MOVE_LENGTH : Nat)
      · rw [if_pos hb]
        obtain ⟨i1, i2⟩ := ih f n { D with moves := fun i => if i = r.second.toNat then D.moves i + r.first else D.moves i } h2 (by omega)
        constructor
        · intro h
          rw [i1 (fun x hx => h x (by simp [hx]))]
          congr 1
          simp only [Edo.Edodata.mk.injEq, true_and]
          funext i
          rw [firsts_cons]
          by_cases hi : i = r.second.toNat
          · rw [if_pos hi, if_pos (by omega)]; omega
          · rw [if_neg hi, if_neg (by omega)]; omega
        · rintro ⟨x, hx, hbad⟩
          apply i2
          rcases List.mem_cons.1 hx with rfl | hx
          · exact absurd hb hbad
          · exact ⟨x, hx, hbad⟩
      · rw [if_neg hb]
        constructor
        · intro h; exact absurd (h r (by simp)) hb
        · intro _; rfl

theorem read_edorpt_spec (D : Edo.Edodata) (file : List Nat) :
    match editop (lines file) with
    | none => Edo.read_edorpt D file = .err "invalid format in"
    | some (ins, del, moves, R) =>
      ((∀ r ∈ R, 0 ≤ r.second ∧ r.second ≤ 100) → Edo.read_edorpt D file =
        .ok ⟨D.total_insertions + ins, D.total_deletions + del, D.total_moves + moves,
          fun i => D.moves i + firsts (fun r => r.second = i) R⟩) ∧
      ((∃ r ∈ R, ¬ (0 ≤ r.second ∧ r.second ≤ 100)) → Edo.read_edorpt D file = .ub) := by
  have ht := read_title_spec Edo.TITLE Edo.DIVIDER file
  unfold editop
  unfold Edo.read_edorpt
  cases hT : titled Edo.TITLE Edo.DIVIDER (lines file) with
  | none =>
    rw [hT] at ht
    simp only at ht ⊢
    rw [ht]; rfl
  | some ls =>
    rw [hT] at ht
    obtain ⟨f, h1, h2⟩ := ht
    rw [h1]
    simp only [Option.bind_eq_bind, Option.bind_some]
    rcases ls with _ | ⟨a, ls⟩
    · rw [read_value_nil h2]; rfl
    obtain ⟨f2, h3, h4⟩ := read_value_cons h2
    rw [h4]
    rcases ls with _ | ⟨b, ls⟩
    · simp only [read_value_nil h3, Option.bind_map, Option.bind_none, Function.comp_def]
      cases number a <;> rfl
    obtain ⟨f3, h5, h6⟩ := read_value_cons h3
    rcases ls with _ | ⟨c, rest⟩
    · simp only [h6, read_value_nil h5, Option.bind_map, Option.bind_none, Function.comp_def]
      cases number a <;> cases number b <;> rfl
    obtain ⟨f4, h7, h8⟩ := read_value_cons h5
    simp only [h6, h8, Option.bind_map, Function.comp_def]
    cases number a with
    | none => rfl
    | some ins =>
    cases number b with
    | none => rfl
    | some del =>
    cases number c with
    | none => rfl
    | some moves =>
      simp only [Option.bind_some]
      by_cases hm : moves > 0
      · rw [if_pos hm, if_pos hm]
        by_cases hlen : 3 ≤ rest.length
        · obtain ⟨g, g1, g2⟩ := skip_some (n := 3) (file := f4) (by rw [h7]; exact hlen)
          rw [g1]
          rw [h7] at g2
          exact moveLoop_spec (rest.drop 3) g g.length _ g2 (le_refl _)
        · rw [skip_none (by rw [h7]; omega), List.drop_eq_nil_of_le (by omega)]
          simp [rows_nil, firsts_nil]
      · rw [if_neg hm, if_neg hm]
        simp [firsts_nil]

end Ocr.AnyReport
