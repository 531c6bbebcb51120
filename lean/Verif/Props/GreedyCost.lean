import Verif.Proof.GreedyCost

/-!
# C96: the work done by synchronize and transpose_sync
-/

namespace Ocr.Sync
open Text Res

/-- C96.  One call of `longest_match` for regions of `n1` and `n2` characters tries at most `(n1 - maxlen) (n2 - maxlen)` pairs of
positions, and the condition of the loop that extends a match is evaluated at most as often as there are pairs, times the length found. -/
theorem c96_longest {maxlen : Nat} {c1 c2 : List Nat} {start1 n1 start2 n2 : Nat} (h1 : start1 + n1 ≤ c1.length)
    (h2 : start2 + n2 ≤ c2.length) (m0 : Option (Int × Int)) : ∃ (len : Nat) (m : Option (Int × Int)) (w : Tries),
    longest_match maxlen c1 start1 (start1 + n1 - 1) c2 start2 (start2 + n2 - 1) m0 = .ok ((len : Int), m) ∧
    longest_matchW maxlen c1 start1 (start1 + n1 - 1) c2 start2 (start2 + n2 - 1) m0 ⟨0, 0, 0⟩ = .ok (((len : Int), m), w) ∧
    w.pairs ≤ (n1 - maxlen) * (n2 - maxlen) ∧ w.tests ≤ w.pairs * len ∧ len - maxlen ≤ w.tests := by
  obtain ⟨len, m, e, hge, _⟩ := longest_spec (c1 := c1) (c2 := c2) (maxlen0 := maxlen) (start1 := start1) (stop1 := start1 + n1 - 1)
    (start2 := start2) (stop2 := start2 + n2 - 1) (m0 := m0) (by omega) (by omega) (by omega) (by omega) (by omega)
  obtain ⟨l, rfl⟩ : ∃ l : Nat, len = l := ⟨len.toNat, by omega⟩
  obtain ⟨w, e', k0, k1, k2, k3, k4, k5, k6, k7⟩ := longest_matchW_eq ⟨0, 0, 0⟩ (by omega) e
  refine ⟨l, m, w, e, e', ?_, by simpa using k2, ?_⟩
  · simp only [Nat.zero_add] at k1
    refine k1.trans (Nat.mul_le_mul ?_ ?_) <;> omega
  · simp only [Nat.zero_add] at k7
    omega

/-- C96.  Let `n` be the length of the first text and `S` the sum of the others.  Counting does not change the result of
`synchronize`; if it has `M` matches, `recursive_sync` is called once for each item of the result, which are at most `2 M + 1`, and nests to a
depth of at most `M + 1`; the pairs of positions tried are at most `(M + 1) n S` and at most `n² S`; the other comparisons at most `n` times
as many, and for two texts at most `n² S`.  Every match takes a pair, every matched character a comparison. -/
theorem c96_synchronize (texts : List (List Nat)) (h1 : 2 ≤ texts.length) (h2 : texts.length ≤ 16) : ∃ r w depth M,
    synchronize texts = .ok r ∧ synchronizeW texts = .ok (r, w, depth) ∧ M = (r.items.filterMap (·.mtch)).length ∧
    (∀ t ∈ texts, M ≤ t.length) ∧ w.calls = r.items.length ∧ w.calls ≤ 2 * M + 1 ∧ depth ≤ M + 1 ∧ M ≤ w.pairs ∧
    w.pairs ≤ (M + 1) * ((texts.headD []).length * (texts.tail.map List.length).sum) ∧
    w.pairs ≤ (texts.headD []).length ^ 2 * (texts.tail.map List.length).sum ∧
    matchedChars r.items ≤ w.tests ∧ w.tests ≤ w.pairs * (texts.headD []).length ∧
    (texts.length = 2 → w.tests ≤ (texts.headD []).length ^ 2 * (texts.tail.map List.length).sum) := by
  obtain ⟨r, w, d, e, e', hm, c⟩ := synchronizeW_spec texts h1 h2
  obtain ⟨c1, c2, c3, c4, c5, c6, c7, ⟨c8, c9, c10⟩, c11⟩ := c
  simp only [Nat.zero_add] at c1 c4 c5 c6 c7 c8 c9 c10 c11
  refine ⟨r, w, d, _, e, e', rfl, hm, c11, c1, c3, c9, ?_, ?_, by omega, ?_, ?_⟩
  · exact c4.trans (Nat.mul_le_mul_right _ c3)
  · rw [pow_two]; exact c5
  · simpa using c6
  · rw [pow_two]; exact c7

/-- C96.  Counting does not change which numbers of texts are refused. -/
theorem c96_refused (texts : List (List Nat)) (h : texts.length < 2 ∨ 16 < texts.length) :
    synchronize texts = .err "invalid number of text streams" ∧ synchronizeW texts = .err "invalid number of text streams" := by
  unfold synchronize synchronizeW MIN_STREAMS MAX_STREAMS
  rw [if_pos (by omega), if_pos (by omega)]
  exact ⟨rfl, rfl⟩

/-- C96.  The same for `transpose_sync` and texts of `n` and `m` characters: with `M` matches there are `M + 1` searches, at most
`(M + 1) n m` pairs, and at most `n m` other comparisons for each matched character. -/
theorem c96_transpose (a b : List Nat) : ∃ r w M, transpose_sync a b = .ok r ∧ transpose_syncW a b = .ok (r, w, M + 1) ∧
    M = (r.items1.filterMap (·.mtch)).length ∧ M ≤ a.length ∧ M ≤ b.length ∧ M ≤ w.pairs ∧
    w.pairs ≤ (M + 1) * (a.length * b.length) ∧ matchedChars r.items1 ≤ w.tests ∧
    w.tests ≤ (matchedChars r.items1).toNat * (a.length * b.length) ∧ w.tests ≤ a.length ^ 2 * b.length := by
  obtain ⟨r, w, M, e, e', g1, g2, g3, g4, g5, g6, g7, g8, g9⟩ := transpose_syncW_spec a b
  refine ⟨r, w, M, e, e', g1, g2, g3, g8, g4, g9, g7, g7.trans ?_⟩
  rw [pow_two, Nat.mul_assoc]
  exact Nat.mul_le_mul_right _ (by omega)

theorem inner_apart {c1 c2 : List Nat} {stop1 stop2 s1 : Int} (g1 : 0 ≤ s1) (h1 : s1 < c1.length) (h2 : stop2 < c2.length)
    (hn : ∀ c, c ∈ c1 → c ∈ c2 → c = REJECT_CHARACTER) : ∀ (fl : Nat) (s2 : Int) (st : LM) (w : Tries), 0 ≤ s2 →
    st.s2limit ≤ stop2 → st.s2limit - s2 + 1 ≤ fl →
    longestInnerW c1 c2 stop1 stop2 s1 fl s2 st w = .ok (st, ⟨w.pairs + (st.s2limit - s2 + 1).toNat, w.tests, w.calls⟩) := by
  intro fl
  induction fl with
  | zero =>
    intro s2 st w k1 k2 k3
    unfold longestInnerW
    rw [if_neg (by omega), show (st.s2limit - s2 + 1).toNat = 0 by omega]
    rfl
  | succ fl ih =>
    intro s2 st w k1 k2 k3
    unfold longestInnerW
    by_cases hc : s2 ≤ st.s2limit
    · rw [if_pos hc]
      have ha : s1.toNat < c1.length := by omega
      have hb : s2.toNat < c2.length := by omega
      have e : longestStepW c1 c2 stop1 stop2 s1 s2 st w = .ok (st, ⟨w.pairs + 1, w.tests, w.calls⟩) := by
        unfold longestStepW
        rw [rdI_eq g1 (List.getElem?_eq_getElem ha), rdI_eq k1 (List.getElem?_eq_getElem hb)]
        simp only [bind_ok]
        rw [if_neg]
        · rfl
        · rintro ⟨e1, e2⟩
          exact e2 (hn _ (List.getElem_mem ha) (e1 ▸ List.getElem_mem hb))
      simp only
      rw [e]
      simp only [bind_ok]
      rw [ih _ _ _ (by omega) k2 (by omega)]
      congr 3
      simp only
      omega
    · rw [if_neg hc, show (st.s2limit - s2 + 1).toNat = 0 by omega]
      rfl

theorem outer_apart {c1 c2 : List Nat} {stop1 stop2 start2 : Int} (h1 : stop1 < c1.length) (h2 : stop2 < c2.length) (g2 : 0 ≤ start2)
    (hn : ∀ c, c ∈ c1 → c ∈ c2 → c = REJECT_CHARACTER) : ∀ (fl : Nat) (s1 : Int) (st : LM) (w : Tries), 0 ≤ s1 →
    st.s1limit ≤ stop1 → st.s2limit ≤ stop2 → st.s1limit - s1 + 1 ≤ fl →
    longestOuterW c1 c2 stop1 start2 stop2 fl s1 st w =
      .ok (st, ⟨w.pairs + (st.s1limit - s1 + 1).toNat * (st.s2limit - start2 + 1).toNat, w.tests, w.calls⟩) := by
  intro fl
  induction fl with
  | zero =>
    intro s1 st w k1 k2 k3 k4
    unfold longestOuterW
    rw [if_neg (by omega), show (st.s1limit - s1 + 1).toNat = 0 by omega]
    simp
  | succ fl ih =>
    intro s1 st w k1 k2 k3 k4
    unfold longestOuterW
    by_cases hc : s1 ≤ st.s1limit
    · rw [if_pos hc]
      simp only
      rw [inner_apart k1 (by omega) h2 hn _ _ _ _ g2 k3 (by omega)]
      simp only [bind_ok]
      rw [ih _ _ _ (by omega) k2 k3 (by omega)]
      simp only [Res.ok.injEq, Prod.mk.injEq, true_and, Tries.mk.injEq, and_true]
      rw [show (st.s1limit - s1 + 1).toNat = (st.s1limit - (s1 + 1) + 1).toNat + 1 by omega, Nat.add_mul]
      omega
    · rw [if_neg hc, show (st.s1limit - s1 + 1).toNat = 0 by omega]
      simp

theorem longest_apart {c1 c2 : List Nat} {start1 n1 start2 n2 : Nat} (h1 : start1 + n1 ≤ c1.length) (h2 : start2 + n2 ≤ c2.length)
    (hn : ∀ c, c ∈ c1 → c ∈ c2 → c = REJECT_CHARACTER) (m : Option (Int × Int)) (w : Tries) :
    longest_matchW 0 c1 start1 (start1 + n1 - 1) c2 start2 (start2 + n2 - 1) m w = .ok ((0, m), ⟨w.pairs + n1 * n2, w.tests, w.calls⟩) := by
  unfold longest_matchW
  rw [outer_apart (by omega) (by omega) (by omega) hn _ _ _ _ (by omega) (by simp only; omega) (by simp only; omega) (by simp only; omega)]
  simp only [bind_ok, pure_eq]
  rw [show ((start1 : Int) + n1 - 1 - 0 - start1 + 1).toNat = n1 by omega,
    show ((start2 : Int) + n2 - 1 - 0 - start2 + 1).toNat = n2 by omega]

/-- C96.  For two texts without a common character (apart from `~`) the bounds are attained: every pair of positions is tried once. -/
theorem c96_apart (a b : List Nat) (ha : a ≠ []) (hb : b ≠ []) (hn : ∀ c, c ∈ a → c ∈ b → c = 126) :
    (∃ r, synchronizeW [a, b] = .ok (r, ⟨a.length * b.length, 0, 1⟩, 1)) ∧
    ∃ r, transpose_syncW a b = .ok (r, ⟨a.length * b.length, 0, 0⟩, 1) := by
  have la := List.length_pos_iff.2 ha
  have lb := List.length_pos_iff.2 hb
  have hinit : ∀ c : List Nat, 0 < c.length → initialize_synclist [c.length] = [⟨[⟨0, (c.length : Int) - 1, c.length⟩], none⟩] := by
    intro c hc
    have : c ≠ [] := List.length_pos_iff.1 hc
    simp [initialize_synclist, valid_sync, this]
  constructor
  · have hi : initialize_synclist [a.length, b.length] =
        [⟨[⟨0, (a.length : Int) - 1, a.length⟩, ⟨0, (b.length : Int) - 1, b.length⟩], none⟩] := by
      simp [initialize_synclist, valid_sync, ha]
    have e := longest_apart (c1 := a) (c2 := b) (start1 := 0) (n1 := a.length) (start2 := 0) (n2 := b.length) (by omega) (by omega) hn
      none ⟨0, 0, 1⟩
    simp only [Int.natCast_zero, Int.zero_add, Nat.zero_add] at e
    refine ⟨⟨initialize_synclist [a.length, b.length], number_matches (initialize_synclist [a.length, b.length]) (fun _ => 0)⟩, ?_⟩
    unfold synchronizeW
    rw [if_neg (by simp [MIN_STREAMS, MAX_STREAMS])]
    simp only [List.map_cons, List.map_nil, hi, List.headD_cons]
    rw [if_pos (by simp)]
    unfold recursive_syncW
    simp only [List.getElem?_cons_zero]
    rw [if_neg (by simp [ha, hb])]
    simp only [List.zip_cons_cons, List.zip_nil_right, matchTextsW]
    rw [show rdI [(0 : Int)] 0 = .ok 0 by rfl]
    simp only [bind_ok, Int.zero_add]
    rw [e]
    rfl
  · have e := longest_apart (c1 := a) (c2 := b) (start1 := 0) (n1 := a.length) (start2 := 0) (n2 := b.length) (by omega) (by omega) hn
      none ⟨0, 0, 0⟩
    simp only [Int.natCast_zero, Int.zero_add, Nat.zero_add] at e
    refine ⟨⟨initialize_synclist [a.length], initialize_synclist [b.length], number_matches (initialize_synclist [a.length]) (fun _ => 0)⟩, ?_⟩
    unfold transpose_syncW
    simp only [hinit a la, hinit b lb]
    unfold transLoopW
    simp only [transOuterW, transInnerW, Sync.only, rd, List.getElem?_cons_zero, bind_ok]
    rw [if_pos ⟨trivial, by omega⟩]
    rw [if_pos ⟨trivial, by omega⟩]
    rw [e]
    rfl

/-! ## Non-vacuity -/

/-- Two texts with three matches: six calls, nested four deep. -/
example : (do let r ← synchronizeW [ascii "abcdef", ascii "a1b2c3"]; pure r.2 : Res (Tries × Nat)) = .ok (⟨50, 6, 6⟩, 4) := by
  decide +kernel

/-- Six items, and a text alone is refused. -/
example : (do let r ← synchronize [ascii "abcdef", ascii "a1b2c3"]; pure r.items.length : Res Nat) = .ok 6 ∧
    synchronizeW [ascii "abc"] = .err "invalid number of text streams" := ⟨by decide +kernel, (c96_refused _ (by simp)).2⟩

/-- Two equal texts: a single pair of positions is tried. -/
example : (do let r ← synchronizeW [ascii "hello world", ascii "hello world"]; pure r.2 : Res (Tries × Nat)) = .ok (⟨1, 11, 1⟩, 1) := by
  decide +kernel

/-- Three texts. -/
example : (do let r ← synchronizeW [ascii "hello world", ascii "helio vvorld", ascii "hel o worl~"]; pure r.2 : Res (Tries × Nat)) =
    .ok (⟨119, 35, 6⟩, 4) := by decide +kernel

/-- `transpose_sync`: three matches, four searches. -/
example : (do let r ← transpose_syncW (ascii "hello world") (ascii "world hello"); pure r.2 : Res (Tries × Nat)) =
    .ok (⟨45, 16, 0⟩, 4) := by decide +kernel

/-- `longest_match` with a match of length 1 known: the limits shrink as longer ones are found. -/
example : longest_matchW 1 (ascii "xaabaaab") 1 7 (ascii "aaab") 0 3 none ⟨0, 0, 0⟩ = .ok ((4, some (4, 0)), ⟨5, 10, 0⟩) := by
  decide +kernel

/-- Texts without a common character. -/
example : ∀ c, c ∈ ascii "abc~" → c ∈ ascii "12~" → c = 126 := by decide +kernel

end Ocr.Sync
