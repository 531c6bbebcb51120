import Verif.Proof.WordaccMatch
import Verif.Proof.WordaccData
import Verif.Props.Wacrpt
import Mathlib.Data.List.Sublists

/-!
# C32, C33, C34: wordacc
-/

namespace Ocr.Wordacc
open Res Wac Report

/-- C32.  Unless the correct text has more than 65535 words that occur in the other text, `wordacc` terminates without an
invalid access and the words flagged as recognized are a common subsequence of the two texts of maximum length. -/
theorem c32_lcs (u v : List (List Nat)) (hm : (u.filter (fun w => decide (w ∈ v))).length ≤ 65535) :
    ∃ flags, recognize u v = .ok flags ∧ flags.length = u.length ∧ IsLCS (flagged u flags) u v := recognize_spec u v hm

/-- C32 (limit).  With more such words the program stops with an error message. -/
theorem c32_too_long (u v : List (List Nat)) (hm : 65535 < (u.filter (fun w => decide (w ∈ v))).length) :
    recognize u v = .err "text stream is too long" := by
  obtain ⟨a, b, ea, _, es⟩ := setup_eq u v
  have : a.length = (u.filter (fun w => decide (w ∈ v))).length := by
    rw [← zip_snd u (fun w => decide (w ∈ v)), List.length_map, ea]
  rw [if_pos (by unfold MAX_F; omega)] at es
  unfold recognize
  rw [es, bind_err]

theorem flagged_length : ∀ (u : List (List Nat)) (flags : List Bool), flags.length = u.length →
    (flagged u flags).length + (u.zip flags).countP (fun x => !x.2) = u.length
  | [], flags, h => by simp [flagged]
  | w :: u, [], h => by simp at h
  | w :: u, r :: flags, h => by
    have := flagged_length u flags (by simpa using h)
    unfold flagged at this ⊢
    cases r <;> simp at this ⊢ <;> omega

/-- C33 (exactness).  If no word has more than 50 bytes, every figure is exactly what the words of the correct text and the
flags say; all array accesses are in bounds. -/
theorem c33_exact (stop : List Nat → Bool) (u v : List (List Nat)) (hw : ∀ w ∈ u, 1 ≤ w.length ∧ w.length ≤ 50)
    (hm : (u.filter (fun w => decide (w ∈ v))).length ≤ 65535) :
    ∃ flags D, recognize u v = .ok flags ∧ flags.length = u.length ∧ IsLCS (flagged u flags) u v ∧
      wordacc stop u v = .ok D ∧ Exact stop (u.zip flags) D := by
  obtain ⟨flags, e, hl, hL⟩ := recognize_spec u v hm
  obtain ⟨D, e', hD⟩ := determine_spec stop (u.zip flags) (fun x hx => hw x.1 (List.of_mem_zip hx).1)
  exact ⟨flags, D, e, hl, hL, by unfold wordacc; rw [e, bind_ok]; exact e', hD⟩

/-- C32 (figures).  The number of misrecognized words is the number of words minus the length of a longest common
subsequence. -/
theorem c32_misrecognized (stop : List Nat → Bool) (u v : List (List Nat)) (hw : ∀ w ∈ u, 1 ≤ w.length ∧ w.length ≤ 50)
    (hm : (u.filter (fun w => decide (w ∈ v))).length ≤ 65535) (c : List (List Nat)) (hc : IsLCS c u v) :
    ∃ D, wordacc stop u v = .ok D ∧ D.total.count = u.length ∧ D.total.missed = (u.length : Int) - c.length := by
  obtain ⟨flags, D, _, hl, hL, e, hD⟩ := c33_exact stop u v hw hm
  have h1 := hL.max c hc.left hc.right
  have h2 := hc.max _ hL.left hL.right
  have h3 := flagged_length u flags hl
  refine ⟨D, e, ?_, ?_⟩
  · rw [hD.total]; simp [tally, hl]
  · rw [hD.total]; simp only [tally, Bool.true_and]; omega

theorem sum_countP {α : Type} (p : α → Bool) (f : α → Nat) (lo n : Nat) : ∀ (l : List α), (∀ x ∈ l, p x = true → lo ≤ f x ∧ f x < lo + n) →
    ((List.range' lo n).map (fun i => (l.countP (fun x => p x && f x == i) : Int))).sum = l.countP p := by
  intro l
  induction l with
  | nil => intro _; simp
  | cons x l ih =>
    intro h
    have ih' := ih (fun y hy => h y (by simp [hy]))
    have hx := h x (by simp)
    simp only [List.countP_cons]
    push_cast
    rw [← ih']
    have : ∀ I : List Nat, (I.map (fun i => (l.countP (fun x => p x && f x == i) : Int) + (if (p x && f x == i) = true then 1 else 0))).sum =
        (I.map (fun i => (l.countP (fun x => p x && f x == i) : Int))).sum + (I.countP (fun i => p x && f x == i) : Int) := by
      intro I
      induction I with
      | nil => simp
      | cons i I ihI =>
        rw [List.map_cons, List.sum_cons, ihI, List.map_cons, List.sum_cons, List.countP_cons]
        push_cast
        split <;> omega
    rw [this]
    congr 1
    cases hp : p x with
    | false => simp
    | true =>
      have hx := hx hp
      simp only [Bool.true_and]
      have hc : List.countP (fun i => f x == i) (List.range' lo n) = List.count (f x) (List.range' lo n) := by
        unfold List.count
        apply List.countP_congr
        intro i _
        simp only [beq_iff_eq]
        exact eq_comm
      rw [hc, List.count_eq_one_of_mem List.nodup_range' (List.mem_range'_1.2 hx)]
      simp

/-- C33 (consistency).  The totals are the sums of the figures for stopwords and non-stopwords, each histogram by length adds
up to its total, the histogram of distinct words adds up to its total, and phrases of length one are the words. -/
theorem c33_consistent (stop : List Nat → Bool) (u v : List (List Nat)) (hw : ∀ w ∈ u, 1 ≤ w.length ∧ w.length ≤ 50)
    (hm : (u.filter (fun w => decide (w ∈ v))).length ≤ 65535) :
    ∃ D, wordacc stop u v = .ok D ∧ D.total.count = u.length ∧ D.total = sumWac [D.stopword 0, D.non_stopword 0] ∧
      D.stopword 0 = sumWac ((List.range' 1 50).map D.stopword) ∧
      D.non_stopword 0 = sumWac ((List.range' 1 50).map D.non_stopword) ∧
      D.distinct_non_stopword 0 = sumWac ((List.range' 1 11).map D.distinct_non_stopword) ∧
      (D.distinct_non_stopword 0).count = D.non_stopword_table.length ∧ D.phrase 1 = D.total := by
  obtain ⟨flags, D, _, hl, hL, e, hD⟩ := c33_exact stop u v hw hm
  obtain ⟨ws, hws⟩ : ∃ ws, ws = u.zip flags := ⟨_, rfl⟩
  rw [← hws] at hD
  have hlen : ∀ x ∈ ws, 1 ≤ x.1.length ∧ x.1.length ≤ 50 := fun x hx => hw x.1 (List.of_mem_zip (hws ▸ hx)).1
  have hwl : ws.length = u.length := by rw [hws]; simp [hl]
  have hE : ∃ E : List (List Nat), E.Nodup ∧ (∀ w, w ∈ E ↔ w ∈ ws.map (fun x => x.1) ∧ stop w = false) ∧ E = D.non_stopword_table.map Term.key := by
    refine ⟨_, hD.table2.nodup, fun w => ?_, rfl⟩
    rw [hD.table2.keys w]; simp
  obtain ⟨E, hE1, hE2, hE3⟩ := hE
  obtain ⟨d0, di, d11, _⟩ := hD.distinct E hE1 hE2
  have pos : ∀ w ∈ E, 1 ≤ ws.countP (fun x => x.1 = w) ∧ ws.countP (fun x => x.1 = w) ≤ ws.length := by
    intro w hwE
    obtain ⟨y, hy, ey⟩ := List.mem_map.1 ((hE2 w).1 hwE).1
    exact ⟨List.countP_pos_iff.2 ⟨y, hy, by simpa using ey⟩, List.countP_le_length⟩
  have hist : ∀ (q : List Nat → Bool) (f : Nat → Wac), (∀ i, 1 ≤ i → f i = tally (fun w => q w && w.length == i) ws) →
      tally q ws = sumWac ((List.range' 1 50).map f) := by
    intro q f hf
    have : (List.range' 1 50).map f = (List.range' 1 50).map (fun i => tally (fun w => q w && w.length == i) ws) :=
      List.map_congr_left fun i hi => hf i (List.mem_range'_1.1 hi).1
    rw [this]
    unfold sumWac
    rw [List.map_map, List.map_map]
    unfold tally Function.comp
    simp only
    rw [Wac.mk.injEq]
    refine ⟨?_, ?_⟩
    · exact (sum_countP (fun x : List Nat × Bool => q x.1) (fun x => x.1.length) 1 50 ws
        (fun x hx _ => by have := hlen x hx; omega)).symm
    · rw [← sum_countP (fun x : List Nat × Bool => q x.1 && !x.2) (fun x => x.1.length) 1 50 ws
        (fun x hx _ => by have := hlen x hx; omega)]
      refine congrArg List.sum (List.map_congr_left fun i _ => congrArg Nat.cast (List.countP_congr ?_))
      intro x _
      cases q x.1 <;> cases x.2 <;> simp
  refine ⟨D, e, ?_, ?_, ?_, ?_, ?_, ?_, ?_⟩
  · rw [hD.total]; simp [tally, hwl]
  · rw [hD.total, hD.stop0, hD.non0]
    unfold tally sumWac
    simp only [List.map_cons, List.map_nil, List.sum_cons, List.sum_nil, Int.add_zero, Bool.true_and]
    clear * -
    induction ws with
    | nil => rfl
    | cons x ws ih =>
      simp only [List.countP_cons, Wac.mk.injEq] at ih ⊢
      cases stop x.1 <;> cases x.2 <;> simp at ih ⊢ <;> omega
  · rw [hD.stop0]; exact hist stop _ hD.stopL
  · rw [hD.non0]; exact hist (fun w => !stop w) _ hD.nonL
  · -- occurrences
    have key : ∀ i ∈ List.range' 1 11, D.distinct_non_stopword i = ⟨E.countP (fun w => true && min (ws.countP (fun x => x.1 = w)) 11 == i),
        E.countP (fun w => ws.all (fun x => !(decide (x.1 = w) && x.2)) && min (ws.countP (fun x => x.1 = w)) 11 == i)⟩ := by
      intro i hi
      have hi' := List.mem_range'_1.1 hi
      have h2 : ∃ lo hi', D.distinct_non_stopword i = tallyDistinct lo hi' E ws ∧ ∀ w ∈ E,
          ((lo ≤ ws.countP (fun x => x.1 = w) ∧ ws.countP (fun x => x.1 = w) ≤ hi') ↔ min (ws.countP (fun x => x.1 = w)) 11 = i) := by
        rcases Nat.lt_or_ge i 11 with h' | h'
        · exact ⟨i, i, di i hi'.1 (by omega), fun w hw => by omega⟩
        · have : i = 11 := by omega
          subst this
          exact ⟨11, ws.length, d11, fun w hw => by have := pos w hw; omega⟩
      obtain ⟨lo, hi2, q1, q2⟩ := h2
      rw [q1]
      unfold tallyDistinct
      simp only
      congr 2
      · apply List.countP_congr
        intro w hw
        simp only [Bool.and_eq_true, decide_eq_true_eq, Bool.true_and, beq_iff_eq]
        exact q2 w hw
      · apply List.countP_congr
        intro w hw
        simp only [Bool.and_eq_true, decide_eq_true_eq, beq_iff_eq]
        rw [q2 w hw, and_comm]
    rw [List.map_congr_left key, d0]
    unfold sumWac tallyDistinct
    rw [List.map_map, List.map_map]
    unfold Function.comp
    simp only
    rw [Wac.mk.injEq]
    refine ⟨?_, ?_⟩
    · rw [sum_countP (fun _ : List Nat => true) (fun w => min (ws.countP (fun x => x.1 = w)) 11) 1 11 E
        (fun w hw _ => by have := pos w hw; omega)]
      congr 1
      apply List.countP_congr
      intro w hw
      have := pos w hw
      simp; omega
    · rw [sum_countP (fun w : List Nat => ws.all (fun x => !(decide (x.1 = w) && x.2))) (fun w => min (ws.countP (fun x => x.1 = w)) 11) 1 11 E
        (fun w hw _ => by have := pos w hw; omega)]
      congr 1
      apply List.countP_congr
      intro w hw
      have := pos w hw
      simp; omega
  · rw [d0]
    unfold tallyDistinct
    simp only
    rw [Nat.cast_inj, ← List.length_map (f := Term.key), ← hE3]
    rw [List.countP_eq_length]
    intro w hw
    have := pos w hw
    simp; omega
  · rw [hD.phrase.2.1 1 (by omega) (by omega), hD.total]
    unfold windows tally
    simp only [Bool.true_and]
    congr 1
    · simp
    · congr 1
      rw [List.length_map, Nat.add_sub_cancel]
      clear * -
      induction ws with
      | nil => rfl
      | cons x ws ih =>
        rw [List.length_cons, List.range_succ_eq_map, List.countP_cons, List.countP_map, List.countP_cons, ← ih]
        congr 1
        obtain ⟨w, r⟩ := x
        cases r <;> simp

/-- C33 (exception).  If some word of the correct text has more than 50 bytes, it is counted outside the array. -/
theorem c33_long (stop : List Nat → Bool) (u v : List (List Nat)) (hw : ∃ w ∈ u, 50 < w.length)
    (hm : (u.filter (fun w => decide (w ∈ v))).length ≤ 65535) : wordacc stop u v = .ub := by
  obtain ⟨flags, e, hl, hL⟩ := recognize_spec u v hm
  unfold wordacc
  rw [e, bind_ok]
  apply determine_long
  obtain ⟨w, hw1, hw2⟩ := hw
  obtain ⟨i, hi, rfl⟩ := List.mem_iff_getElem.1 hw1
  exact ⟨(u[i], flags[i]), by rw [List.mem_iff_getElem]; exact ⟨i, by simp; omega, by simp⟩, hw2⟩

/-- C34.  For `L` from 1 to 8 the figures for phrases are the numbers of windows of `L` consecutive words and of those
containing a misrecognized word. -/
theorem c34_phrases (stop : List Nat → Bool) (u v : List (List Nat)) (hw : ∀ w ∈ u, 1 ≤ w.length ∧ w.length ≤ 50)
    (hm : (u.filter (fun w => decide (w ∈ v))).length ≤ 65535) (L : Nat) (h1 : 1 ≤ L) (h8 : L ≤ 8) :
    ∃ flags D, recognize u v = .ok flags ∧ flags.length = u.length ∧ wordacc stop u v = .ok D ∧
      (D.phrase L).count = (u.length + 1 - L : Nat) ∧
      (D.phrase L).missed = (List.range (u.length + 1 - L)).countP (fun i => decide (∃ r ∈ (flags.drop i).take L, r = false)) := by
  obtain ⟨flags, D, e1, hl, _, e2, hD⟩ := c33_exact stop u v hw hm
  refine ⟨flags, D, e1, hl, e2, ?_⟩
  have : (u.zip flags).map (fun x => x.2) = flags := by
    have := List.map_snd_zip (l₁ := u) (l₂ := flags) (by omega)
    exact this
  rw [hD.phrase.2.1 L h1 h8, this]
  unfold windows
  rw [hl]
  refine ⟨rfl, ?_⟩
  simp only
  congr 1
  apply List.countP_congr
  intro i _
  simp [List.any_eq_true]

/-- What `wordacc` computes, and that it can be reported. -/
theorem wordacc_data (stop : List Nat → Bool) (u v : List (List Nat))
    (hw : ∀ w ∈ u, 1 ≤ w.length ∧ w.length ≤ 50 ∧ 10 ∉ w ∧ 0 ∉ w)
    (hm : (u.filter (fun w => decide (w ∈ v))).length ≤ 65535) (hl : u.length < 10^8) :
    ∃ flags D, flags.length = u.length ∧ IsLCS (flagged u flags) u v ∧ wordacc stop u v = .ok D ∧ Exact stop (u.zip flags) D ∧ Reportable D := by
  obtain ⟨flags, D, e1, hlf, hL, e2, hD'⟩ := c33_exact stop u v (fun w h => ⟨(hw w h).1, (hw w h).2.1⟩) hm
  have hD := hD'
  obtain ⟨ws, hws⟩ : ∃ ws, ws = u.zip flags := ⟨_, rfl⟩
  rw [← hws] at hD
  have hwl : ws.length = u.length := by rw [hws]; simp [hlf]
  have hmem : ∀ x ∈ ws, x.1 ∈ u := fun x hx => (List.of_mem_zip (hws ▸ hx)).1
  have tf : ∀ p, (tally p ws).Fits := by
    intro p
    unfold tally Wac.Fits
    have h1 : ws.countP (fun x => p x.1 && !x.2) ≤ ws.countP (fun x => p x.1) := List.countP_mono_left (by intro y _ h; simp at h; exact h.1)
    have h2 : ws.countP (fun x => p x.1) ≤ ws.length := List.countP_le_length
    simp only
    omega
  have z : (⟨0, 0⟩ : Wac).Fits := by unfold Wac.Fits; decide
  have t0 : ∀ p : List Nat → Bool, (∀ w ∈ u, p w = false) → tally p ws = ⟨0, 0⟩ := by
    intro p hp
    unfold tally
    rw [List.countP_eq_zero.2 (by intro x hx; simp [hp x.1 (hmem x hx)]), List.countP_eq_zero.2 (by intro x hx; simp [hp x.1 (hmem x hx)])]
    rfl
  have long : ∀ (q : List Nat → Bool) (i : Nat), 50 < i → tally (fun w => q w && w.length == i) ws = ⟨0, 0⟩ := by
    intro q i hi
    apply t0
    intro w hwu
    have := hw w hwu
    have : (w.length == i) = false := by simp; omega
    simp [this]
  have ent : ∀ (q : List Nat → Bool) (t : List Term), TableOf q ws t → TableFits t := by
    intro q t ht
    refine ⟨ht.nodup, ?_, ?_⟩
    · intro w hwt
      have := ht.entry w hwt
      have h1 : ws.countP (fun x => x.1 = w.key && !x.2) ≤ ws.countP (fun x => x.1 = w.key) := List.countP_mono_left (by intro y _ h; simp at h; simp [h.1])
      have h2 : ws.countP (fun x => x.1 = w.key) ≤ ws.length := List.countP_le_length
      unfold Wac.Fits
      simp only
      omega
    · intro w hwt
      obtain ⟨y, hy, ey⟩ := List.mem_map.1 ((ht.keys w.key).1 (List.mem_map_of_mem hwt)).1
      have := hw _ (hmem y hy)
      rw [ey] at this
      exact ⟨this.2.2.1, this.2.2.2, by omega⟩
  have nil : ∀ (q : List Nat → Bool) (t : List Term), TableOf q ws t → (tally (fun _ => true) ws).count ≤ 0 ∨ (tally q ws).count ≤ 0 → t = [] := by
    intro q t ht hc
    cases t with
    | nil => rfl
    | cons w t =>
      exfalso
      obtain ⟨hk, hq⟩ := (ht.keys w.key).1 (by simp)
      obtain ⟨y, hy, ey⟩ := List.mem_map.1 hk
      have h1 : 0 < ws.countP (fun x => q x.1) := List.countP_pos_iff.2 ⟨y, hy, by rw [ey]; exact hq⟩
      have h2 : ws.countP (fun x => q x.1) ≤ ws.length := List.countP_le_length
      unfold tally at hc
      simp only [List.countP_true] at hc
      omega
  have hr : Reportable D := by
    constructor
    · rw [hD.total]
      have := tf (fun _ => true)
      unfold Wac.Fits at this
      unfold IsLong
      omega
    · intro i
      rcases Nat.eq_zero_or_pos i with rfl | hi
      · rw [hD.stop0]; exact ⟨tf _, by omega⟩
      · rw [hD.stopL i hi]; exact ⟨tf _, long _ i⟩
    · intro i
      rcases Nat.eq_zero_or_pos i with rfl | hi
      · rw [hD.non0]; exact ⟨tf _, by omega⟩
      · rw [hD.nonL i hi]; exact ⟨tf _, long _ i⟩
    · intro i
      obtain ⟨d0, di, d11, dl⟩ := hD.distinct (D.non_stopword_table.map Term.key) hD.table2.nodup
        (fun w => by rw [hD.table2.keys w]; simp)
      have hkl : (D.non_stopword_table.map Term.key).length ≤ u.length := by
        have hs : (D.non_stopword_table.map Term.key) ⊆ ws.map (fun x => x.1) := fun w hw => ((hD.table2.keys w).1 hw).1
        have := (List.subperm_of_subset hD.table2.nodup hs).length_le
        rw [List.length_map (as := ws)] at this
        omega
      have tdf : ∀ lo hi, (tallyDistinct lo hi (D.non_stopword_table.map Term.key) ws).Fits := by
        intro lo hi
        unfold tallyDistinct Wac.Fits
        simp only
        have h2 := fun p => List.countP_le_length (l := D.non_stopword_table.map Term.key) (p := p)
        refine ⟨by omega, ?_, ?_⟩
        · rw [Int.ofNat_le]
          exact List.countP_mono_left (by intro y _ h; simp only [Bool.and_eq_true] at h ⊢; exact h.1)
        · have := h2 (fun w => decide (lo ≤ ws.countP (fun x => x.1 = w)) && decide (ws.countP (fun x => x.1 = w) ≤ hi))
          omega
      refine ⟨?_, dl i⟩
      rcases Nat.lt_or_ge 11 i with h' | h'
      · rw [dl i h']; exact z
      · rcases Nat.eq_zero_or_pos i with rfl | hi
        · rw [d0]; exact tdf _ _
        · rcases Nat.lt_or_ge i 11 with h'' | h''
          · rw [di i hi (by omega)]; exact tdf _ _
          · have : i = 11 := by omega
            subst this
            rw [d11]; exact tdf _ _
    · intro i
      have wf : ∀ L, 1 ≤ L → (windows L (ws.map (fun x => x.2))).Fits := by
        intro L hL
        unfold windows Wac.Fits
        simp only [List.length_map]
        have h2 := List.countP_le_length (l := List.range (ws.length + 1 - L)) (p := fun i => (((ws.map (fun x => x.2)).drop i).take L).any (fun r => !r))
        rw [List.length_range] at h2
        omega
      have w0 : ∀ L, D.total.count ≤ 0 → 1 ≤ L → windows L (ws.map (fun x => x.2)) = ⟨0, 0⟩ := by
        intro L ht hL
        rw [hD.total] at ht
        unfold tally at ht
        simp only [List.countP_true] at ht
        have : ws.length = 0 := by omega
        unfold windows
        rw [List.length_map, this]
        have : 0 + 1 - L = 0 := by omega
        rw [this]; rfl
      refine ⟨?_, hD.phrase.2.2 i, hD.phrase.1, ?_⟩
      · rcases Nat.eq_zero_or_pos i with rfl | hi
        · rw [hD.phrase.1]; exact z
        · rcases Nat.lt_or_ge 8 i with h' | h'
          · rw [hD.phrase.2.2 i h']; exact z
          · rw [hD.phrase.2.1 i hi h']; exact wf i hi
      · intro ht
        rcases Nat.eq_zero_or_pos i with rfl | hi
        · exact hD.phrase.1
        · rcases Nat.lt_or_ge 8 i with h' | h'
          · exact hD.phrase.2.2 i h'
          · rw [hD.phrase.2.1 i hi h']; exact w0 i ht hi
    · exact ent _ _ hD.table1
    · exact ent _ _ hD.table2
    · rw [hD.total, hD.stop0]; exact nil _ _ hD.table1
    · rw [hD.total, hD.non0]; exact nil _ _ hD.table2
  exact ⟨flags, D, hlf, hL, e2, hD', hr⟩

/-- C30 (wordacc).  The figures computed by `wordacc` are read back exactly from the report. -/
theorem c30_wordacc (pct : Int → Int → List Nat) (hp : Acc.PctFormat pct) (stop : List Nat → Bool) (u v : List (List Nat))
    (hw : ∀ w ∈ u, 1 ≤ w.length ∧ w.length ≤ 50 ∧ 10 ∉ w ∧ 0 ∉ w)
    (hm : (u.filter (fun w => decide (w ∈ v))).length ≤ 65535) (hl : u.length < 10^8) :
    ∃ D file E, wordacc stop u v = .ok D ∧ write_wacrpt pct D = .ok file ∧ read_wacrpt Wacdata.zero file = .ok E ∧ D.Same E := by
  obtain ⟨_, D, _, _, e2, _, hr⟩ := wordacc_data stop u v hw hm hl
  obtain ⟨file, E, f1, f2, f3⟩ := c30_round_trip pct hp D hr
  exact ⟨D, file, E, e2, f1, f2, f3⟩

/-! ## Non-vacuity -/

def sampleWords0 : List (List Nat) := ["the", "cat", "sat", "on", "the", "mat"].map ascii
def sampleWords1 : List (List Nat) := ["the", "mat", "cat", "sat", "the", "hat"].map ascii
def sampleStop (w : List Nat) : Bool := w == ascii "the" || w == ascii "on"

/-- A longest common subsequence of the sample texts: "the cat sat the". -/
theorem sample_lcs : IsLCS (["the", "cat", "sat", "the"].map ascii) sampleWords0 sampleWords1 := by
  refine ⟨by decide, by decide, ?_⟩
  intro c h1 h2
  have h : ∀ c ∈ sampleWords0.sublists', c.Sublist sampleWords1 → c.length ≤ 4 := by decide +kernel
  exact h c (List.mem_sublists'.2 h1) h2

example : ∃ D, wordacc sampleStop sampleWords0 sampleWords1 = .ok D ∧ D.total.count = 6 ∧ D.total.missed = 2 := by
  obtain ⟨D, h1, h2, h3⟩ := c32_misrecognized sampleStop sampleWords0 sampleWords1 (by decide) (by decide) _ sample_lcs
  exact ⟨D, h1, h2, h3⟩

example : ∃ D, wordacc sampleStop sampleWords0 sampleWords1 = .ok D ∧ D.stopword 0 = sumWac ((List.range' 1 50).map D.stopword) := by
  obtain ⟨D, h1, _, _, h2, _⟩ := c33_consistent sampleStop sampleWords0 sampleWords1 (by decide) (by decide)
  exact ⟨D, h1, h2⟩

example : ∃ D file E, wordacc sampleStop sampleWords0 sampleWords1 = .ok D ∧ write_wacrpt Acc.samplePct D = .ok file ∧
    read_wacrpt Wacdata.zero file = .ok E ∧ D.Same E :=
  c30_wordacc Acc.samplePct Acc.samplePct_format sampleStop sampleWords0 sampleWords1 (by decide) (by decide) (by decide)

example : ∃ flags D, recognize sampleWords0 sampleWords1 = .ok flags ∧ flags.length = 6 ∧
    wordacc sampleStop sampleWords0 sampleWords1 = .ok D ∧ (D.phrase 2).count = 5 := by
  obtain ⟨flags, D, h1, h2, h3, h4, _⟩ := c34_phrases sampleStop sampleWords0 sampleWords1 (by decide) (by decide) 2 (by omega) (by omega)
  exact ⟨flags, D, h1, h2, h3, h4⟩

/-- A word of 51 bytes. -/
example : wordacc sampleStop [List.replicate 51 97] [] = .ub := c33_long _ _ _ ⟨List.replicate 51 97, List.mem_singleton.2 rfl, by rw [List.length_replicate]; omega⟩ (by decide)

example : recognize (List.replicate 65536 [97]) [[97]] = .err "text stream is too long" :=
  c32_too_long _ _ (by rw [List.filter_replicate, if_pos (by decide), List.length_replicate]; omega)

end Ocr.Wordacc
