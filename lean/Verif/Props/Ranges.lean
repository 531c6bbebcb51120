import Verif.Spec.Ranges
import Verif.Proof.Accuracy
import Verif.Props.Edorpt
import Verif.Props.Wordacc
import Mathlib.Data.List.Dedup

/-!
# C94: no figure exceeds the size of the texts
-/

namespace Ocr.Acc
open Res Text Sync Charclass

theorem sum_le_mem : ∀ (l : List Int), (∀ x ∈ l, 0 ≤ x) → ∀ x ∈ l, x ≤ l.sum := by
  intro l
  induction l with
  | nil => simp
  | cons y l ih =>
    intro h x hx
    have hs : 0 ≤ l.sum := List.sum_nonneg (fun z hz => h z (by simp [hz]))
    rw [List.sum_cons]
    rcases List.mem_cons.1 hx with rfl | hx
    · omega
    · have := ih (fun z hz => h z (by simp [hz])) x hx
      have := h y (by simp)
      omega

theorem nonreject_le (l : List Ch) : (nonreject l).length ≤ l.length := by
  unfold nonreject
  exact le_trans (List.length_filter_le _ _) (by simp)

/-- The invariant together with a bound of the errors bounds everything. -/
theorem pinv_upTo {D : Accdata} {a0 a1 : List Ch} {ms : List Nat} (h : PInv D a0 a1 ms 0) {n : Nat} (h0 : a0.length + a1.length ≤ n)
    (he : D.errors ≤ n) : D.UpTo n := by
  have hn := nonreject_le a0
  have hm := h.sub.length_le
  obtain ⟨m1, m2, m3, m4⟩ := h.marked
  obtain ⟨u1, u2, u3, u4⟩ := h.unmarked
  have ht := h.total
  have h5 := h.errors
  have hc := h.characters
  have hr := h.rejects
  have hs := h.suspects
  have hfl := h.false_lo
  have hfh := h.false_hi
  have r1 := List.countP_le_length (p := fun c : Ch => decide (c.value = REJECT_CHARACTER)) (l := a1)
  have r2 := List.countP_le_length (p := fun c : Ch => decide (c.value ≠ REJECT_CHARACTER ∧ c.suspect = true)) (l := a1)
  rw [ht] at h5
  simp only [add_ops] at h5
  have hconf := sum_le_mem (D.conftable.map (·.errors)) (by
    intro x hx
    obtain ⟨c, hc, rfl⟩ := List.mem_map.1 hx
    have := h.conf_ok c hc; omega)
  rw [h.conf_err] at hconf
  refine ⟨?_, ?_, ?_, ?_, ?_, ?_, ?_, ?_, ?_, ?_, ?_, ?_⟩
  · unfold UpTo; omega
  · unfold UpTo; omega
  · unfold UpTo; omega
  · unfold UpTo; omega
  · unfold UpTo; omega
  · refine ⟨⟨?_, ?_⟩, ⟨?_, ?_⟩, ⟨?_, ?_⟩, ?_, ?_⟩ <;> omega
  · refine ⟨⟨?_, ?_⟩, ⟨?_, ?_⟩, ⟨?_, ?_⟩, ?_, ?_⟩ <;> omega
  · rw [ht]
    simp only [add_ops]
    refine ⟨⟨?_, ?_⟩, ⟨?_, ?_⟩, ⟨?_, ?_⟩, ?_, ?_⟩ <;> simp only <;> omega
  · intro c
    rw [h.tallied.large]
    have := List.countP_le_length (p := fun v => decide (charclass v = .ok c)) (l := nonreject a0)
    have := List.countP_le_length (p := fun v => decide (charclass v = .ok c)) (l := ms)
    refine ⟨⟨?_, ?_⟩, ?_, ?_⟩ <;> simp only <;> omega
  · rw [h.tallied.total]
    refine ⟨⟨?_, ?_⟩, ?_, ?_⟩ <;> simp only <;> omega
  · intro v
    rw [h.tallied.small]
    have := List.count_le_length (a := v) (l := nonreject a0)
    have := List.count_le_length (a := v) (l := ms)
    refine ⟨⟨?_, ?_⟩, ?_, ?_⟩ <;> simp only <;> omega
  · intro c hc
    have h1 := h.conf_ok c hc
    have h2 := hconf c.errors (List.mem_map.2 ⟨c, hc, rfl⟩)
    refine ⟨⟨?_, ?_⟩, ?_, ?_⟩ <;> omega

theorem prefix_spec (U : Unicode) {t0 t1 : List Ch} (hv0 : ∀ c ∈ t0, c.value < 0x10FFFF) (hv1 : ∀ c ∈ t1, c.value < 0x110000) :
    ∀ (l : List Sync) (p q k : Nat) (D : Accdata) (ms : List Nat), (∀ s ∈ l, s.substr.length = 2) →
      Tiles p (l.map (·.sub 0)) t0.length → Tiles q (l.map (·.sub 1)) t1.length → PInv D (t0.take p) (t1.take q) ms 0 →
      D.errors ≤ p + q →
      ∃ D', process_synclist U t0 t1 (l.take k) D = .ok D' ∧ D'.UpTo (t0.length + t1.length) := by
  intro l
  induction l with
  | nil =>
    intro p q k D ms _ h0 h1 h he
    simp only [List.map_nil, Tiles] at h0 h1
    refine ⟨D, by simp [process_synclist], pinv_upTo h (by simp only [List.length_take]; omega) (by push_cast; omega)⟩
  | cons s l ih =>
    intro p q k D ms hw h0 h1 h he
    simp only [List.map_cons, Tiles] at h0 h1
    obtain ⟨a1, a2, a3, a4⟩ := h0
    obtain ⟨b1, b2, b3, b4⟩ := h1
    have ha := tiles_le a4
    have hb := tiles_le b4
    cases k with
    | zero =>
      refine ⟨D, rfl, pinv_upTo h (by simp only [List.length_take]; omega) (by push_cast; omega)⟩
    | succ k =>
      obtain ⟨D1, e1, P1, r1, _⟩ := processItem_spec U hv0 hv1 (hw s (by simp)) (D := D) ⟨by omega, a3, by omega, by omega⟩
        ⟨by omega, b3, by omega, by omega⟩ h
      have g0 : t0.take p ++ piece t0 (s.sub 0) = t0.take (p + (s.sub 0).length.toNat) := by
        unfold piece; rw [a1, List.take_add]; simp
      have g1 : t1.take q ++ piece t1 (s.sub 1) = t1.take (q + (s.sub 1).length.toNat) := by
        unfold piece; rw [b1, List.take_add]; simp
      rw [g0, g1] at P1
      have hi : itemErrors t0 s ≤ (s.sub 0).length + (s.sub 1).length := by
        have hn := nonreject_le (piece t0 (s.sub 0))
        have hp : (piece t0 (s.sub 0)).length ≤ (s.sub 0).length.toNat := by unfold piece; simp
        unfold itemErrors
        split
        · omega
        · omega
      obtain ⟨D2, e2, P2⟩ := ih _ _ k D1 _ (fun s hs => hw s (by simp [hs]))
        (by have : ((p + (s.sub 0).length.toNat : Nat) : Int) = p + (s.sub 0).length := by omega
            rw [this]; exact a4)
        (by have : ((q + (s.sub 1).length.toNat : Nat) : Int) = q + (s.sub 1).length := by omega
            rw [this]; exact b4) P1 (by push_cast; omega)
      exact ⟨D2, by rw [List.take_succ_cons, process_synclist, e1]; exact e2, P2⟩

/-- C94 (characters).  After any number of items of the alignment every figure of `accuracy` is between 0 and the number of
characters of both texts together. -/
theorem c94_accuracy (U : Unicode) (t0 t1 : List Ch) (hv0 : ∀ c ∈ t0, c.value < 0x10FFFF) (hv1 : ∀ c ∈ t1, c.value < 0x110000) :
    ∃ r, fastukk_sync t0 t1 = .ok r ∧ accuracy U t0 t1 = process_synclist U t0 t1 r.items Accdata.zero ∧
      ∀ k, ∃ D, process_synclist U t0 t1 (r.items.take k) Accdata.zero = .ok D ∧ D.UpTo (t0.length + t1.length) := by
  obtain ⟨r, h1, h2, _, _⟩ := fastukk_spec t0 t1
  refine ⟨r, h1, by unfold accuracy; rw [h1]; rfl, fun k => ?_⟩
  exact prefix_spec U hv0 hv1 r.items 0 0 k Accdata.zero [] (by simpa using h2.width)
    (by simpa using h2.tiles 0 (by simp)) (by simpa using h2.tiles 1 (by simp)) (by simpa using pinv_zero) (by simp [Accdata.zero])

end Ocr.Acc

namespace Ocr.Edo
open Res Text Sync

/-- C94 (edit operations).  Every figure of `editop` is between 0 and the length of the longer text. -/
theorem c94_editop (a b : List Nat) (n : Nat) (ha : a.length ≤ n) (hb : b.length ≤ n) (hn : n < 2^62) :
    ∃ D, editop a b = .ok D ∧ D.UpTo n := by
  obtain ⟨r, D, ls, S, _, e, _, _, hm, hml, _, _, hle⟩ := c49_editop a b (by omega) (by omega)
  obtain ⟨D', e', hins, hdel⟩ := c56_differences a b
  rw [e] at e'
  cases e'
  have hd1 : ((a.filter (fun c => c ≠ 126)).diff b).length ≤ a.length :=
    le_trans (List.Sublist.length_le (List.diff_sublist _ _)) (List.length_filter_le _ _)
  have hd2 : (b.diff (a.filter (fun c => c ≠ 126))).length ≤ b.length :=
    List.Sublist.length_le (List.diff_sublist _ _)
  refine ⟨D, e, ⟨?_, ?_⟩, ⟨?_, ?_⟩, ⟨?_, ?_⟩, fun i => ?_⟩
  · omega
  · omega
  · omega
  · omega
  · omega
  · omega
  · have : ls.countP (fun l : Int => min l 100 = i) ≤ ls.length := List.countP_le_length
    unfold UpTo
    rw [hml i]; omega

end Ocr.Edo

namespace Ocr.Wordacc
open Res Wac

theorem tally_upTo (p : List Nat → Bool) (words : List (List Nat × Bool)) : (tally p words).UpTo words.length := by
  have h1 := List.countP_le_length (p := fun x : List Nat × Bool => p x.1) (l := words)
  have h2 : words.countP (fun x => p x.1 && !x.2) ≤ words.countP (fun x => p x.1) :=
    List.countP_mono_left (fun x _ h => by simp at h; simp [h.1])
  refine ⟨⟨?_, ?_⟩, ?_, ?_⟩ <;> simp only [tally] <;> omega

theorem distinct_upTo (lo hi : Nat) (E : List (List Nat)) (words : List (List Nat × Bool)) (hE : E.length ≤ words.length) :
    (tallyDistinct lo hi E words).UpTo words.length := by
  have h1 := List.countP_le_length (l := E)
    (p := fun w => decide (lo ≤ words.countP (fun x => x.1 = w)) && decide (words.countP (fun x => x.1 = w) ≤ hi))
  have h2 : E.countP (fun w => (decide (lo ≤ words.countP (fun x => x.1 = w)) && decide (words.countP (fun x => x.1 = w) ≤ hi)) &&
      words.all (fun x => !(decide (x.1 = w) && x.2))) ≤
      E.countP (fun w => decide (lo ≤ words.countP (fun x => x.1 = w)) && decide (words.countP (fun x => x.1 = w) ≤ hi)) :=
    List.countP_mono_left (fun x _ h => by rw [Bool.and_eq_true] at h; exact h.1)
  refine ⟨⟨?_, ?_⟩, ?_, ?_⟩ <;> simp only [tallyDistinct] <;> omega

theorem windows_upTo (L : Nat) (hL : 1 ≤ L) (flags : List Bool) : (windows L flags).UpTo flags.length := by
  have h1 := List.countP_le_length (l := List.range (flags.length + 1 - L))
    (p := fun i => ((flags.drop i).take L).any (fun r => !r))
  rw [List.length_range] at h1
  refine ⟨⟨?_, ?_⟩, ?_, ?_⟩ <;> simp only [windows] <;> omega

theorem zero_upTo (n : Nat) : (⟨0, 0⟩ : Wac).UpTo n := by
  refine ⟨⟨?_, ?_⟩, ?_, ?_⟩ <;> simp only <;> omega

theorem table_upTo {p : List Nat → Bool} {words : List (List Nat × Bool)} {table : List Term} (h : TableOf p words table) :
    ∀ t ∈ table, (⟨t.count, t.missed⟩ : Wac).UpTo words.length := by
  intro t ht
  obtain ⟨e1, e2⟩ := h.entry t ht
  have h1 := List.countP_le_length (p := fun x : List Nat × Bool => decide (x.1 = t.key)) (l := words)
  have h2 : words.countP (fun x => x.1 = t.key && !x.2) ≤ words.countP (fun x => x.1 = t.key) :=
    List.countP_mono_left (fun x _ h => by rw [Bool.and_eq_true] at h; exact h.1)
  refine ⟨⟨?_, ?_⟩, ?_, ?_⟩ <;> simp only <;> omega

/-- C94 (words).  Every count of `wordacc` is between 0 and the number of words of the correct text, and no more words are
missed than counted. -/
theorem c94_wordacc (stop : List Nat → Bool) (u v : List (List Nat)) (hw : ∀ w ∈ u, 1 ≤ w.length ∧ w.length ≤ 50)
    (hm : (u.filter (fun w => decide (w ∈ v))).length ≤ 65535) :
    ∃ D, wordacc stop u v = .ok D ∧ D.UpTo u.length := by
  obtain ⟨flags, D, _, hl, _, e, hD⟩ := c33_exact stop u v hw hm
  have hlen : (u.zip flags).length = u.length := by simp [hl]
  obtain ⟨words, hwd⟩ : ∃ words, words = u.zip flags := ⟨_, rfl⟩
  rw [← hwd] at hD hlen
  rw [← hlen]
  have hE : ∃ E : List (List Nat), E.Nodup ∧ (∀ w, w ∈ E ↔ w ∈ words.map (fun x => x.1) ∧ stop w = false) ∧
      E.length ≤ words.length := by
    refine ⟨((words.map (fun x => x.1)).filter (fun w => !stop w)).dedup, List.nodup_dedup _, ?_, ?_⟩
    · intro w; rw [List.mem_dedup, List.mem_filter]; simp
    · refine le_trans (List.Sublist.length_le (List.dedup_sublist _)) (le_trans (List.length_filter_le _ _) (by simp))
  obtain ⟨E, E1, E2, E3⟩ := hE
  obtain ⟨d0, d1, d11, dx⟩ := hD.distinct E E1 E2
  obtain ⟨p0, p1, px⟩ := hD.phrase
  refine ⟨D, e, ?_, ?_, ?_, ?_, ?_, table_upTo hD.table1, table_upTo hD.table2⟩
  · rw [hD.total]; exact tally_upTo _ _
  · intro i
    rcases Nat.eq_zero_or_pos i with rfl | hi
    · rw [hD.stop0]; exact tally_upTo _ _
    · rw [hD.stopL i hi]; exact tally_upTo _ _
  · intro i
    rcases Nat.eq_zero_or_pos i with rfl | hi
    · rw [hD.non0]; exact tally_upTo _ _
    · rw [hD.nonL i hi]; exact tally_upTo _ _
  · intro i
    rcases Nat.eq_zero_or_pos i with rfl | hi
    · rw [d0]; exact distinct_upTo _ _ _ _ E3
    · by_cases h10 : i ≤ 10
      · rw [d1 i hi h10]; exact distinct_upTo _ _ _ _ E3
      · by_cases h11 : i = 11
        · subst h11; rw [d11]; exact distinct_upTo _ _ _ _ E3
        · rw [dx i (by omega)]; exact zero_upTo _
  · intro i
    rcases Nat.eq_zero_or_pos i with rfl | hi
    · rw [p0]; exact zero_upTo _
    · by_cases h8 : i ≤ 8
      · rw [p1 i hi h8]
        have := windows_upTo i hi (words.map (fun x => x.2))
        rwa [List.length_map] at this
      · rw [px i (by omega)]; exact zero_upTo _

end Ocr.Wordacc

namespace Ocr.Ranges
open Res Text Sync Ocr.Acc Edo Report

/-- C94 (type).  If the texts have together fewer than 2^62 characters, no counter of `accuracy` and `editop` leaves the range
of the type `long`. -/
theorem c94_long (U : Unicode) (t0 t1 : List Ch) (hv0 : ∀ c ∈ t0, c.value < 0x10FFFF) (hv1 : ∀ c ∈ t1, c.value < 0x110000)
    (hs : t0.length + t1.length < 2^62) :
    (∃ D, accuracy U t0 t1 = .ok D ∧ IsLong D.characters ∧ IsLong D.errors ∧ IsLong D.reject_characters ∧
      IsLong D.suspect_markers ∧ IsLong D.false_marks ∧
      (∀ o ∈ [D.marked_ops, D.unmarked_ops, D.total_ops], IsLong o.ins ∧ IsLong o.subst ∧ IsLong o.del ∧ IsLong o.errors) ∧
      (∀ c, IsLong (D.large_class c).count ∧ IsLong (D.large_class c).missed) ∧
      (∀ v, IsLong (D.small_class v).count ∧ IsLong (D.small_class v).missed) ∧
      ∀ c ∈ D.conftable, IsLong c.errors ∧ IsLong c.marked) ∧
    ∃ D, editop (t0.map Ch.value) (t1.map Ch.value) = .ok D ∧ IsLong D.total_insertions ∧ IsLong D.total_deletions ∧
      IsLong D.total_moves ∧ ∀ i, IsLong (D.moves i) := by
  have key : ∀ x : Int, UpTo (t0.length + t1.length) x → IsLong x := by
    intro x h; unfold UpTo at h; unfold IsLong; omega
  constructor
  · obtain ⟨r, _, e, h⟩ := c94_accuracy U t0 t1 hv0 hv1
    obtain ⟨D, e', hD⟩ := h r.items.length
    rw [List.take_length, ← e] at e'
    refine ⟨D, e', key _ hD.characters, key _ hD.errors, key _ hD.reject_characters, key _ hD.suspect_markers,
      key _ hD.false_marks, ?_, fun c => ⟨key _ (hD.large_class c).1, key _ (hD.large_class c).2⟩,
      fun c => ⟨key _ (hD.small_class c).1, key _ (hD.small_class c).2⟩,
      fun c hc => ⟨key _ (hD.conftable c hc).1, key _ (hD.conftable c hc).2⟩⟩
    have ho : ∀ o : Accops, o.UpTo (t0.length + t1.length) → IsLong o.ins ∧ IsLong o.subst ∧ IsLong o.del ∧ IsLong o.errors :=
      fun o h => ⟨key _ h.1, key _ h.2.1, key _ h.2.2.1, key _ h.2.2.2⟩
    intro o hm
    simp only [List.mem_cons, List.not_mem_nil, or_false] at hm
    rcases hm with rfl | rfl | rfl
    · exact ho _ hD.marked_ops
    · exact ho _ hD.unmarked_ops
    · exact ho _ hD.total_ops
  · obtain ⟨D, e, hD⟩ := c94_editop (t0.map Ch.value) (t1.map Ch.value) (t0.length + t1.length) (by simp) (by simp) hs
    exact ⟨D, e, key _ hD.insertions, key _ hD.deletions, key _ hD.total, fun i => key _ (hD.moves i)⟩

/-! ## Non-vacuity -/

/-- The bounds are attained: nothing against a text of three characters, and three words not recognized. -/
example : (accuracy ⟨fun _ => .LL, id⟩ [] [⟨false, 97⟩, ⟨false, 98⟩, ⟨false, 99⟩]).bind
    (fun D => .ok (D.errors, D.unmarked_ops.del)) = .ok (3, 3) := by decide +kernel

example : (accuracy ⟨fun _ => .LL, id⟩ [⟨false, 97⟩, ⟨false, 98⟩] [⟨true, 97⟩, ⟨false, 99⟩]).bind
    (fun D => .ok (D.characters, D.errors, D.suspect_markers, D.false_marks, (D.small_class 98).missed)) =
      .ok (2, 1, 1, 1, 1) := by decide +kernel

example : (editop (ascii "abXc") (ascii "cYab")).bind
    (fun D => .ok (D.total_insertions, D.total_deletions, D.total_moves, D.moves 1)) = .ok (1, 1, 1, 1) := by decide +kernel

example : (Wordacc.wordacc (fun w => w == ascii "the") [ascii "the", ascii "cat", ascii "cat"] [ascii "dog"]).bind
    (fun D => .ok (D.total, D.stopword 0, D.distinct_non_stopword 2, D.phrase 1)) =
      .ok (⟨3, 3⟩, ⟨1, 1⟩, ⟨1, 1⟩, ⟨3, 3⟩) := by decide +kernel

end Ocr.Ranges
