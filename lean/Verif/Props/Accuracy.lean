import Verif.Proof.Accuracy
import Verif.Props.Sync
import Verif.Props.Text

/-!
# C21-C25: the accuracy program
-/

namespace Ocr.Acc
open Text Sync Charclass Res

/-- All characters have an element in the class tables. -/
def InTables (text : List Ch) : Prop := ∀ c ∈ text, c.value < 0x10FFFF

/-- All characters are code points. -/
def CodePoints (text : List Ch) : Prop := ∀ c ∈ text, c.value < 0x110000

theorem countP_range_sum (N : Nat) (f : Nat → Res Nat) (vs : List Nat) (h : ∀ v ∈ vs, ∃ c, c < N ∧ f v = .ok c) :
    ((List.range N).map (fun c => ((vs.countP (fun v => decide (f v = .ok c)) : Nat) : Int))).sum = vs.length := by
  induction vs with
  | nil => simp
  | cons v vs ih =>
    obtain ⟨c, hc, e⟩ := h v (by simp)
    have step : ∀ k : Nat, ((List.range k).map (fun c' => (((v :: vs).countP (fun v => decide (f v = .ok c')) : Nat) : Int))).sum =
        ((List.range k).map (fun c' => ((vs.countP (fun v => decide (f v = .ok c')) : Nat) : Int))).sum + if c < k then 1 else 0 := by
      intro k
      induction k with
      | zero => simp
      | succ k ihk =>
        rw [List.range_succ, List.map_append, List.sum_append, ihk]
        simp only [List.map_append, List.sum_append, List.map_cons, List.map_nil, List.sum_cons,
          List.sum_nil, List.countP_cons, e, Res.ok.injEq, decide_eq_true_eq]
        by_cases h1 : c = k
        · subst h1; simp; omega
        · have : (c < k + 1) ↔ c < k := by omega
          simp [h1, this]; omega
    rw [step, if_pos hc, ih (fun v hv => h v (by simp [hv]))]
    simp

/-- C21.  For all texts (the correct one without U+10FFFF) the program ends normally with consistent figures. -/
theorem c21_consistent (U : Unicode) (t0 t1 : List Ch) (h0 : InTables t0) (h1 : CodePoints t1) :
    ∃ D, accuracy U t0 t1 = .ok D ∧ Consistent t0 t1 D := by
  obtain ⟨D, r, e, P, _, _⟩ := accuracy_spec U t0 t1 h0 h1
  refine ⟨D, e, ?_⟩
  have hin : ∀ v ∈ nonreject t0, ∃ c, c < 256 ∧ charclass v = .ok c := by
    intro v hv
    simp only [nonreject, List.mem_filter, List.mem_map] at hv
    obtain ⟨⟨c, hc, rfl⟩, _⟩ := hv
    obtain ⟨k, e, hk, _⟩ := c15_class _ (h0 c hc)
    exact ⟨k, hk, e⟩
  have ht := P.total
  have T := P.tallied
  obtain ⟨m1, m2, m3, m4⟩ := P.marked
  obtain ⟨u1, u2, u3, u4⟩ := P.unmarked
  exact
    { characters := P.characters
      rejects := P.rejects
      suspects := P.suspects
      false_lo := P.false_lo
      false_hi := P.false_hi
      errors := P.errors
      marked := P.marked
      unmarked := P.unmarked
      total := by rw [ht]; simp only [add_ops, Accops.Sound]; omega
      ins := by rw [ht]; rfl
      subst := by rw [ht]; rfl
      del := by rw [ht]; rfl
      small := fun v => by rw [T.small]
      large := fun c => by rw [T.large]
      all := by rw [T.total, P.characters]
      missed := by rw [T.total]; have := P.missed; simpa using this
      small_ok := fun v => by
        rw [T.small]; simp only [Accclass.Sound]
        have := P.sub.count_le v; omega
      large_ok := fun c => by
        rw [T.large]; simp only [Accclass.Sound]
        have := P.sub.countP_le (p := fun v => decide (charclass v = .ok c)); omega
      all_ok := by
        rw [T.total]; simp only [Accclass.Sound]
        have := P.sub.length_le; omega
      sum_count := by
        rw [T.total]; simp only [T.large]
        exact countP_range_sum 256 _ _ hin
      sum_missed := by
        rw [T.total]; simp only [T.large]
        exact countP_range_sum 256 _ _ (fun v hv => hin v (P.sub.subset hv)) }

/-- The items and what they give. -/
theorem accuracy_items (U : Unicode) (t0 t1 : List Ch) (h0 : InTables t0) (h1 : CodePoints t1) :
    ∃ D items, accuracy U t0 t1 = .ok D ∧ IsAlignment [values t0, values t1] items ∧
      (∃ d : Nat, cost items = d ∧ IsEditDistance (values t0) (values t1) d) ∧ Reported t0 t1 items D ∧
      process_synclist U t0 t1 items Accdata.zero = .ok D := by
  obtain ⟨D, r, e, P, hf, hadd⟩ := accuracy_spec U t0 t1 h0 h1
  obtain ⟨r', hf', hA, _, hc⟩ := fastukk_spec t0 t1
  have : r' = r := by rw [hf] at hf'; exact (Res.ok.inj hf').symm
  subst this
  have hz : ∀ o : Accops, add_ops ⟨0, 0, 0, 0⟩ o = o := by intro o; simp [add_ops]
  refine ⟨D, r'.items, e, hA, ⟨_, hc, lev_isEditDistance _ _⟩, ⟨?_, ?_, ?_, ?_, ?_, ?_⟩, ?_⟩
  · rw [hadd.errors]; simp [Accdata.zero]
  · rw [hadd.marked, foldl_ops]; exact hz _
  · rw [hadd.unmarked, foldl_ops]; exact hz _
  · rw [hadd.false_marks]; simp [Accdata.zero]
  · intro v; rw [P.tallied.small]
  · intro v; rw [P.tallied.large]
  · unfold accuracy at e
    rw [hf, bind_ok] at e
    exact e

/-- C21, continued: the figures are those of an optimal alignment of the two texts. -/
theorem c21_exact (U : Unicode) (t0 t1 : List Ch) (h0 : InTables t0) (h1 : CodePoints t1) :
    ∃ D items, accuracy U t0 t1 = .ok D ∧ IsAlignment [values t0, values t1] items ∧
      (∃ d : Nat, cost items = d ∧ IsEditDistance (values t0) (values t1) d) ∧ Reported t0 t1 items D := by
  obtain ⟨D, items, e, hA, hc, hR, _⟩ := accuracy_items U t0 t1 h0 h1
  exact ⟨D, items, e, hA, hc, hR⟩

/-- C21, the exception: a correct text with U+10FFFF makes the program access elements outside of its tables. -/
theorem c21_last (U : Unicode) (t0 t1 : List Ch) (h0 : CodePoints t0) (h1 : CodePoints t1)
    (hx : ∃ c ∈ t0, c.value = 0x10FFFF) : accuracy U t0 t1 = .ub := by
  obtain ⟨r, h1', h2, _, _⟩ := fastukk_spec t0 t1
  unfold accuracy
  rw [h1', bind_ok]
  rcases process_last U h0 h1 r.items 0 0 Accdata.zero (by simpa using h2.width)
    (by simpa using h2.tiles 0 (by simp)) (by simpa using h2.tiles 1 (by simp)) with ⟨D, _, h⟩ | e
  · obtain ⟨c, hc, hv⟩ := hx
    exact absurd hv (h c (by simpa using hc))
  · exact e

/-- C22.  If the correct text contains no reject character, the number of errors is the edit distance. -/
theorem c22_edit_distance (U : Unicode) (t0 t1 : List Ch) (h0 : InTables t0) (h1 : CodePoints t1)
    (hr : ∀ c ∈ t0, c.value ≠ REJECT_CHARACTER) :
    ∃ D, ∃ d : Nat, accuracy U t0 t1 = .ok D ∧ D.errors = d ∧ IsEditDistance (values t0) (values t1) d := by
  obtain ⟨D, r, e, P, hf, hadd⟩ := accuracy_spec U t0 t1 h0 h1
  obtain ⟨r', hf', hA, _, hc⟩ := fastukk_spec t0 t1
  have : r' = r := by rw [hf] at hf'; exact (Res.ok.inj hf').symm
  subst this
  refine ⟨D, _, e, ?_, lev_isEditDistance _ _⟩
  have he := hadd.errors
  simp only [Accdata.zero, Int.zero_add] at he
  rw [he, show lev (values t0) (values t1) = lev (t0.map Ch.value) (t1.map Ch.value) from rfl, ← hc]
  unfold cost
  congr 1
  refine List.map_congr_left ?_
  intro s hs
  have tl : ∀ (l : List Sync) (t : Nat) (p q : Int), 0 ≤ p → Tiles p (l.map (·.sub t)) q → s ∈ l →
      0 ≤ (s.sub t).start ∧ 0 ≤ (s.sub t).length ∧ (s.sub t).start + (s.sub t).length ≤ q := by
    intro l t
    induction l with
    | nil => intro p q _ _ h; simp at h
    | cons x l ih =>
      intro p q hp h hs
      simp only [List.map_cons, Tiles] at h
      rcases List.mem_cons.1 hs with rfl | hs
      · have := tiles_le h.2.2.2; omega
      · exact ih _ _ (by omega) h.2.2.2 hs
  obtain ⟨a1, a2, a3⟩ := tl _ 0 0 _ (by omega) (hA.tiles 0 (by simp)) hs
  obtain ⟨b1, b2, b3⟩ := tl _ 1 0 _ (by omega) (hA.tiles 1 (by simp)) hs
  have hn : (nonreject (piece t0 (s.sub 0))).length = (s.sub 0).length.toNat := by
    unfold nonreject
    rw [List.filter_eq_self.2]
    · simp only [List.length_map, piece, List.length_take, List.length_drop]
      simp at a3; omega
    · intro v hv
      obtain ⟨c, hc, rfl⟩ := List.mem_map.1 hv
      simpa using hr c (List.mem_of_mem_drop (List.mem_of_mem_take hc))
  unfold itemErrors
  rw [hn]
  cases s.mtch with
  | some q => simp
  | none => simp; omega

theorem edits_zero {a b : List Nat} (h : Edits a b 0) : a = b := by
  generalize e : (0 : Nat) = n at h
  induction h with
  | nil => rfl
  | keep c _ _ ih => rw [ih e]
  | _ => omega

/-- C23.  When the correct text contains no reject character there are no errors exactly if the texts are the same (so the
generated text has no reject character either). -/
theorem c23_zero_errors (U : Unicode) (t0 t1 : List Ch) (h0 : InTables t0) (h1 : CodePoints t1)
    (hr0 : ∀ c ∈ t0, c.value ≠ REJECT_CHARACTER) :
    ∃ D, accuracy U t0 t1 = .ok D ∧ (D.errors = 0 ↔ values t0 = values t1) := by
  obtain ⟨D, d, e, he, hd⟩ := c22_edit_distance U t0 t1 h0 h1 hr0
  refine ⟨D, e, ?_⟩
  rw [he]
  constructor
  · intro h
    have : d = 0 := by omega
    subst this
    exact edits_zero hd.1
  · intro h
    have hs : Edits (values t0) (values t1) 0 := by
      rw [← h]
      refine edits_same ?_
      intro hm
      obtain ⟨c, hc, hv⟩ := List.mem_map.1 hm
      exact hr0 c hc hv
    have := hd.2 0 hs
    omega

/-- C24.  The confusions have distinct keys and positive counts, their errors sum up to the number of errors, and their
marked errors to the number of marked errors. -/
theorem c24_confusions (U : Unicode) (t0 t1 : List Ch) (h0 : InTables t0) (h1 : CodePoints t1) :
    ∃ D, accuracy U t0 t1 = .ok D ∧ (D.conftable.map (·.errors)).sum = D.errors ∧
      (D.conftable.map (·.marked)).sum = D.marked_ops.errors ∧ (D.conftable.map (·.key)).Nodup ∧
      ∀ c ∈ D.conftable, 0 < c.errors ∧ 0 ≤ c.marked ∧ c.marked ≤ c.errors := by
  obtain ⟨D, r, e, P, _, _⟩ := accuracy_spec U t0 t1 h0 h1
  exact ⟨D, e, P.conf_err, P.conf_mark, P.conf_keys, P.conf_ok⟩

/-- C25.  Whatever the confused substrings, no buffer is overrun: the key is built, and with its terminating NUL it takes
at most 61 of the 100 bytes. -/
theorem c25_keys (U : Unicode) (t0 t1 : List Ch) (h0 : CodePoints t0) (h1 : CodePoints t1) (sync : Sync)
    (hl : sync.substr.length = 2) (w0 : Within (sync.sub 0) t0.length) (w1 : Within (sync.sub 1) t1.length) :
    ∃ key, make_key U t0 t1 sync = .ok key ∧ key.length + 1 ≤ 61 := by
  obtain ⟨ss, mt⟩ := sync
  match ss, hl with
  | [s0, s1], _ =>
    simp only [Sync.sub] at w0 w1
    obtain ⟨b0, e0, l0⟩ := display_spec U h0 (s := s0) (by simpa using w0)
    obtain ⟨b1, e1, l1⟩ := display_spec U h1 (s := s1) (by simpa using w1)
    unfold make_key
    simp only [rd, List.getElem?_cons_zero, List.getElem?_cons_succ, bind_ok, e0, e1]
    have : (ascii "{").length = 1 ∧ (ascii "}-{").length = 3 ∧ (ascii "}\n").length = 2 := by decide
    rw [if_pos]
    · refine ⟨_, rfl, ?_⟩
      simp only [List.length_append, MAX_DISPLAY] at *; omega
    · simp only [List.length_append, MAX_DISPLAY] at *; omega

/-! Non-vacuity: "ab~d" recognized as "xb^cd" with a marked c and an extra character. -/

def sampleCorrect : List Ch := sampleText "kit~ten"
def sampleGenerated : List Ch := [⟨false, 115⟩, ⟨true, 105⟩, ⟨false, 116⟩, ⟨false, 116⟩, ⟨true, 120⟩, ⟨false, 126⟩, ⟨false, 110⟩]

example : InTables sampleCorrect ∧ CodePoints sampleGenerated := by
  exact ⟨by unfold InTables; decide +kernel, by unfold CodePoints; decide +kernel⟩
example : ∃ c ∈ sampleText "a" ++ [⟨false, 0x10FFFF⟩], c.value = 0x10FFFF := by decide +kernel
example : make_key sampleUnicode sampleCorrect sampleGenerated ⟨[⟨0, 6, 7⟩, ⟨1, 1, 1⟩], none⟩ = .ok (ascii "{kit~ten}-{i}\n") := by
  decide +kernel
example : make_key sampleUnicode (sampleText "abcdefghijklmnopqrstuvwxyz") sampleGenerated ⟨[⟨0, 25, 26⟩, ⟨1, 1, 1⟩], none⟩ =
    .ok (ascii "{abcdefghijklmnopqrstuvwx...}-{i}\n") := by
  decide +kernel
example : itemErrors sampleCorrect ⟨[⟨0, 6, 7⟩, ⟨1, 1, 1⟩], none⟩ = 6 := by decide +kernel

end Ocr.Acc
