import Verif.Spec.Majority
import Verif.Proof.Alike
import Verif.Proof.Vote
import Verif.Proof.VoteSelect

/-!
# A majority wins
-/

namespace Ocr.Vote
open Text Sync Res

/-! ## One region -/

theorem tally_split {β : Type} (cfg : Config) (b : β → Option Ch) (P : β → Bool) (lo : Int) (x : Option Nat) : ∀ L : List β,
    (∀ p ∈ L, P p = true → proposal (b p) = some x ∧ lo ≤ weight cfg (b p)) →
    (∀ p ∈ L, 0 ≤ weight cfg (b p) ∧ weight cfg (b p) ≤ cfg.unmarked_weight) →
    lo * L.countP P ≤ tally cfg (L.map b) x ∧
      ∀ y, y ≠ x → tally cfg (L.map b) y ≤ cfg.unmarked_weight * L.countP (fun p => !P p) := by
  intro L
  induction L with
  | nil => intro _ _; exact ⟨by simp [tally], fun y _ => by simp [tally]⟩
  | cons p L ih =>
    intro h1 h2
    obtain ⟨i1, i2⟩ := ih (fun q hq => h1 q (by simp [hq])) (fun q hq => h2 q (by simp [hq]))
    have hw := h2 p (by simp)
    have e : ∀ y, tally cfg ((p :: L).map b) y = (if proposal (b p) = some y then weight cfg (b p) else 0) + tally cfg (L.map b) y := by
      intro y
      rw [List.map_cons, show b p :: L.map b = [b p] ++ L.map b from rfl, tally_append, tally_single]
    constructor
    · rw [e]
      by_cases hp : P p = true
      · obtain ⟨k1, k2⟩ := h1 p (by simp) hp
        rw [List.countP_cons_of_pos hp, if_pos k1]
        push_cast
        rw [Int.mul_add]
        omega
      · rw [List.countP_cons_of_neg hp]
        split <;> omega
    · intro y hy
      have i2 := i2 y hy
      rw [e]
      by_cases hp : P p = true
      · obtain ⟨k1, k2⟩ := h1 p (by simp) hp
        rw [List.countP_cons_of_neg (by simp [hp]), if_neg (by rw [k1]; intro e'; exact hy (Option.some.inj e').symm)]
        omega
      · rw [List.countP_cons_of_pos (by simp [hp])]
        push_cast
        rw [Int.mul_add]
        split <;> omega

/-- Whoever is outvoted is not elected. -/
theorem elected_heavy {cfg : Config} {bs : List (Option Ch)} {x y : Option Nat} (h : Elected cfg bs y) (hx : ∃ b ∈ bs, proposal b = some x)
    (hm : ∀ z, z ≠ x → tally cfg bs z < tally cfg bs x) : y = x := by
  by_contra hne
  obtain ⟨pre, b, post, e, hb, h1, h2⟩ := h
  obtain ⟨c, hc, hpc⟩ := hx
  have hlt := hm y hne
  rw [e] at hc
  rcases List.mem_append.1 hc with hc | hc
  · have := h1 c hc x hpc; omega
  · rcases List.mem_cons.1 hc with rfl | hc
    · rw [hb] at hpc; exact hne (Option.some.inj hpc)
    · have := h2 c hc x hpc; omega

/-- The voters in `P` have the same string in a region and outweigh the others: their string is the result. -/
theorem region_heavy {β : Type} {cfg : Config} (L : List β) (f : β → List Ch) (P : β → Bool) (lo : Int) {w : List Nat} {out : List Ch}
    (h : RegionVote cfg (L.map f) out) (hw : ∀ p ∈ L, P p = true → (f p).map Ch.value = w) (hr : 126 ∉ w)
    (hs : 0 ≤ cfg.suspect_weight ∧ cfg.suspect_weight ≤ cfg.unmarked_weight) (hlo : lo ≤ cfg.unmarked_weight)
    (hmine : ∀ p ∈ L, P p = true → ∀ c ∈ f p, lo ≤ weight cfg (some c))
    (hmaj : cfg.unmarked_weight * L.countP (fun p => !P p) < lo * L.countP P) : out.map Ch.value = w := by
  have hsome : ∃ p ∈ L, P p = true := by
    rw [← List.countP_pos_iff]
    rcases Nat.eq_zero_or_pos (L.countP P) with h0 | h0
    · rw [h0] at hmaj
      have : 0 ≤ cfg.unmarked_weight * (L.countP (fun p => !P p) : Int) := Int.mul_nonneg (by omega) (by omega)
      simp only [Int.natCast_zero, Int.mul_zero] at hmaj
      omega
    · exact h0
  have hwt : ∀ b : Option Ch, 0 ≤ weight cfg b ∧ weight cfg b ≤ cfg.unmarked_weight := by
    intro b; cases b with
    | none => exact ⟨by show 0 ≤ cfg.unmarked_weight; omega, Int.le_refl _⟩
    | some c => unfold weight; simp only; split <;> omega
  have hprop : ∀ k : Nat, ∀ p ∈ L, P p = true → proposal ((f p)[k]?) = some (w[k]?) ∧ lo ≤ weight cfg ((f p)[k]?) := by
    intro k p hp hP
    have e := hw p hp hP
    rw [← e, List.getElem?_map]
    cases hk : (f p)[k]? with
    | none => exact ⟨rfl, hlo⟩
    | some c =>
      have hc := List.mem_of_getElem? hk
      refine ⟨?_, hmine p hp hP c hc⟩
      show (if c.value = 126 then none else some (some c.value)) = _
      rw [if_neg]
      · rfl
      · intro e'
        exact hr (e ▸ List.mem_map.2 ⟨c, hc, e'⟩)
  have hb : ∀ k, ballots (L.map f) k = L.map (fun p => (f p)[k]?) := by
    intro k; simp [ballots]
  have hel : ∀ k y, Elected cfg (ballots (L.map f) k) y → y = w[k]? := by
    intro k y he
    rw [hb] at he
    obtain ⟨t1, t2⟩ := tally_split cfg (fun p => (f p)[k]?) P lo (w[k]?) L (hprop k) (fun p _ => hwt _)
    obtain ⟨p, hp, hP⟩ := hsome
    refine elected_heavy he ⟨_, List.mem_map.2 ⟨p, hp, rfl⟩, (hprop k p hp hP).1⟩ ?_
    intro z hz
    have := t2 z hz
    omega
  have hround : ∀ (k : Nat) (c : Ch), out[k]? = some c → w[k]? = some c.value := by
    intro k c hk
    rcases h.round k c hk with ⟨_, h0⟩ | ⟨he, _⟩
    · exfalso
      obtain ⟨p, hp, hP⟩ := hsome
      have h1 := h0 ((f p)[k]?) (by rw [hb]; exact List.mem_map.2 ⟨p, hp, rfl⟩)
      rw [(hprop k p hp hP).1] at h1
      cases h1
    · exact (hel k _ he).symm
  have hstop := hel _ _ h.stop
  have hl := List.getElem?_eq_none_iff.1 hstop.symm
  apply List.ext_getElem?
  intro k
  rw [List.getElem?_map]
  cases hk : out[k]? with
  | none =>
    have := List.getElem?_eq_none_iff.1 hk
    rw [List.getElem?_eq_none (by omega)]
    rfl
  | some c => rw [hround k c hk]; rfl

/-! ## All regions -/

theorem tiles_pieces {α : Type} (text : List α) : ∀ (l : List Substr) (p : Nat), Tiles p l text.length →
    (l.map (piece text)).flatten = text.drop p := by
  intro l
  induction l with
  | nil =>
    intro p h
    simp only [Tiles] at h
    have : p = text.length := by omega
    simp [this]
  | cons s l ih =>
    intro p h
    simp only [Tiles] at h
    obtain ⟨h1, _, h3, h4⟩ := h
    have := ih (p + s.length.toNat) (by rw [show ((p + s.length.toNat : Nat) : Int) = p + s.length by omega]; exact h4)
    rw [List.map_cons, List.flatten_cons, this]
    unfold piece
    rw [h1, Int.toNat_natCast, ← List.drop_drop, List.take_append_drop]

theorem regions_values {cfg : Config} {texts : List (List Ch)} (g : Sync → List Nat) : ∀ {items : List Sync} {outs : List (List Ch)},
    List.Forall₂ (fun s out => RegionVote cfg (strings texts s) out) items outs →
    (∀ s ∈ items, ∀ out, RegionVote cfg (strings texts s) out → out.map Ch.value = g s) →
    outs.flatten.map Ch.value = (items.map g).flatten := by
  intro items outs h
  induction h with
  | nil => intro _; rfl
  | cons h1 _ ih =>
    intro hall
    rw [List.flatten_cons, List.map_append, hall _ (by simp) _ h1, ih (fun s hs => hall s (by simp [hs]))]
    rfl

/-- The voters with an index in `S` have the same text, are split alike and outweigh the others: their text is the result. -/
theorem heavy_vote (cfg : Config) (texts : List (List Ch)) (v : List Nat) (h2 : 2 ≤ texts.length) (h16 : texts.length ≤ 16)
    (S : Nat → Bool) (hS : Stable (fun i => S i = true)) (hsame : ∀ i t, S i = true → texts[i]? = some t → t.map Ch.value = v) (hr : 126 ∉ v)
    (hs : 0 ≤ cfg.suspect_weight ∧ cfg.suspect_weight ≤ cfg.unmarked_weight) (lo : Int) (hlo : lo ≤ cfg.unmarked_weight)
    (hmine : ∀ i t, S i = true → texts[i]? = some t → ∀ c ∈ t, lo ≤ weight cfg (some c))
    (hmaj : cfg.unmarked_weight * texts.zipIdx.countP (fun p => !S p.2) < lo * texts.zipIdx.countP (fun p => S p.2)) :
    ∃ r out, synchronize (texts.map (·.map Ch.value)) = .ok r ∧ perform_vote cfg texts (rounds texts) r.items [] = .ok out ∧
      out.map Ch.value = v := by
  obtain ⟨r, e, ha, _, g⟩ := synchronize_spec (texts.map (·.map Ch.value)) (by simpa [MIN_STREAMS] using h2) (by simpa [MAX_STREAMS] using h16)
  obtain ⟨outs, e2, hv⟩ := perform_spec cfg texts (by rintro rfl; simp at h2) h16 r.items [] (alignment_bounds ha)
  refine ⟨r, outs.flatten, e, by simpa using e2, ?_⟩
  have hget : ∀ i t, (texts.map (·.map Ch.value))[i]? = some t → S i = true → t = v := by
    intro i t hi hSi
    rw [List.getElem?_map, Option.map_eq_some_iff] at hi
    obtain ⟨t', ht', rfl⟩ := hi
    exact hsame i t' hSi ht'
  have hal := g.alike hS (fun i k x y hi hk hx hy => by rw [hget i x hx hi, hget k y hy hk])
    (fun i q hi hq => by rw [hget i q hq hi]; exact hr)
  obtain ⟨p0, hp0, hS0⟩ : ∃ p ∈ texts.zipIdx, S p.2 = true := by
    rw [← List.countP_pos_iff (p := fun p : List Ch × Nat => S p.2)]
    rcases Nat.eq_zero_or_pos (texts.zipIdx.countP (fun p => S p.2)) with h0 | h0
    · rw [h0] at hmaj
      have : 0 ≤ cfg.unmarked_weight * (texts.zipIdx.countP (fun p => !S p.2) : Int) := Int.mul_nonneg (by omega) (by omega)
      simp only [Int.natCast_zero, Int.mul_zero] at hmaj
      omega
    · exact h0
  have hzip : ∀ p ∈ texts.zipIdx, texts[p.2]? = some p.1 := by
    intro p hp
    have := List.mem_zipIdx' hp
    rw [List.getElem?_eq_getElem this.1]
    exact congrArg some this.2.symm
  have hg0 := hzip p0 hp0
  have hv0 := hsame p0.2 p0.1 hS0 hg0
  have hpc : ∀ s ∈ r.items, ∀ p ∈ texts.zipIdx,
      (List.zipWith piece (texts.map (·.map Ch.value)) s.substr)[p.2]? = some ((piece p.1 (s.sub p.2)).map Ch.value) := by
    intro s hs' p hp
    have hw := ha.width s hs'
    rw [List.length_map] at hw
    have hl := (List.mem_zipIdx' hp).1
    rw [List.getElem?_zipWith, List.getElem?_map, hzip p hp, List.getElem?_eq_getElem (by omega)]
    simp [piece, Sync.sub, List.getD_eq_getElem?_getD, List.getElem?_eq_getElem (show p.2 < s.substr.length by omega)]
  rw [regions_values (fun s => piece v (s.sub p0.2)) hv]
  · have hT := ha.tiles p0.2 (by have := (List.mem_zipIdx' hp0).1; simpa using this)
    have e3 : (texts.map (·.map Ch.value))[p0.2]'(by have := (List.mem_zipIdx' hp0).1; simpa using this) = v := by
      rw [List.getElem_map, ← (List.mem_zipIdx' hp0).2, hv0]
    rw [e3] at hT
    have := tiles_pieces v _ 0 hT
    rw [List.map_map] at this
    simpa [Function.comp_def] using this
  · intro s hs' out hreg
    have hA := hal (s.mtch.isSome, List.zipWith piece (texts.map (·.map Ch.value)) s.substr) (by
      unfold groups
      exact List.mem_map.2 ⟨s, hs', rfl⟩)
    unfold strings at hreg
    refine region_heavy texts.zipIdx _ (fun p => S p.2) lo hreg ?_ ?_ hs hlo ?_ hmaj
    · intro p hp hSp
      have := hA p.2 p0.2 _ _ hSp hS0 (hpc s hs' p hp) (hpc s hs' p0 hp0)
      rw [this, ← hv0]
      simp [piece, List.map_take, List.map_drop]
    · exact fun hm => hr (List.mem_of_mem_drop (List.mem_of_mem_take hm))
    · intro p hp hSp c hc
      exact hmine p.2 p.1 hSp (hzip p hp) c (List.mem_of_mem_drop (List.mem_of_mem_take hc))

/-! ## Optimization -/

theorem sorted_majority {l : List Int} (hs : l.Pairwise (fun x y => x ≤ y)) {c : Int} (hc : l.length < 2 * l.count c) {m : Nat}
    (h1 : l.length ≤ 2 * (m + 1)) (h2 : 2 * m ≤ l.length) : l[m]? = some c := by
  have hle : l.count c ≤ l.length := List.count_le_length
  have hm : m < l.length := by omega
  rw [List.getElem?_eq_getElem hm]
  refine congrArg some ?_
  rw [List.pairwise_iff_getElem] at hs
  rcases Int.lt_trichotomy l[m] c with h | h | h
  · exfalso
    have e := congrArg (List.count c) (List.take_append_drop (m + 1) l)
    rw [List.count_append] at e
    have z : (l.take (m + 1)).count c = 0 := by
      rw [List.count_eq_zero]
      intro hmem
      obtain ⟨i, hi, e'⟩ := List.mem_iff_getElem.1 hmem
      rw [List.length_take] at hi
      rw [List.getElem_take] at e'
      rcases Nat.lt_or_eq_of_le (show i ≤ m by omega) with hlt | rfl
      · have := hs i m (by omega) hm hlt
        omega
      · omega
    have := List.count_le_length (a := c) (l := l.drop (m + 1))
    rw [List.length_drop] at this
    omega
  · exact h
  · exfalso
    have e := congrArg (List.count c) (List.take_append_drop m l)
    rw [List.count_append] at e
    have z : (l.drop m).count c = 0 := by
      rw [List.count_eq_zero]
      intro hmem
      obtain ⟨i, hi, e'⟩ := List.mem_iff_getElem.1 hmem
      rw [List.length_drop] at hi
      rw [List.getElem_drop] at e'
      rcases Nat.eq_zero_or_pos i with rfl | hlt
      · simp only [Nat.add_zero] at e'
        omega
      · have := hs m (m + i) hm (by omega) (by omega)
        omega
    have := List.count_le_length (a := c) (l := l.take m)
    rw [List.length_take] at this
    omega

/-- What most have is the median. -/
theorem median_majority {l : List Int} {c : Int} (hc : l.length < 2 * l.count c) : median2 l = 2 * c := by
  have hp := List.perm_insertionSort (· ≤ ·) l
  have hs : (l.insertionSort (· ≤ ·)).Pairwise (fun x y => x ≤ y) := List.pairwise_insertionSort (· ≤ ·) l
  have hl := hp.length_eq
  have hcnt := hp.count_eq c
  unfold median2
  simp only [List.getD_eq_getElem?_getD]
  rw [sorted_majority hs (c := c) (by omega) (m := (l.length - 1) / 2) (by omega) (by omega),
    sorted_majority hs (c := c) (by omega) (m := l.length / 2) (by omega) (by omega)]
  simp only [Option.getD_some]
  omega

theorem digrams_values {t : List Ch} {v : List Nat} (h : t.map Ch.value = v) : digrams t = v.zip v.tail := by
  unfold digrams
  rw [h]

theorem expected_majority {texts : List (List Ch)} {v : List Nat} (hm : Majority texts v) (hr : 126 ∉ v) (d : Nat × Nat) :
    expected2 texts d = 2 * ((v.zip v.tail).count d : Int) := by
  unfold expected2
  split
  · rename_i h
    rw [List.count_eq_zero.2]
    · rfl
    · intro hmem
      have := List.of_mem_zip (a := d.1) (b := d.2) hmem
      rcases h with h | h
      · exact hr (h ▸ this.1)
      · exact hr (h ▸ List.mem_of_mem_tail this.2)
  · apply median_majority
    unfold Majority at hm
    rw [List.length_map, List.count_eq_countP, List.countP_map]
    refine Nat.lt_of_lt_of_le hm ?_
    rw [← List.countP_eq_length_filter]
    refine Nat.mul_le_mul_left 2 (List.countP_mono_left ?_)
    intro t _ ht
    have ht := of_decide_eq_true ht
    simp [digrams_values ht]

theorem distance_zero {texts : List (List Ch)} {v : List Nat} (hm : Majority texts v) (hr : 126 ∉ v) {t : List Ch}
    (ht : t.map Ch.value = v) : distance2 texts t = 0 := by
  unfold distance2
  have : ∀ l : List (Nat × Nat), (l.map (fun d => ((2 * ((digrams t).count d : Int) - expected2 texts d).natAbs : Int))).sum = 0 := by
    intro l
    induction l with
    | nil => rfl
    | cons d l ih =>
      rw [List.map_cons, List.sum_cons, ih, expected_majority hm hr, digrams_values ht]
      omega
  exact this _

theorem distance_pos {texts : List (List Ch)} {v : List Nat} (hm : Majority texts v) (hr : 126 ∉ v) {t : List Ch} (hmem : t ∈ texts)
    (ht : ¬ (digrams t).Perm (v.zip v.tail)) : 0 < distance2 texts t := by
  rw [List.perm_iff_count] at ht
  push Not at ht
  obtain ⟨d, hd⟩ := ht
  have hin : d ∈ (texts.flatMap digrams).dedup := by
    rw [List.mem_dedup, List.mem_flatMap]
    by_cases h0 : d ∈ digrams t
    · exact ⟨t, hmem, h0⟩
    · rw [List.count_eq_zero.2 h0] at hd
      have hv : d ∈ v.zip v.tail := by
        by_contra hc
        rw [List.count_eq_zero.2 hc] at hd
        exact hd rfl
      unfold Majority at hm
      obtain ⟨t', ht'⟩ := List.exists_mem_of_length_pos (l := texts.filter (fun t => t.map Ch.value = v)) (by omega)
      rw [List.mem_filter, decide_eq_true_iff] at ht'
      exact ⟨t', ht'.1, by rw [digrams_values ht'.2]; exact hv⟩
  unfold distance2
  have : ∀ l : List (Nat × Nat), (d ∈ l → 0 < (l.map (fun d => ((2 * ((digrams t).count d : Int) - expected2 texts d).natAbs : Int))).sum) ∧
      0 ≤ (l.map (fun d => ((2 * ((digrams t).count d : Int) - expected2 texts d).natAbs : Int))).sum := by
    intro l
    induction l with
    | nil => simp
    | cons e l ih =>
      rw [List.map_cons, List.sum_cons]
      refine ⟨?_, by omega⟩
      intro h
      rcases List.mem_cons.1 h with rfl | h
      · rw [expected_majority hm hr]
        omega
      · have := ih.1 h
        omega
  exact (this _).1 hin

/-- If those in `T` come before all others and are at least `k`, the first `k` are in `T`. -/
theorem first_ones (T : Nat → Bool) : ∀ (order : List Nat) (k : Nat), order.Pairwise (fun i j => T j = true → T i = true) →
    k ≤ order.countP T → ∀ i ∈ order.take k, T i = true := by
  intro order
  induction order with
  | nil => intro k _ _ i hi; simp at hi
  | cons a l ih =>
    intro k hp hk i hi
    rw [List.pairwise_cons] at hp
    cases k with
    | zero => simp at hi
    | succ k =>
      have ha : T a = true := by
        by_contra hc
        have : (a :: l).countP T = 0 := by
          rw [List.countP_eq_zero]
          intro b hb
          rcases List.mem_cons.1 hb with rfl | hb
          · exact hc
          · exact fun h => hc (hp.1 b hb h)
        omega
      rw [List.take_succ_cons] at hi
      rcases List.mem_cons.1 hi with rfl | hi
      · exact ha
      · rw [List.countP_cons_of_pos ha] at hk
        exact ih k hp.2 (by omega) i hi

end Ocr.Vote
