import Verif.Spec.Sync
import Verif.Proof.Lev
import Mathlib.Data.List.Nodup

namespace Ocr.Sync
open Text

theorem tiles_append {xs ys : List Substr} : ∀ {p q : Int}, Tiles p (xs ++ ys) q ↔ ∃ r, Tiles p xs r ∧ Tiles r ys q := by
  induction xs with
  | nil => intro p q; simp [Tiles]
  | cons x xs ih =>
    intro p q
    simp only [List.cons_append, Tiles, ih]
    constructor
    · rintro ⟨h1, h2, h3, r, h4, h5⟩; exact ⟨r, ⟨h1, h2, h3, h4⟩, h5⟩
    · rintro ⟨r, ⟨h1, h2, h3, h4⟩, h5⟩; exact ⟨h1, h2, h3, r, h4, h5⟩

theorem tiles_le {xs : List Substr} : ∀ {p q : Int}, Tiles p xs q → p ≤ q := by
  induction xs with
  | nil => intro p q h; simp [Tiles] at h; omega
  | cons x xs ih => intro p q ⟨_, _, h3, h4⟩; have := ih h4; omega

theorem valid_iff (s : Sync) : valid_sync s = true ↔ ∃ t, t < s.substr.length ∧ 0 < (s.sub t).length := by
  unfold valid_sync Sync.sub
  rw [List.any_eq_true]
  constructor
  · rintro ⟨x, hx, h⟩
    obtain ⟨t, ht, rfl⟩ := List.mem_iff_getElem.1 hx
    exact ⟨t, ht, by simpa [ht] using h⟩
  · rintro ⟨t, ht, h⟩
    exact ⟨s.substr[t], List.getElem_mem ht, by simpa [ht] using h⟩

/-- The three parts made by `save_match`. -/
def leftOf (sync : Sync) (start : List Int) : Sync :=
  ⟨List.zipWith (fun (s : Substr) st => ⟨s.start, st - 1, st - s.start⟩) sync.substr start, none⟩
def rightOf (sync : Sync) (start : List Int) (length : Int) : Sync :=
  ⟨List.zipWith (fun (s : Substr) st => ⟨st + length - 1 + 1, s.stop, s.stop - (st + length - 1)⟩) sync.substr start, none⟩
def midOf (start : List Int) (length : Int) (q : Nat) : Sync :=
  ⟨start.map (fun st => ⟨st, st + length - 1, length⟩), some q⟩
def opt (s : Sync) : List Sync := if valid_sync s then [s] else []

theorem save_match_eq {l : List Sync} {pos : Nat} {sync : Sync} (h : l[pos]? = some sync) {start : List Int}
    (hl : start.length = sync.substr.length) (length : Int) (q : Nat) :
    save_match l pos start length q =
      .ok (l.take pos ++ opt (leftOf sync start) ++ [midOf start length q] ++ opt (rightOf sync start length) ++
        l.drop (pos + 1)) := by
  unfold save_match
  rw [h]
  simp only [hl, ne_eq, not_true_eq_false, if_false]
  rfl

theorem sub_left {sync : Sync} {start : List Int} (hl : start.length = sync.substr.length) {t : Nat}
    (ht : t < start.length) : (leftOf sync start).sub t = ⟨(sync.sub t).start, start[t] - 1, start[t] - (sync.sub t).start⟩ := by
  unfold leftOf Sync.sub
  simp [List.getElem?_zipWith, List.getElem?_eq_getElem ht, List.getElem?_eq_getElem (hl ▸ ht)]

theorem sub_right {sync : Sync} {start : List Int} (hl : start.length = sync.substr.length) {t : Nat}
    (ht : t < start.length) (length : Int) : (rightOf sync start length).sub t =
      ⟨start[t] + length - 1 + 1, (sync.sub t).stop, (sync.sub t).stop - (start[t] + length - 1)⟩ := by
  unfold rightOf Sync.sub
  simp [List.getElem?_zipWith, List.getElem?_eq_getElem ht, List.getElem?_eq_getElem (hl ▸ ht)]

theorem sub_mid {start : List Int} {t : Nat} (ht : t < start.length) (length : Int) (q : Nat) :
    (midOf start length q).sub t = ⟨start[t], start[t] + length - 1, length⟩ := by
  unfold midOf Sync.sub
  simp [List.getElem?_eq_getElem ht]

/-- An optional item of zero length does not matter. -/
theorem tiles_opt {s : Sync} {t : Nat} {p q : Int} (ht : t < s.substr.length)
    (h : Tiles p [s.sub t] q) : Tiles p ((opt s).map (·.sub t)) q := by
  unfold opt
  split
  · exact h
  · rename_i hv
    obtain ⟨h1, h2, h3, h4⟩ := h
    have h4 : p + (s.sub t).length = q := h4
    have : ¬ 0 < (s.sub t).length := by
      intro h0; exact hv ((valid_iff s).2 ⟨t, ht, h0⟩)
    show p = q
    omega

theorem mem_opt {s x : Sync} (h : x ∈ opt s) : x = s ∧ valid_sync s = true := by
  unfold opt at h; split at h
  · simp at h; exact ⟨h, by assumption⟩
  · simp at h

/-- `save_match` refines an alignment. -/
theorem alignment_split {texts : List (List Nat)} {pre post : List Sync} {sync : Sync}
    (h : IsAlignment texts (pre ++ sync :: post)) {start : List Int} {length : Nat} {q : Nat}
    (hl : start.length = texts.length) (hpos : 0 < length) (hT : 0 < texts.length)
    (hstart : ∀ t (ht : t < start.length), (sync.sub t).start ≤ start[t] ∧ start[t] + length - 1 ≤ (sync.sub t).stop)
    (w : List Nat) (hw : REJECT_CHARACTER ∉ w) (hwl : w.length = length)
    (hpiece : ∀ t (ht : t < texts.length) (ht' : t < start.length), (texts[t].drop start[t].toNat).take length = w) :
    IsAlignment texts (pre ++ opt (leftOf sync start) ++ [midOf start length q] ++
      opt (rightOf sync start length) ++ post) := by
  have hwid := h.width sync (by simp)
  have hls : start.length = sync.substr.length := by omega
  have memcases : ∀ s ∈ pre ++ opt (leftOf sync start) ++ [midOf start length q] ++
      opt (rightOf sync start length) ++ post, s ∈ pre ++ sync :: post ∨ (s = leftOf sync start ∧ valid_sync s = true) ∨
        s = midOf start length q ∨ (s = rightOf sync start length ∧ valid_sync s = true) := by
    intro s hs
    simp only [List.mem_append, List.mem_cons, List.not_mem_nil, or_false] at hs ⊢
    rcases hs with (((hs | hs) | hs) | hs) | hs
    · tauto
    · obtain ⟨rfl, h⟩ := mem_opt hs; tauto
    · tauto
    · obtain ⟨rfl, h⟩ := mem_opt hs; tauto
    · tauto
  have wl : (leftOf sync start).substr.length = texts.length := by simp [leftOf]; omega
  have wr : (rightOf sync start length).substr.length = texts.length := by simp [rightOf]; omega
  have wm : (midOf start length q).substr.length = texts.length := by simp [midOf]; omega
  constructor
  · intro s hs
    rcases memcases s hs with hs | ⟨rfl, _⟩ | rfl | ⟨rfl, _⟩
    · exact h.width s hs
    · exact wl
    · exact wm
    · exact wr
  · intro t ht
    have ht' : t < start.length := by omega
    have hti := h.tiles t ht
    simp only [List.map_append, List.map_cons] at hti
    obtain ⟨r, h1, h2, h3, h4, h5⟩ := tiles_append.1 hti
    obtain ⟨hs1, hs2⟩ := hstart t ht'
    simp only [List.map_append]
    refine tiles_append.2 ⟨_, tiles_append.2 ⟨start[t] + length, tiles_append.2 ⟨start[t],
      tiles_append.2 ⟨_, h1, ?_⟩, ?_⟩, ?_⟩, h5⟩
    · apply tiles_opt (by omega)
      rw [sub_left hls ht']
      refine ⟨h2, ?_, ?_, ?_⟩
      · show start[t] - 1 = r + (start[t] - (sync.sub t).start) - 1; omega
      · show 0 ≤ start[t] - (sync.sub t).start; omega
      · show r + (start[t] - (sync.sub t).start) = start[t]; omega
    · simp only [List.map_cons, List.map_nil, sub_mid ht']
      refine ⟨rfl, rfl, by simp, rfl⟩
    · apply tiles_opt (by omega)
      rw [sub_right hls ht']
      refine ⟨?_, ?_, ?_, ?_⟩
      · show start[t] + length - 1 + 1 = _; omega
      · show (sync.sub t).stop = start[t] + length + ((sync.sub t).stop - (start[t] + length - 1)) - 1; omega
      · show 0 ≤ (sync.sub t).stop - (start[t] + length - 1); omega
      · show start[t] + length + ((sync.sub t).stop - (start[t] + length - 1)) = r + (sync.sub t).length; omega
  · intro s hs
    rcases memcases s hs with hs | ⟨rfl, hv⟩ | rfl | ⟨rfl, hv⟩
    · exact h.nonempty s hs
    · obtain ⟨t, h1, h2⟩ := (valid_iff _).1 hv
      exact ⟨t, by omega, h2⟩
    · refine ⟨0, hT, ?_⟩
      rw [sub_mid (by omega)]; simpa using hpos
    · obtain ⟨t, h1, h2⟩ := (valid_iff _).1 hv
      exact ⟨t, by omega, h2⟩
  · intro s hs hm
    rcases memcases s hs with hs | ⟨rfl, hv⟩ | rfl | ⟨rfl, hv⟩
    · exact h.matched s hs hm
    · simp [leftOf] at hm
    · refine ⟨w, by rintro rfl; simp at hwl; omega, hw, ?_⟩
      intro t ht
      have ht' : t < start.length := by omega
      rw [sub_mid ht', piece]
      simpa using hpiece t ht ht'
    · simp [rightOf] at hm

theorem initial_alignment (texts : List (List Nat)) : IsAlignment texts (initialize_synclist (texts.map List.length)) := by
  unfold initialize_synclist
  have hsub : ∀ t (ht : t < texts.length), (⟨(texts.map List.length).map (fun (c : Nat) =>
      (⟨0, (c : Int) - 1, (c : Int)⟩ : Substr)), none⟩ : Sync).sub t = ⟨0, texts[t].length - 1, texts[t].length⟩ := by
    intro t ht; simp [Sync.sub, List.getElem?_eq_getElem ht]
  simp only
  split
  · rename_i hv
    refine ⟨by simp, ?_, ?_, by simp⟩
    · intro t ht
      simp only [List.map_cons, List.map_nil]
      rw [hsub t ht]
      simp [Tiles]
    · intro s hs
      simp only [List.mem_singleton] at hs
      subst hs
      obtain ⟨t, h1, h2⟩ := (valid_iff _).1 hv
      exact ⟨t, by simpa using h1, h2⟩
  · rename_i hv
    refine ⟨by simp, ?_, by simp, by simp⟩
    intro t ht
    simp only [List.map_nil, Tiles]
    by_contra hne
    refine hv ((valid_iff _).2 ⟨t, by simpa using ht, ?_⟩)
    rw [hsub t ht]
    simp only; omega

theorem numbering (l : List Sync) (cells : Nat → Int) (h : (l.filterMap (·.mtch)).Nodup) :
    Numbered l (number_matches l cells) := by
  refine ⟨h, ?_⟩
  unfold number_matches
  suffices key : ∀ (l : List Sync) (k : Int) (cells : Nat → Int), (l.filterMap (·.mtch)).Nodup →
      (∀ q, q ∉ l.filterMap (·.mtch) → number_matches.go l k cells q = cells q) ∧
      (l.filterMap (·.mtch)).map (number_matches.go l k cells) =
        (List.range (l.filterMap (·.mtch)).length).map (fun (i : Nat) => (i : Int) + k + 1) by
    have := (key l 0 cells h).2
    simpa using this
  intro l
  induction l with
  | nil => intro k cells _; simp [number_matches.go]
  | cons s l ih =>
    intro k cells h
    unfold number_matches.go
    cases hs : s.mtch with
    | none =>
      simp only [List.filterMap_cons, hs] at h ⊢
      exact ih k cells h
    | some q =>
      simp only [List.filterMap_cons, hs] at h ⊢
      obtain ⟨i1, i2⟩ := ih (k + 1) (fun r => if r = q then k + 1 else cells r) (List.nodup_cons.1 h).2
      constructor
      · intro r hr
        simp only [List.mem_cons, not_or] at hr
        rw [i1 r hr.2, if_neg hr.1]
      · rw [List.map_cons, i1 q (List.nodup_cons.1 h).1, i2, List.length_cons, List.range_succ_eq_map]
        simp only [List.map_cons, List.map_map, if_true]
        congr 1
        · simp
        · apply List.map_congr_left
          intro i _
          simp only [Function.comp_def]; omega

/-! ## The cost of an alignment is the cost of an edit script -/

theorem take_drop_split {α : Type} (a : List α) (i l : Nat) : a.drop i = (a.drop i).take l ++ a.drop (i + l) := by
  rw [← List.drop_drop, List.take_append_drop]

theorem edits_same {w : List Nat} (h : 126 ∉ w) : Edits w w 0 := by
  induction w with
  | nil => exact .nil
  | cons c w ih =>
    simp only [List.mem_cons, not_or] at h
    exact .keep c (fun e => h.1 e.symm) (ih h.2)

theorem cost_cons (s : Sync) (l : List Sync) : cost (s :: l) =
    (if s.mtch = none then max (s.sub 0).length (s.sub 1).length else 0) + cost l := by simp [cost]
@[simp] theorem cost_nil : cost [] = 0 := rfl
theorem cost_append (l l' : List Sync) : cost (l ++ l') = cost l + cost l' := by simp [cost]

theorem lev_le_cost {a b : List Nat} : ∀ (l : List Sync) (p q : Nat),
    Tiles p (l.map (·.sub 0)) a.length → Tiles q (l.map (·.sub 1)) b.length →
    (∀ s ∈ l, s.mtch ≠ none → ∃ w, REJECT_CHARACTER ∉ w ∧ piece a (s.sub 0) = w ∧ piece b (s.sub 1) = w) →
    (lev (a.drop p) (b.drop q) : Int) ≤ cost l := by
  intro l
  induction l with
  | nil =>
    intro p q hp hq _
    simp [Tiles] at hp hq
    have e1 : p = a.length := by omega
    have e2 : q = b.length := by omega
    simp [e1, e2]
  | cons s l ih =>
    intro p q hp hq hm
    simp only [List.map_cons, Tiles] at hp hq
    obtain ⟨p1, p2, p3, p4⟩ := hp
    obtain ⟨q1, q2, q3, q4⟩ := hq
    have e1 : ((p + (s.sub 0).length.toNat : Nat) : Int) = p + (s.sub 0).length := by omega
    have e2 : ((q + (s.sub 1).length.toNat : Nat) : Int) = q + (s.sub 1).length := by omega
    have := ih (p + (s.sub 0).length.toNat) (q + (s.sub 1).length.toNat) (by rw [e1]; exact p4) (by rw [e2]; exact q4)
      (fun s hs => hm s (by simp [hs]))
    rw [cost_cons, take_drop_split a p (s.sub 0).length.toNat, take_drop_split b q (s.sub 1).length.toNat]
    have happ := lev_append ((a.drop p).take (s.sub 0).length.toNat) ((b.drop q).take (s.sub 1).length.toNat)
      (a.drop (p + (s.sub 0).length.toNat)) (b.drop (q + (s.sub 1).length.toNat))
    by_cases hs : s.mtch = none
    · rw [if_pos hs]
      have hmax := lev_le_max ((a.drop p).take (s.sub 0).length.toNat) ((b.drop q).take (s.sub 1).length.toNat)
      simp only [List.length_take] at hmax
      omega
    · rw [if_neg hs]
      obtain ⟨w, hw, h1, h2⟩ := hm s (by simp) hs
      unfold piece at h1 h2
      rw [show (s.sub 0).start.toNat = p by omega] at h1
      rw [show (s.sub 1).start.toNat = q by omega] at h2
      rw [h1, h2] at happ ⊢
      have := lev_le_edits (edits_same hw)
      omega

theorem alignment_cost_ge {a b : List Nat} {l : List Sync} (h : IsAlignment [a, b] l) : (lev a b : Int) ≤ cost l := by
  have := lev_le_cost (a := a) (b := b) l 0 0 (by simpa using h.tiles 0 (by simp)) (by simpa using h.tiles 1 (by simp)) (by
    intro s hs hm
    obtain ⟨w, _, h2, h3⟩ := h.matched s hs hm
    exact ⟨w, h2, by simpa using h3 0 (by simp), by simpa using h3 1 (by simp)⟩)
  simpa using this

end Ocr.Sync
