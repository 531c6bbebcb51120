import Verif.Spec.Confusions
import Verif.Proof.Synctext
import Verif.Proof.Accuracy

namespace Ocr.Acc
open Text Sync Res

theorem named_eq {U : Unicode} (F : UnicodeFacts U) {v : Nat} (hv : v < 0x110000) :
    char_to_string U STRING_SIZE false v true = .ok (named U v) ∧ cstr (named U v) = named U v := by
  by_cases hn : v = 10
  · subst hn
    exact ⟨rfl, show cstr (ascii "<\\n>") = ascii "<\\n>" by decide⟩
  · have h1 := Synctext.char_written F (c := ⟨false, v⟩) ⟨hv, by simp⟩
    have e : named U v = Synctext.written U ⟨false, v⟩ := by
      unfold named Synctext.written Synctext.drawn
      rw [if_neg hn, if_neg hn]
      rfl
    rw [e]
    refine ⟨?_, h1.2⟩
    rw [← h1.1]
    unfold char_to_string charString
    simp [NEWLINE, hn]

/-- What `make_key` appends to `m` bytes. -/
def fit (U : Unicode) (m : Nat) (vs : List Nat) : Nat :=
  ((List.range vs.length).takeWhile (fun k => decide (m + ((vs.take (k + 1)).flatMap (named U)).length ≤ 24))).length

theorem fit_cons (U : Unicode) (m v : Nat) (vs : List Nat) :
    fit U m (v :: vs) = if m + (named U v).length ≤ 24 then fit U (m + (named U v).length) vs + 1 else 0 := by
  unfold fit
  rw [List.length_cons, List.range_succ_eq_map, List.takeWhile_cons]
  by_cases h : m + (named U v).length ≤ 24
  · rw [if_pos (by simpa using h), if_pos h, List.length_cons, List.takeWhile_map, List.length_map]
    refine congrArg (fun f => (List.takeWhile f _).length + 1) ?_
    funext k
    simp [Nat.add_assoc]
  · rw [if_neg (by simpa using h), if_neg h]
    rfl

theorem displayLoop_eq {U : Unicode} (F : UnicodeFacts U) {t : List Ch} (hv : ∀ c ∈ t, c.value < 0x110000) : ∀ (n i : Nat) (b : List Nat),
    i + n ≤ t.length → b.length ≤ MAX_DISPLAY → ∀ vs, vs = ((t.drop i).take n).map Ch.value →
    displayLoop U t n i b = .ok (b ++ (vs.take (fit U b.length vs)).flatMap (named U) ++ (if fit U b.length vs < vs.length then ascii "..." else [])) := by
  intro n
  induction n with
  | zero => intro i b _ hb vs hvs; subst hvs; simp [displayLoop]
  | succ n ih =>
    intro i b hl hb vs hvs
    have hi : i < t.length := by omega
    obtain ⟨e1, e2⟩ := named_eq F (hv _ (List.getElem_mem hi))
    have hcons : vs = t[i].value :: ((t.drop (i + 1)).take n).map Ch.value := by
      rw [hvs, List.drop_eq_getElem_cons hi, List.take_succ_cons, List.map_cons]
    rw [displayLoop, rdI_nat hi, bind_ok, e1, bind_ok]
    simp only
    rw [e2, hcons, fit_cons]
    unfold MAX_DISPLAY at *
    by_cases h : b.length + (named U t[i].value).length ≤ 24
    · rw [if_neg (by omega), if_pos h]
      have : strcat (24 + 4) b (named U t[i].value) = .ok (b ++ named U t[i].value) := by
        unfold strcat; rw [if_pos (by omega)]
      have hcast : ((i : Int) + 1) = ((i + 1 : Nat) : Int) := by omega
      rw [this, bind_ok, hcast, ih (i + 1) _ (by omega) (by rw [List.length_append]; omega) _ rfl]
      simp [List.length_append]
    · rw [if_pos (by omega), if_neg h]
      unfold strcat
      rw [if_pos (by simp [ascii]; omega)]
      simp

theorem display_eq {U : Unicode} (F : UnicodeFacts U) {t : List Ch} (hv : ∀ c ∈ t, c.value < 0x110000) {s : Substr} (h : Within s t.length) :
    display U t s = .ok (abbreviated U ((piece t s).map Ch.value)) := by
  unfold display
  obtain ⟨h1, h2, h3, h4⟩ := h
  have e1 : s.start = ((s.start.toNat : Nat) : Int) := by omega
  have e2 : (s.stop + 1 - s.start).toNat = s.length.toNat := by omega
  rw [e2, e1, displayLoop_eq F hv _ _ _ (by omega) (by simp) _ rfl]
  have : ∀ vs, fit U ([] : List Nat).length vs = fitting U vs := by
    intro vs; unfold fit fitting; simp
  simp only [this, List.nil_append]
  rfl

theorem make_key_eq {U : Unicode} (F : UnicodeFacts U) {t0 t1 : List Ch} (hv0 : ∀ c ∈ t0, c.value < 0x110000)
    (hv1 : ∀ c ∈ t1, c.value < 0x110000) {sync : Sync} (hl : sync.substr.length = 2) (h0 : Within (sync.sub 0) t0.length)
    (h1 : Within (sync.sub 1) t1.length) : make_key U t0 t1 sync = .ok (itemKey U t0 t1 sync) := by
  obtain ⟨k, hk⟩ := make_key_spec U hv0 hv1 hl h0 h1
  rw [hk]
  obtain ⟨ss, mt⟩ := sync
  match ss, hl with
  | [s0, s1], _ =>
    simp only [Sync.sub] at h0 h1
    have e0 := display_eq F hv0 (s := s0) (by simpa using h0)
    have e1 := display_eq F hv1 (s := s1) (by simpa using h1)
    unfold make_key at hk
    simp only [rd, List.getElem?_cons_zero, List.getElem?_cons_succ, bind_ok, e0, e1] at hk
    split at hk
    · rw [← hk]; rfl
    · cases hk

theorem classLoop_rest {t0 : List Ch} {m : Int} : ∀ (n i : Nat) (ch w : Int) (D : Accdata) {ch' w' : Int} {D' : Accdata},
    i + n ≤ t0.length → classLoop t0 m n i ch w D = .ok (ch', w', D') →
    ch' = ch + (nonreject ((t0.drop i).take n)).length ∧ w' = w + (n - (nonreject ((t0.drop i).take n)).length) ∧
      D'.conftable = D.conftable := by
  intro n
  induction n with
  | zero =>
    intro i ch w D ch' w' D' _ h
    rw [classLoop] at h
    cases h
    simp [nonreject]
  | succ n ih =>
    intro i ch w D ch' w' D' hl h
    have hi : i < t0.length := by omega
    have hcons : (t0.drop i).take (n + 1) = t0[i] :: (t0.drop (i + 1)).take n := by
      rw [List.drop_eq_getElem_cons hi, List.take_succ_cons]
    have hcast : ((i : Int) + 1) = ((i + 1 : Nat) : Int) := by omega
    rw [classLoop, rdI_nat hi, bind_ok, hcast] at h
    rw [hcons]
    have hnr : nonreject (t0[i] :: (t0.drop (i + 1)).take n) =
        (if t0[i].value = REJECT_CHARACTER then [] else [t0[i].value]) ++ nonreject ((t0.drop (i + 1)).take n) := by
      unfold nonreject
      rw [List.map_cons, List.filter_cons]
      by_cases hr : t0[i].value = REJECT_CHARACTER <;> simp [hr]
    rw [hnr]
    by_cases hr : t0[i].value = REJECT_CHARACTER
    · rw [if_pos hr] at h ⊢
      obtain ⟨a, b, c⟩ := ih _ _ _ _ (by omega) h
      refine ⟨by simpa using a, ?_, c⟩
      rw [b, List.nil_append]; push_cast; omega
    · rw [if_neg hr] at h ⊢
      obtain ⟨D1, e1, h⟩ := bind_eq_ok.1 h
      obtain ⟨a, b, c⟩ := ih _ _ _ _ (by omega) h
      have hc : D1.conftable = D.conftable := by
        unfold add_class at e1
        obtain ⟨k, _, e1⟩ := bind_eq_ok.1 e1
        split at e1
        · cases e1; rfl
        · cases e1
      refine ⟨?_, ?_, c.trans hc⟩
      · rw [a, List.length_append]; push_cast; simp; omega
      · rw [b, List.length_append]; push_cast; simp; omega

theorem itemErrors_nonneg (t0 : List Ch) (s : Sync) : 0 ≤ itemErrors t0 s := by
  unfold itemErrors
  split <;> omega

theorem errorItem_conf {U : Unicode} {t0 t1 : List Ch} {sync : Sync} {key : List Nat} (hk : make_key U t0 t1 sync = .ok key)
    {D D' : Accdata} {len1 ch w r s : Int} (h : errorItem U t0 t1 sync len1 ch w r s D = .ok D') :
    D'.conftable = if 0 < max ch (max 0 (len1 - w)) then
        Store.add Conf.key key (fun c => { c with
            errors := c.errors + max ch (max 0 (len1 - w)), marked := c.marked + (if r + s > 0 then max ch (max 0 (len1 - w)) else 0) })
          ⟨key, max ch (max 0 (len1 - w)), if r + s > 0 then max ch (max 0 (len1 - w)) else 0⟩ D.conftable
      else D.conftable := by
  unfold errorItem at h
  simp only at h
  by_cases he : max ch (max 0 (len1 - w)) > 0
  · rw [if_pos he, hk] at h
    simp only [bind_ok, pure_eq] at h
    have := Res.ok.inj h
    subst this
    rw [if_pos he]
    by_cases hm : r + s > 0
    · simp only [if_pos hm]; rfl
    · simp only [if_neg hm]; rfl
  · rw [if_neg he] at h
    cases h
    rw [if_neg he]

theorem processItem_conf {U : Unicode} (F : UnicodeFacts U) {t0 t1 : List Ch} (hv0 : ∀ c ∈ t0, c.value < 0x110000)
    (hv1 : ∀ c ∈ t1, c.value < 0x110000) {sync : Sync} (hl : sync.substr.length = 2) (h0 : Within (sync.sub 0) t0.length)
    (h1 : Within (sync.sub 1) t1.length) {D D' : Accdata} (h : processItem U t0 t1 sync D = .ok D') :
    D'.conftable = if 0 < itemErrors t0 sync then
        Store.add Conf.key (itemKey U t0 t1 sync) (fun c => { c with
            errors := c.errors + itemErrors t0 sync, marked := c.marked + (if itemMarked t1 sync then itemErrors t0 sync else 0) })
          ⟨itemKey U t0 t1 sync, itemErrors t0 sync, if itemMarked t1 sync then itemErrors t0 sync else 0⟩ D.conftable
      else D.conftable := by
  have hkey := make_key_eq F hv0 hv1 hl h0 h1
  obtain ⟨ss, mt⟩ := sync
  match ss, hl with
  | [s0, s1], _ =>
    simp only [Sync.sub, List.getD_cons_zero, List.getD_cons_succ] at h0 h1
    obtain ⟨b1, b2, b3, b4⟩ := h0
    obtain ⟨c1, c2, c3, c4⟩ := h1
    have q1 : s0.start = ((s0.start.toNat : Nat) : Int) := by omega
    have q2 : (s0.stop + 1 - s0.start).toNat = s0.length.toNat := by omega
    have q3 : s1.start = ((s1.start.toNat : Nat) : Int) := by omega
    have q4 : (s1.stop + 1 - s1.start).toNat = s1.length.toNat := by omega
    unfold processItem at h
    simp only [rd, List.getElem?_cons_zero, List.getElem?_cons_succ, bind_ok, q2, q4] at h
    rw [q1, q3] at h
    obtain ⟨⟨ch, w, D1⟩, e1, h⟩ := bind_eq_ok.1 h
    obtain ⟨hch, hw, hD⟩ := classLoop_rest _ _ _ _ _ (by omega) e1
    rw [markLoop_spec t1 _ _ _ _ (by omega)] at h
    simp only [bind_ok] at h
    have hp0 : (t0.drop s0.start.toNat).take s0.length.toNat = piece t0 s0 := rfl
    have hp1 : (t1.drop s1.start.toNat).take s1.length.toNat = piece t1 s1 := rfl
    rw [hp0] at hch hw
    rw [hp1] at h
    cases mt with
    | some q =>
      simp only [Option.isSome_some, if_true] at h
      have hz : itemErrors t0 ⟨[s0, s1], some q⟩ = 0 := by simp [itemErrors]
      rw [hz, if_neg (by omega)]
      cases h
      exact hD
    | none =>
      simp only [Option.isSome_none, Bool.false_eq_true, if_false] at h
      have := errorItem_conf hkey h
      have he : max ch (max 0 (s1.length - w)) = itemErrors t0 ⟨[s0, s1], none⟩ := by
        rw [hch, hw]
        simp only [itemErrors, Option.isSome_none, Bool.false_eq_true, if_false, Sync.sub, List.getD_cons_zero, List.getD_cons_succ]
        omega
      simp only [Int.zero_add, marked_iff, he] at this
      rw [this]
      simp only [hD]
      rfl

theorem conf_step {U : Unicode} {t0 t1 : List Ch} {items : List Sync} {table : List Conf} (h : IsConfusions U t0 t1 items table) (s : Sync) :
    IsConfusions U t0 t1 (items ++ [s]) (if 0 < itemErrors t0 s then
        Store.add Conf.key (itemKey U t0 t1 s) (fun c => { c with
            errors := c.errors + itemErrors t0 s, marked := c.marked + (if itemMarked t1 s then itemErrors t0 s else 0) })
          ⟨itemKey U t0 t1 s, itemErrors t0 s, if itemMarked t1 s then itemErrors t0 s else 0⟩ table
      else table) := by
  have h0 := itemErrors_nonneg t0 s
  -- the sums with one more item
  have se : ∀ k, (((items ++ [s]).filter (fun s => decide (itemKey U t0 t1 s = k))).map (itemErrors t0)).sum =
      ((items.filter (fun s => decide (itemKey U t0 t1 s = k))).map (itemErrors t0)).sum + (if itemKey U t0 t1 s = k then itemErrors t0 s else 0) := by
    intro k
    rw [List.filter_append, List.map_append, List.sum_append, List.filter_cons]
    split <;> rename_i hk
    · rw [if_pos (by simpa using hk)]; simp
    · rw [if_neg (by simpa using hk)]; simp
  have sm : ∀ k, (((items ++ [s]).filter (fun s => decide (itemKey U t0 t1 s = k) && itemMarked t1 s)).map (itemErrors t0)).sum =
      ((items.filter (fun s => decide (itemKey U t0 t1 s = k) && itemMarked t1 s)).map (itemErrors t0)).sum +
        (if itemKey U t0 t1 s = k then (if itemMarked t1 s then itemErrors t0 s else 0) else 0) := by
    intro k
    rw [List.filter_append, List.map_append, List.sum_append, List.filter_cons]
    by_cases hk : itemKey U t0 t1 s = k
    · by_cases hm : itemMarked t1 s = true
      · rw [if_pos (by simp [hk, hm]), if_pos hk, if_pos hm]; simp
      · rw [if_neg (by simp [hm]), if_pos hk, if_neg hm]; simp
    · rw [if_neg (by simp [hk]), if_neg hk]; simp
  by_cases he : 0 < itemErrors t0 s
  · rw [if_pos he]
    refine ⟨?_, ?_, ?_, ?_⟩
    · refine Store.nodup_add Conf.key _ _ _ ?_ ?_ h.nodup
      · intro _; rfl
      · rfl
    · intro k
      rw [Store.mem_keys_add Conf.key (itemKey U t0 t1 s) _ _ (by intro _; rfl) (by rfl), h.keys]
      constructor
      · rintro (⟨x, hx, h1, h2⟩ | rfl)
        · exact ⟨x, by simp [hx], h1, h2⟩
        · exact ⟨s, by simp, he, rfl⟩
      · rintro ⟨x, hx, h1, h2⟩
        rcases List.mem_append.1 hx with hx | hx
        · exact .inl ⟨x, hx, h1, h2⟩
        · rw [List.mem_singleton] at hx
          subst hx
          exact .inr h2.symm
    all_goals
      have hzero : (∀ e ∈ table, Conf.key e ≠ itemKey U t0 t1 s) → ∀ (q : Sync → Bool),
          (∀ x, q x = true → itemKey U t0 t1 x = itemKey U t0 t1 s) → ((items.filter q).map (itemErrors t0)).sum = 0 := by
        intro hne q hq
        have hall : ∀ e ∈ (items.filter q).map (itemErrors t0), e = 0 := by
          intro e hx
          obtain ⟨x, hx', rfl⟩ := List.mem_map.1 hx
          obtain ⟨h1, h2⟩ := List.mem_filter.1 hx'
          have h3 := itemErrors_nonneg t0 x
          by_contra h4
          obtain ⟨e, he, hek⟩ := List.mem_map.1 ((h.keys _).2 ⟨x, h1, by omega, hq x h2⟩)
          exact hne e he hek
        exact List.sum_eq_zero hall
      intro c hc
      rcases Store.add_cases Conf.key (itemKey U t0 t1 s) (fun c => { c with
            errors := c.errors + itemErrors t0 s, marked := c.marked + (if itemMarked t1 s then itemErrors t0 s else 0) })
          ⟨itemKey U t0 t1 s, itemErrors t0 s, if itemMarked t1 s then itemErrors t0 s else 0⟩ table with ⟨e, hne⟩ | ⟨p, y, q, e0, e, hy, hp⟩
      all_goals rw [e] at hc
    · rw [se]
      rcases List.mem_cons.1 hc with rfl | hc
      · simp only
        rw [if_pos trivial, hzero hne _ (by intro x hx; simpa using hx), Int.zero_add]
      · rw [if_neg (fun hk => hne c hc hk.symm), Int.add_zero]
        exact h.errors c hc
    · rw [se]
      have hnd := h.nodup
      rw [e0, List.map_append, List.map_cons] at hnd
      have hnd2 := List.nodup_cons.1 (List.nodup_append.1 hnd).2.1
      rcases List.mem_append.1 hc with hc | hc
      · rw [if_neg (fun hk => hp c hc hk.symm), Int.add_zero]
        exact h.errors c (by rw [e0]; simp [hc])
      · rcases List.mem_cons.1 hc with rfl | hc
        · simp only
          rw [if_pos hy.symm, h.errors y (by rw [e0]; simp)]
        · rw [if_neg, Int.add_zero]
          · exact h.errors c (by rw [e0]; simp [hc])
          · intro hk
            exact hnd2.1 (by rw [hy, hk]; exact List.mem_map_of_mem hc)
    · rw [sm]
      rcases List.mem_cons.1 hc with rfl | hc
      · simp only
        rw [if_pos trivial, hzero hne _ (by intro x hx; rw [Bool.and_eq_true] at hx; simpa using hx.1), Int.zero_add]
      · rw [if_neg (fun hk => hne c hc hk.symm), Int.add_zero]
        exact h.marked c hc
    · rw [sm]
      have hnd := h.nodup
      rw [e0, List.map_append, List.map_cons] at hnd
      have hnd2 := List.nodup_cons.1 (List.nodup_append.1 hnd).2.1
      rcases List.mem_append.1 hc with hc | hc
      · rw [if_neg (fun hk => hp c hc hk.symm), Int.add_zero]
        exact h.marked c (by rw [e0]; simp [hc])
      · rcases List.mem_cons.1 hc with rfl | hc
        · simp only
          rw [if_pos hy.symm, h.marked y (by rw [e0]; simp)]
        · rw [if_neg, Int.add_zero]
          · exact h.marked c (by rw [e0]; simp [hc])
          · intro hk
            exact hnd2.1 (by rw [hy, hk]; exact List.mem_map_of_mem hc)
  · rw [if_neg he]
    have hz : itemErrors t0 s = 0 := by omega
    simp only [hz, ite_self, Int.add_zero] at se sm
    refine ⟨h.nodup, ?_, fun c hc => by rw [se]; exact h.errors c hc, fun c hc => by rw [sm]; exact h.marked c hc⟩
    intro k
    rw [h.keys]
    constructor
    · rintro ⟨x, hx, h1, h2⟩; exact ⟨x, by simp [hx], h1, h2⟩
    · rintro ⟨x, hx, h1, h2⟩
      rcases List.mem_append.1 hx with hx | hx
      · exact ⟨x, hx, h1, h2⟩
      · rw [List.mem_singleton] at hx
        subst hx
        omega

theorem process_conf {U : Unicode} (F : UnicodeFacts U) {t0 t1 : List Ch} (hv0 : ∀ c ∈ t0, c.value < 0x110000)
    (hv1 : ∀ c ∈ t1, c.value < 0x110000) : ∀ (l done : List Sync) (p q : Nat) (D D' : Accdata), (∀ s ∈ l, s.substr.length = 2) →
      Tiles p (l.map (·.sub 0)) t0.length → Tiles q (l.map (·.sub 1)) t1.length → IsConfusions U t0 t1 done D.conftable →
      process_synclist U t0 t1 l D = .ok D' → IsConfusions U t0 t1 (done ++ l) D'.conftable := by
  intro l
  induction l with
  | nil =>
    intro done p q D D' _ _ _ h e
    rw [process_synclist] at e
    cases e
    simpa using h
  | cons s l ih =>
    intro done p q D D' hw h0 h1 h e
    simp only [List.map_cons, Tiles] at h0 h1
    obtain ⟨a1, a2, a3, a4⟩ := h0
    obtain ⟨b1, b2, b3, b4⟩ := h1
    have ha := tiles_le a4
    have hb := tiles_le b4
    rw [process_synclist] at e
    obtain ⟨D1, e1, e⟩ := bind_eq_ok.1 e
    have := processItem_conf F hv0 hv1 (hw s (by simp)) ⟨by omega, a3, by omega, by omega⟩ ⟨by omega, b3, by omega, by omega⟩ e1
    have h' := conf_step h s
    rw [← this] at h'
    have := ih (done ++ [s]) (p + (s.sub 0).length.toNat) (q + (s.sub 1).length.toNat) D1 D' (fun s hs => hw s (by simp [hs]))
      (by have : ((p + (s.sub 0).length.toNat : Nat) : Int) = p + (s.sub 0).length := by omega
          rw [this]; exact a4)
      (by have : ((q + (s.sub 1).length.toNat : Nat) : Int) = q + (s.sub 1).length := by omega
          rw [this]; exact b4) h' e
    simpa using this

theorem conf_perm {U : Unicode} {t0 t1 : List Ch} {items : List Sync} {s t : List Conf} (h : IsConfusions U t0 t1 items s) (hp : s.Perm t) :
    IsConfusions U t0 t1 items t :=
  ⟨((hp.map Conf.key).nodup_iff).1 h.nodup, fun k => ((hp.map Conf.key).mem_iff).symm.trans (h.keys k),
    fun c hc => h.errors c (hp.mem_iff.2 hc), fun c hc => h.marked c (hp.mem_iff.2 hc)⟩

end Ocr.Acc
