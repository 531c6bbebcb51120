import Verif.Model.Accuracy
import Verif.Spec.Accuracy
import Verif.Props.Charclass
import Verif.Proof.Backtrace
import Verif.Proof.ReadChar
import Verif.Proof.Store

namespace Ocr.Acc
open Text Sync Charclass Res

/-! ## Classes -/

/-- The class enumerations count the values `vs`, of which the values `ms` were missed. -/
structure Tallied (D : Accdata) (vs ms : List Nat) : Prop where
  small : ∀ v, D.small_class v = ⟨(vs.count v : Nat), (ms.count v : Nat)⟩
  large : ∀ c, D.large_class c = ⟨(vs.countP (fun v => charclass v = .ok c) : Nat), (ms.countP (fun v => charclass v = .ok c) : Nat)⟩
  total : D.total_class = ⟨vs.length, ms.length⟩

/-- Only the class enumerations differ. -/
def SameRest (D D' : Accdata) : Prop :=
  D' = { D with large_class := D'.large_class, total_class := D'.total_class, small_class := D'.small_class }

theorem SameRest.refl (D : Accdata) : SameRest D D := rfl
theorem SameRest.trans {D D' D'' : Accdata} (h : SameRest D D') (h' : SameRest D' D'') : SameRest D D'' := by
  unfold SameRest at *; rw [h', h]

theorem add_class_spec {D : Accdata} {vs ms : List Nat} (h : Tallied D vs ms) {v : Nat} (hv : v < 0x10FFFF) (m : Bool) :
    ∃ D', add_class D v 1 (if m then 1 else 0) = .ok D' ∧
      Tallied D' (vs ++ [v]) (ms ++ if m then [v] else []) ∧ SameRest D D' := by
  obtain ⟨c, e, hc, _⟩ := c15_class v hv
  unfold add_class
  rw [e, bind_ok, if_pos ⟨hc, hv⟩]
  refine ⟨_, rfl, ⟨?_, ?_, ?_⟩, rfl⟩
  · intro i
    simp only [List.count_append, update_class, h.small]
    by_cases hi : i = v
    · subst hi; cases m <;> simp
    · rw [if_neg hi]
      cases m <;> simp [Ne.symm hi]
  · intro i
    simp only [List.countP_append, update_class, h.large]
    by_cases hi : i = c
    · subst hi; cases m <;> simp [e]
    · rw [if_neg hi]
      cases m <;> simp [e, Ne.symm hi]
  · simp only [update_class, h.total]
    cases m <;> simp

theorem rdI_nat {α : Type} {l : List α} {i : Nat} (h : i < l.length) : rdI l (i : Int) = .ok l[i] := by
  unfold rdI rd
  rw [if_neg (by omega)]
  simp [List.getElem?_eq_getElem h]

theorem classLoop_spec {t0 : List Ch} (hv : ∀ c ∈ t0, c.value < 0x10FFFF) (m : Bool) : ∀ (n i : Nat) (ch w : Int) (D : Accdata)
    (vs ms : List Nat), Tallied D vs ms → i + n ≤ t0.length →
    ∃ D', classLoop t0 (if m then 1 else 0) n i ch w D =
        .ok (ch + (nonreject ((t0.drop i).take n)).length, w + (n - (nonreject ((t0.drop i).take n)).length), D') ∧
      Tallied D' (vs ++ nonreject ((t0.drop i).take n)) (ms ++ if m then nonreject ((t0.drop i).take n) else []) ∧
      SameRest D D' := by
  intro n
  induction n with
  | zero =>
    intro i ch w D vs ms h _
    refine ⟨D, by simp [classLoop, nonreject], ?_, rfl⟩
    simpa [nonreject] using h
  | succ n ih =>
    intro i ch w D vs ms h hl
    have hi : i < t0.length := by omega
    have hcons : (t0.drop i).take (n + 1) = t0[i] :: (t0.drop (i + 1)).take n := by
      rw [List.drop_eq_getElem_cons hi, List.take_succ_cons]
    rw [classLoop, rdI_nat hi, bind_ok, hcons]
    have hcast : ((i : Int) + 1) = ((i + 1 : Nat) : Int) := by omega
    rw [hcast]
    by_cases hr : t0[i].value = REJECT_CHARACTER
    · rw [if_pos hr]
      obtain ⟨D', e, h', hs⟩ := ih (i + 1) ch (w + 1) D vs ms h (by omega)
      have hnr : nonreject (t0[i] :: (t0.drop (i + 1)).take n) = nonreject ((t0.drop (i + 1)).take n) := by
        unfold nonreject; rw [List.map_cons, List.filter_cons_of_neg (by simpa using hr)]
      rw [hnr, e]
      refine ⟨D', ?_, h', hs⟩
      simp only [Res.ok.injEq, Prod.mk.injEq, true_and, and_true]
      omega
    · rw [if_neg hr]
      obtain ⟨D1, e1, h1, s1⟩ := add_class_spec h (hv _ (List.getElem_mem hi)) m
      obtain ⟨D', e, h', hs⟩ := ih (i + 1) (ch + 1) w D1 _ _ h1 (by omega)
      have hnr : nonreject (t0[i] :: (t0.drop (i + 1)).take n) = t0[i].value :: nonreject ((t0.drop (i + 1)).take n) := by
        unfold nonreject; rw [List.map_cons, List.filter_cons_of_pos (by simpa using hr)]
      rw [e1, bind_ok, e, hnr]
      refine ⟨D', ?_, ?_, s1.trans hs⟩
      · simp only [Res.ok.injEq, Prod.mk.injEq, List.length_cons, and_true]
        constructor <;> push_cast <;> omega
      · cases m <;> simpa using h'

/-! ## Marks -/

theorem markLoop_spec (t1 : List Ch) : ∀ (n i : Nat) (r s : Int), i + n ≤ t1.length →
    markLoop t1 n i r s = .ok (r + (((t1.drop i).take n).countP (fun c => c.value = REJECT_CHARACTER) : Nat),
      s + (((t1.drop i).take n).countP (fun c => c.value ≠ REJECT_CHARACTER ∧ c.suspect) : Nat)) := by
  intro n
  induction n with
  | zero => intro i r s _; simp [markLoop]
  | succ n ih =>
    intro i r s hl
    have hi : i < t1.length := by omega
    have hcons : (t1.drop i).take (n + 1) = t1[i] :: (t1.drop (i + 1)).take n := by
      rw [List.drop_eq_getElem_cons hi, List.take_succ_cons]
    rw [markLoop, rdI_nat hi, bind_ok, hcons]
    have hcast : ((i : Int) + 1) = ((i + 1 : Nat) : Int) := by omega
    rw [hcast]
    by_cases hr : t1[i].value = REJECT_CHARACTER
    · rw [if_pos hr, ih _ _ _ (by omega), List.countP_cons_of_pos (by simpa using hr),
        List.countP_cons_of_neg (by simp [hr])]
      congr 2; omega
    · rw [if_neg hr, ih _ _ _ (by omega), List.countP_cons_of_neg (by simpa using hr)]
      by_cases hs : t1[i].suspect = true
      · rw [List.countP_cons_of_pos (by simp [hr, hs]), if_pos hs]
        congr 2; omega
      · rw [List.countP_cons_of_neg (by simp [hs]), if_neg hs]

/-! ## Keys -/

theorem displayLoop_spec (U : Unicode) {t : List Ch} (hv : ∀ c ∈ t, c.value < 0x110000) : ∀ (n i : Nat) (b : List Nat),
    i + n ≤ t.length → b.length ≤ MAX_DISPLAY → ∃ r, displayLoop U t n i b = .ok r ∧ r.length ≤ MAX_DISPLAY + 3 := by
  intro n
  induction n with
  | zero => intro i b _ hb; exact ⟨b, rfl, by omega⟩
  | succ n ih =>
    intro i b hl hb
    have hi : i < t.length := by omega
    rw [displayLoop, rdI_nat hi, bind_ok]
    obtain ⟨s, hs, hlen⟩ := charString_len (U := U) (hv _ (List.getElem_mem hi)) false true
    have hc : char_to_string U STRING_SIZE false t[i].value true = .ok s := by
      unfold char_to_string
      rw [hs, bind_ok, if_pos]
      · rfl
      · simp [STRING_SIZE] at hlen ⊢; omega
    rw [hc, bind_ok]
    simp only
    split
    · refine ⟨b ++ ascii "...", ?_, ?_⟩
      · unfold strcat; rw [if_pos]; simp [ascii]; omega
      · simp [ascii]; omega
    · rename_i h
      have : strcat (MAX_DISPLAY + 4) b (cstr s) = .ok (b ++ cstr s) := by
        unfold strcat; rw [if_pos (by omega)]
      rw [this, bind_ok]
      have hcast : ((i : Int) + 1) = ((i + 1 : Nat) : Int) := by omega
      rw [hcast]
      exact ih _ _ (by omega) (by rw [List.length_append]; omega)

/-- A substring of a text. -/
structure Within (s : Substr) (len : Nat) : Prop where
  start  : 0 ≤ s.start
  length : 0 ≤ s.length
  stop   : s.stop = s.start + s.length - 1
  le     : s.start + s.length ≤ len

theorem display_spec (U : Unicode) {t : List Ch} (hv : ∀ c ∈ t, c.value < 0x110000) {s : Substr} (h : Within s t.length) :
    ∃ r, display U t s = .ok r ∧ r.length ≤ MAX_DISPLAY + 3 := by
  unfold display
  obtain ⟨h1, h2, h3, h4⟩ := h
  have e1 : s.start = ((s.start.toNat : Nat) : Int) := by omega
  rw [e1]
  exact displayLoop_spec U hv _ _ _ (by omega) (by simp)

theorem make_key_spec (U : Unicode) {t0 t1 : List Ch} (hv0 : ∀ c ∈ t0, c.value < 0x110000) (hv1 : ∀ c ∈ t1, c.value < 0x110000)
    {sync : Sync} (hl : sync.substr.length = 2) (h0 : Within (sync.sub 0) t0.length) (h1 : Within (sync.sub 1) t1.length) :
    ∃ k, make_key U t0 t1 sync = .ok k := by
  obtain ⟨ss, mt⟩ := sync
  match ss, hl with
  | [s0, s1], _ =>
    simp only [Sync.sub] at h0 h1
    obtain ⟨b0, e0, l0⟩ := display_spec U hv0 (s := s0) (by simpa using h0)
    obtain ⟨b1, e1, l1⟩ := display_spec U hv1 (s := s1) (by simpa using h1)
    unfold make_key
    simp only [rd, List.getElem?_cons_zero, List.getElem?_cons_succ, bind_ok, e0, e1]
    rw [if_pos]
    · exact ⟨_, rfl⟩
    · have : (ascii "{").length = 1 ∧ (ascii "}-{").length = 3 ∧ (ascii "}\n").length = 2 := by decide
      simp only [List.length_append, MAX_DISPLAY] at *; omega

/-! ## The invariant of `process_synclist` -/

/-- The figures after the characters `a0` of the correct and `a1` of the generated text; `ms` were missed,
`pending` of them not yet entered as insertions or substitutions. -/
structure PInv (D : Accdata) (a0 a1 : List Ch) (ms : List Nat) (pending : Int) : Prop where
  characters : D.characters = (nonreject a0).length
  tallied    : Tallied D (nonreject a0) ms
  sub        : ms.Sublist (nonreject a0)
  rejects    : D.reject_characters = (a1.countP (fun c => c.value = REJECT_CHARACTER) : Nat)
  suspects   : D.suspect_markers = (a1.countP (fun c => c.value ≠ REJECT_CHARACTER ∧ c.suspect) : Nat)
  false_lo   : 0 ≤ D.false_marks
  false_hi   : D.false_marks ≤ D.suspect_markers
  errors     : D.errors = D.total_ops.errors
  marked     : D.marked_ops.Sound
  unmarked   : D.unmarked_ops.Sound
  total      : D.total_ops = add_ops D.marked_ops D.unmarked_ops
  missed     : (ms.length : Int) = D.total_ops.ins + D.total_ops.subst + pending
  conf_err   : (D.conftable.map (·.errors)).sum = D.errors
  conf_mark  : (D.conftable.map (·.marked)).sum = D.marked_ops.errors
  conf_keys  : (D.conftable.map (·.key)).Nodup
  conf_ok    : ∀ c ∈ D.conftable, 0 < c.errors ∧ 0 ≤ c.marked ∧ c.marked ≤ c.errors

theorem nonreject_append (a b : List Ch) : nonreject (a ++ b) = nonreject a ++ nonreject b := by simp [nonreject]

theorem marked_iff (l : List Ch) : (((l.countP (fun c => c.value = REJECT_CHARACTER) : Nat) : Int) +
    ((l.countP (fun c => c.value ≠ REJECT_CHARACTER ∧ c.suspect) : Nat) : Int) > 0) ↔
    l.any (fun c => c.value = REJECT_CHARACTER || c.suspect) = true := by
  induction l with
  | nil => simp
  | cons c l ih =>
    rw [List.any_cons, Bool.or_eq_true, ← ih]
    by_cases h1 : c.value = REJECT_CHARACTER
    · rw [List.countP_cons_of_pos (by simpa using h1)]; simp [h1]; omega
    · rw [List.countP_cons_of_neg (by simpa using h1)]
      by_cases h2 : c.suspect = true
      · rw [List.countP_cons_of_pos (by simp [h1, h2])]; simp [h2]; omega
      · rw [List.countP_cons_of_neg (by simp [h2])]; simp [h1, h2]

theorem errorItem_spec (U : Unicode) {t0 t1 : List Ch} {sync : Sync} {key : List Nat} (hk : make_key U t0 t1 sync = .ok key)
    {D : Accdata} {a0 a1 : List Ch} {ms : List Nat} {len1 ch w r s : Int} (hch : 0 ≤ ch)
    (h : PInv D a0 a1 ms ch) : ∃ D', errorItem U t0 t1 sync len1 ch w r s D = .ok D' ∧ PInv D' a0 a1 ms 0 ∧
      D'.errors = D.errors + max ch (max 0 (len1 - w)) ∧
      D'.marked_ops = (if r + s > 0 then add_ops D.marked_ops (opsFor ch (max 0 (len1 - w))) else D.marked_ops) ∧
      D'.unmarked_ops = (if r + s > 0 then D.unmarked_ops else add_ops D.unmarked_ops (opsFor ch (max 0 (len1 - w)))) ∧
      D'.false_marks = D.false_marks := by
  unfold errorItem
  obtain ⟨g, hg⟩ : ∃ g, g = max 0 (len1 - w) := ⟨_, rfl⟩
  simp only [← hg]
  obtain ⟨m1, m2, m3, m4⟩ := h.marked
  obtain ⟨u1, u2, u3, u4⟩ := h.unmarked
  have ht := h.total
  have h5 := h.errors
  have h6 := h.missed
  rw [ht] at h5 h6
  simp only [add_ops] at h5 h6
  by_cases he : max ch g > 0
  · rw [if_pos he, hk]
    simp only [bind_ok, pure_eq]
    by_cases hm : r + s > 0
    · rw [if_pos hm]
      refine ⟨_, rfl, ⟨h.characters, ⟨h.tallied.small, h.tallied.large, h.tallied.total⟩, h.sub, h.rejects, h.suspects, h.false_lo, h.false_hi, ?_, ?_, h.unmarked, ?_, ?_, ?_, ?_, ?_, ?_⟩, rfl, by rw [if_pos hm]; rfl, by rw [if_pos hm]; rfl, rfl⟩
      · simp only [add_conf, add_ops, ht]; omega
      · simp only [add_conf, add_ops, Accops.Sound]; omega
      · simp only [add_conf, add_ops, ht, Accops.mk.injEq]; omega
      · simp only [add_conf, add_ops, ht]; omega
      · simp only [add_conf]
        rw [Store.sum_add Conf.key (·.errors) (max ch g) _ _ _ (fun _ => rfl) rfl, h.conf_err]
      · simp only [add_conf, add_ops]
        rw [Store.sum_add Conf.key (·.marked) (max ch g) _ _ _ (fun _ => rfl) rfl, h.conf_mark]
      · simp only [add_conf]
        refine Store.nodup_add Conf.key _ _ _ ?_ ?_ h.conf_keys
        · intro _; rfl
        · rfl
      · intro c hc
        simp only [add_conf] at hc
        rcases Store.mem_add Conf.key _ _ _ hc with hc | rfl | ⟨c, hc2, _, rfl⟩
        · exact h.conf_ok c hc
        · simp only; omega
        · have := h.conf_ok c hc2; simp only; omega
    · rw [if_neg hm]
      refine ⟨_, rfl, ⟨h.characters, ⟨h.tallied.small, h.tallied.large, h.tallied.total⟩, h.sub, h.rejects, h.suspects, h.false_lo, h.false_hi, ?_, h.marked, ?_, ?_, ?_, ?_, ?_, ?_, ?_⟩, rfl, by rw [if_neg hm]; rfl, by rw [if_neg hm]; rfl, rfl⟩
      · simp only [add_conf, add_ops, ht]; omega
      · simp only [add_conf, add_ops, Accops.Sound]; omega
      · simp only [add_conf, add_ops, ht, Accops.mk.injEq]; omega
      · simp only [add_conf, add_ops, ht]; omega
      · simp only [add_conf]
        rw [Store.sum_add Conf.key (·.errors) (max ch g) _ _ _ (fun _ => rfl) rfl, h.conf_err]
      · simp only [add_conf]
        rw [Store.sum_add Conf.key (·.marked) 0 _ _ _ (fun _ => rfl) rfl, h.conf_mark, add_zero]
      · simp only [add_conf]
        refine Store.nodup_add Conf.key _ _ _ ?_ ?_ h.conf_keys
        · intro _; rfl
        · rfl
      · intro c hc
        simp only [add_conf] at hc
        rcases Store.mem_add Conf.key _ _ _ hc with hc | rfl | ⟨c, hc2, _, rfl⟩
        · exact h.conf_ok c hc
        · simp only; omega
        · have := h.conf_ok c hc2; simp only; omega
  · rw [if_neg he]
    have h0 : ch = 0 := by omega
    subst h0
    have hg0 : g = 0 := by omega
    have hz : ∀ o, add_ops o (opsFor 0 g) = o := by intro o; subst hg0; simp [add_ops, opsFor]
    exact ⟨D, rfl, h, by omega, by simp [hz], by simp [hz], rfl⟩

theorem processItem_spec (U : Unicode) {t0 t1 : List Ch} (hv0 : ∀ c ∈ t0, c.value < 0x10FFFF) (hv1 : ∀ c ∈ t1, c.value < 0x110000)
    {sync : Sync} (hl : sync.substr.length = 2) (h0 : Within (sync.sub 0) t0.length) (h1 : Within (sync.sub 1) t1.length)
    {D : Accdata} {a0 a1 : List Ch} {ms : List Nat} (h : PInv D a0 a1 ms 0) :
    ∃ D', processItem U t0 t1 sync D = .ok D' ∧
      PInv D' (a0 ++ piece t0 (sync.sub 0)) (a1 ++ piece t1 (sync.sub 1)) (ms ++ itemMissed t0 sync) 0 ∧
      D'.errors = D.errors + itemErrors t0 sync ∧
      D'.marked_ops = (if itemMarked t1 sync then add_ops D.marked_ops (itemOps t0 sync) else D.marked_ops) ∧
      D'.unmarked_ops = (if itemMarked t1 sync then D.unmarked_ops else add_ops D.unmarked_ops (itemOps t0 sync)) ∧
      D'.false_marks = D.false_marks + (if sync.mtch.isSome then itemSuspects t1 sync else 0) := by
  obtain ⟨key, hkey⟩ := make_key_spec U (fun c hc => Nat.lt_trans (hv0 c hc) (by decide)) hv1 hl h0 h1
  obtain ⟨ss, mt⟩ := sync
  match ss, hl with
  | [s0, s1], _ =>
    simp only [Sync.sub, List.getD_cons_zero, List.getD_cons_succ] at h0 h1 ⊢
    obtain ⟨b1, b2, b3, b4⟩ := h0
    obtain ⟨c1, c2, c3, c4⟩ := h1
    have q1 : s0.start = ((s0.start.toNat : Nat) : Int) := by omega
    have q2 : (s0.stop + 1 - s0.start).toNat = s0.length.toNat := by omega
    have q3 : s1.start = ((s1.start.toNat : Nat) : Int) := by omega
    have q4 : (s1.stop + 1 - s1.start).toNat = s1.length.toNat := by omega
    unfold processItem
    simp only [rd, List.getElem?_cons_zero, List.getElem?_cons_succ, bind_ok, q2, q4]
    have hm : (if mt.isSome = true then (0 : Int) else 1) = if (!mt.isSome) = true then 1 else 0 := by
      cases mt <;> rfl
    rw [hm, q1, q3]
    obtain ⟨D1, e1, t1', r1⟩ := classLoop_spec hv0 (!mt.isSome) s0.length.toNat s0.start.toNat 0 0 D _ _ h.tallied (by omega)
    rw [e1, markLoop_spec t1 _ _ _ _ (by omega)]
    simp only [bind_ok]
    have hp0 : (t0.drop s0.start.toNat).take s0.length.toNat = piece t0 s0 := rfl
    have hp1 : (t1.drop s1.start.toNat).take s1.length.toNat = piece t1 s1 := rfl
    rw [hp0] at t1' ⊢
    rw [hp1]
    unfold SameRest at r1
    rw [← nonreject_append] at t1'
    have hchar : D.characters + (nonreject (piece t0 s0)).length = (nonreject (a0 ++ piece t0 s0)).length := by
      rw [h.characters, nonreject_append, List.length_append]; omega
    cases hmt : mt with
    | some q =>
      rw [hmt] at t1' 
      simp only [Option.isSome_some, Bool.not_true, Bool.false_eq_true, if_false, List.append_nil] at t1'
      simp only [Option.isSome_some, if_true]
      have k1 := h.false_lo
      have k2 := h.false_hi
      have k3 := h.suspects
      simp only [itemMissed, Option.isSome_some, if_true, List.append_nil]
      have hz : ∀ o : Accops, add_ops o ⟨0, 0, 0, 0⟩ = o := by intro o; simp [add_ops]
      refine ⟨_, rfl, ⟨?_, ⟨t1'.small, t1'.large, t1'.total⟩, ?_, ?_, ?_, ?_, ?_, ?_, ?_, ?_, ?_, ?_, ?_, ?_, ?_, ?_⟩, ?_, ?_, ?_, ?_⟩
      · simp only; rw [r1]; simp only; omega
      · rw [nonreject_append]; exact h.sub.trans (List.sublist_append_left _ _)
      · simp only; rw [r1]; simp only [List.countP_append]; rw [h.rejects]; omega
      · simp only; rw [r1]; simp only [List.countP_append]; omega
      · simp only; rw [r1]; simp only; omega
      · simp only; rw [r1]; simp only; omega
      · simp only; rw [r1]; exact h.errors
      · simp only; rw [r1]; exact h.marked
      · simp only; rw [r1]; exact h.unmarked
      · simp only; rw [r1]; exact h.total
      · simp only; rw [r1]; exact h.missed
      · simp only; rw [r1]; exact h.conf_err
      · simp only; rw [r1]; exact h.conf_mark
      · simp only; rw [r1]; exact h.conf_keys
      · simp only; rw [r1]; exact h.conf_ok
      · simp only [itemErrors, Option.isSome_some, if_true]; rw [r1]; simp
      · simp only [itemOps, Option.isSome_some, if_true, hz, ite_self]; rw [r1]
      · simp only [itemOps, Option.isSome_some, if_true, hz, ite_self]; rw [r1]
      · simp only; rw [r1]; simp [itemSuspects, Sync.sub]
    | none =>
      rw [hmt] at t1' hkey
      simp only [Option.isSome_none, Bool.not_false, if_true] at t1'
      simp only [Option.isSome_none, Bool.false_eq_true, if_false, itemErrors]
      have k1 := h.false_lo
      have k2 := h.false_hi
      have k3 := h.suspects
      have k4 := h.missed
      have key := errorItem_spec U hkey (D := { D1 with
          characters := D1.characters + (0 + ((nonreject (piece t0 s0)).length : Int))
          reject_characters := D1.reject_characters + (0 + (((piece t1 s1).countP (fun c => c.value = REJECT_CHARACTER) : Nat) : Int))
          suspect_markers := D1.suspect_markers + (0 + (((piece t1 s1).countP (fun c => c.value ≠ REJECT_CHARACTER ∧ c.suspect) : Nat) : Int)) })
        (a0 := a0 ++ piece t0 s0) (a1 := a1 ++ piece t1 s1) (ms := ms ++ nonreject (piece t0 s0)) (len1 := s1.length)
        (ch := 0 + ((nonreject (piece t0 s0)).length : Int)) (w := 0 + ((s0.length.toNat : Int) - ((nonreject (piece t0 s0)).length : Int)))
        (r := 0 + (((piece t1 s1).countP (fun c => c.value = REJECT_CHARACTER) : Nat) : Int))
        (s := 0 + (((piece t1 s1).countP (fun c => c.value ≠ REJECT_CHARACTER ∧ c.suspect) : Nat) : Int)) (by omega)
        (by
          refine ⟨?_, ⟨t1'.small, t1'.large, t1'.total⟩, ?_, ?_, ?_, ?_, ?_, ?_, ?_, ?_, ?_, ?_, ?_, ?_, ?_, ?_⟩
          · simp only; rw [r1]; simp only; omega
          · rw [nonreject_append]; exact h.sub.append (List.Sublist.refl _)
          · simp only; rw [r1]; simp only [List.countP_append]; rw [h.rejects]; omega
          · simp only; rw [r1]; simp only [List.countP_append]; omega
          · simp only; rw [r1]; simp only; omega
          · simp only; rw [r1]; simp only; omega
          · simp only; rw [r1]; exact h.errors
          · simp only; rw [r1]; exact h.marked
          · simp only; rw [r1]; exact h.unmarked
          · simp only; rw [r1]; exact h.total
          · simp only; rw [r1]; simp only [List.length_append]; omega
          · simp only; rw [r1]; exact h.conf_err
          · simp only; rw [r1]; exact h.conf_mark
          · simp only; rw [r1]; exact h.conf_keys
          · simp only; rw [r1]; exact h.conf_ok)
      obtain ⟨D', e, hP, he, hmo, huo, hfm⟩ := key
      have w1 : (s0.length.toNat : Int) = s0.length := by omega
      have e1 : D1.errors = D.errors := by rw [r1]
      have e2 : D1.marked_ops = D.marked_ops := by rw [r1]
      have e3 : D1.unmarked_ops = D.unmarked_ops := by rw [r1]
      have e4 : D1.false_marks = D.false_marks := by rw [r1]
      simp only [w1, e1, e2, e3, e4, Int.zero_add, marked_iff] at he hmo huo hfm
      refine ⟨D', e, ?_, ?_, ?_, ?_, ?_⟩
      · simpa [itemMissed, Sync.sub] using hP
      · rw [he]
        simp only [Sync.sub, List.getD_cons_zero, List.getD_cons_succ]
      · rw [hmo]
        simp only [itemMarked, itemOps, Sync.sub, List.getD_cons_zero, List.getD_cons_succ, Option.isSome_none, Bool.false_eq_true, if_false]
      · rw [huo]
        simp only [itemMarked, itemOps, Sync.sub, List.getD_cons_zero, List.getD_cons_succ, Option.isSome_none, Bool.false_eq_true, if_false]
      · rw [hfm]; omega

theorem foldl_ops (t0 : List Ch) : ∀ (l : List Sync) (o : Accops), l.foldl (fun o s => add_ops o (itemOps t0 s)) o =
    add_ops o (sumOps (l.map (itemOps t0))) := by
  intro l
  induction l with
  | nil => intro o; simp [sumOps, add_ops]
  | cons s l ih =>
    intro o
    rw [List.foldl_cons, ih]
    simp only [sumOps, add_ops, List.map_cons, List.sum_cons, Accops.mk.injEq]
    omega

/-- The figures of `D'` are those of `D` plus what the items `l` contribute. -/
structure Added (t0 t1 : List Ch) (l : List Sync) (D D' : Accdata) : Prop where
  errors   : D'.errors = D.errors + (l.map (itemErrors t0)).sum
  marked   : D'.marked_ops = (l.filter (itemMarked t1)).foldl (fun o s => add_ops o (itemOps t0 s)) D.marked_ops
  unmarked : D'.unmarked_ops = (l.filter (fun s => !itemMarked t1 s)).foldl (fun o s => add_ops o (itemOps t0 s)) D.unmarked_ops
  false_marks : D'.false_marks = D.false_marks + ((l.filter (·.mtch.isSome)).map (itemSuspects t1)).sum

theorem process_spec (U : Unicode) {t0 t1 : List Ch} (hv0 : ∀ c ∈ t0, c.value < 0x10FFFF) (hv1 : ∀ c ∈ t1, c.value < 0x110000) :
    ∀ (l : List Sync) (p q : Nat) (D : Accdata) (ms : List Nat), (∀ s ∈ l, s.substr.length = 2) →
      Tiles p (l.map (·.sub 0)) t0.length → Tiles q (l.map (·.sub 1)) t1.length → PInv D (t0.take p) (t1.take q) ms 0 →
      ∃ D', process_synclist U t0 t1 l D = .ok D' ∧ PInv D' t0 t1 (ms ++ l.flatMap (itemMissed t0)) 0 ∧
        Added t0 t1 l D D' := by
  intro l
  induction l with
  | nil =>
    intro p q D ms _ h0 h1 h
    simp only [List.map_nil, Tiles] at h0 h1
    rw [List.take_of_length_le (by omega), List.take_of_length_le (by omega)] at h
    exact ⟨D, rfl, by simpa using h, by simp, rfl, rfl, by simp⟩
  | cons s l ih =>
    intro p q D ms hw h0 h1 h
    simp only [List.map_cons, Tiles] at h0 h1
    obtain ⟨a1, a2, a3, a4⟩ := h0
    obtain ⟨b1, b2, b3, b4⟩ := h1
    have ha := tiles_le a4
    have hb := tiles_le b4
    obtain ⟨D1, e1, P1, r1, m1, u1, f1⟩ := processItem_spec U hv0 hv1 (hw s (by simp)) (D := D) ⟨by omega, a3, by omega, by omega⟩
      ⟨by omega, b3, by omega, by omega⟩ h
    have g0 : t0.take p ++ piece t0 (s.sub 0) = t0.take (p + (s.sub 0).length.toNat) := by
      unfold piece; rw [a1, List.take_add]; simp
    have g1 : t1.take q ++ piece t1 (s.sub 1) = t1.take (q + (s.sub 1).length.toNat) := by
      unfold piece; rw [b1, List.take_add]; simp
    rw [g0, g1] at P1
    obtain ⟨D2, e2, P2, r2⟩ := ih _ _ D1 _ (fun s hs => hw s (by simp [hs]))
      (by have : ((p + (s.sub 0).length.toNat : Nat) : Int) = p + (s.sub 0).length := by omega
          rw [this]; exact a4)
      (by have : ((q + (s.sub 1).length.toNat : Nat) : Int) = q + (s.sub 1).length := by omega
          rw [this]; exact b4) P1
    refine ⟨D2, by rw [process_synclist, e1]; exact e2, by simpa using P2, ?_, ?_, ?_, ?_⟩
    · rw [r2.errors, r1]; simp; omega
    · rw [r2.marked, m1, List.filter_cons]; split <;> rfl
    · rw [r2.unmarked, u1, List.filter_cons]
      by_cases hm : itemMarked t1 s = true
      · simp [hm]
      · simp [hm]
    · rw [r2.false_marks, f1, List.filter_cons]
      by_cases hm : s.mtch.isSome = true
      · simp [hm]; omega
      · simp [hm]

/-! ## The character without a table element -/

/-- Normal end with `P`, or an access outside of a table. -/
def OkOrUb {α : Type} (x : Res α) (P : Prop) : Prop := (∃ a, x = .ok a ∧ P) ∨ x = .ub

theorem add_class_last (D : Accdata) {v : Nat} (hv : v < 0x110000) (c m : Int) : OkOrUb (add_class D v c m) (v ≠ 0x10FFFF) := by
  unfold add_class
  by_cases h : v < 0x10FFFF
  · obtain ⟨k, e, hk, _⟩ := c15_class v h
    rw [e, bind_ok, if_pos ⟨hk, h⟩]
    exact .inl ⟨_, rfl, by omega⟩
  · have : v = 0x10FFFF := by omega
    subst this
    rw [c15_last]; exact .inr rfl

theorem classLoop_last {t0 : List Ch} (hv : ∀ c ∈ t0, c.value < 0x110000) (m : Int) : ∀ (n i : Nat) (ch w : Int) (D : Accdata),
    i + n ≤ t0.length → OkOrUb (classLoop t0 m n i ch w D) (∀ c ∈ (t0.drop i).take n, c.value ≠ 0x10FFFF) := by
  intro n
  induction n with
  | zero => intro i ch w D _; exact .inl ⟨_, rfl, by simp⟩
  | succ n ih =>
    intro i ch w D hl
    have hi : i < t0.length := by omega
    have hcons : (t0.drop i).take (n + 1) = t0[i] :: (t0.drop (i + 1)).take n := by
      rw [List.drop_eq_getElem_cons hi, List.take_succ_cons]
    have hcast : ((i : Int) + 1) = ((i + 1 : Nat) : Int) := by omega
    rw [classLoop, rdI_nat hi, bind_ok, hcons, hcast]
    by_cases hr : t0[i].value = REJECT_CHARACTER
    · rw [if_pos hr]
      rcases ih (i + 1) ch (w + 1) D (by omega) with ⟨a, e, h⟩ | e
      · refine .inl ⟨a, e, ?_⟩
        rintro c (_ | ⟨_, hc⟩)
        · rw [hr]; decide
        · exact h c hc
      · exact .inr e
    · rw [if_neg hr]
      rcases add_class_last D (hv _ (List.getElem_mem hi)) 1 m with ⟨D1, e1, h1⟩ | e1
      · rw [e1, bind_ok]
        rcases ih (i + 1) (ch + 1) w D1 (by omega) with ⟨a, e, h⟩ | e
        · refine .inl ⟨a, e, ?_⟩
          rintro c (_ | ⟨_, hc⟩)
          · exact h1
          · exact h c hc
        · exact .inr e
      · rw [e1]; exact .inr rfl

theorem processItem_last (U : Unicode) {t0 t1 : List Ch} (hv0 : ∀ c ∈ t0, c.value < 0x110000) (hv1 : ∀ c ∈ t1, c.value < 0x110000)
    {sync : Sync} (hl : sync.substr.length = 2) (h0 : Within (sync.sub 0) t0.length) (h1 : Within (sync.sub 1) t1.length)
    (D : Accdata) : OkOrUb (processItem U t0 t1 sync D) (∀ c ∈ piece t0 (sync.sub 0), c.value ≠ 0x10FFFF) := by
  obtain ⟨key, hkey⟩ := make_key_spec U hv0 hv1 hl h0 h1
  obtain ⟨ss, mt⟩ := sync
  match ss, hl with
  | [s0, s1], _ =>
    simp only [Sync.sub, List.getD_cons_zero, List.getD_cons_succ] at h0 h1 ⊢
    obtain ⟨b1, b2, b3, b4⟩ := h0
    obtain ⟨c1, c2, c3, c4⟩ := h1
    have q1 : s0.start = ((s0.start.toNat : Nat) : Int) := by omega
    have q2 : (s0.stop + 1 - s0.start).toNat = s0.length.toNat := by omega
    have q3 : s1.start = ((s1.start.toNat : Nat) : Int) := by omega
    have q4 : (s1.stop + 1 - s1.start).toNat = s1.length.toNat := by omega
    unfold processItem
    simp only [rd, List.getElem?_cons_zero, List.getElem?_cons_succ, bind_ok, q2, q4]
    rw [q1, q3]
    rcases classLoop_last hv0 (if mt.isSome then 0 else 1) s0.length.toNat s0.start.toNat 0 0 D (by omega) with ⟨⟨ch, w, D1⟩, e, h⟩ | e
    · rw [e, bind_ok, markLoop_spec t1 _ _ _ _ (by omega)]
      simp only [bind_ok]
      refine .inl ?_
      split
      · exact ⟨_, rfl, h⟩
      · unfold errorItem
        simp only
        split
        · rw [hkey]; exact ⟨_, rfl, h⟩
        · exact ⟨_, rfl, h⟩
    · rw [e]; exact .inr rfl

theorem process_last (U : Unicode) {t0 t1 : List Ch} (hv0 : ∀ c ∈ t0, c.value < 0x110000) (hv1 : ∀ c ∈ t1, c.value < 0x110000) :
    ∀ (l : List Sync) (p q : Nat) (D : Accdata), (∀ s ∈ l, s.substr.length = 2) →
      Tiles p (l.map (·.sub 0)) t0.length → Tiles q (l.map (·.sub 1)) t1.length →
      OkOrUb (process_synclist U t0 t1 l D) (∀ c ∈ t0.drop p, c.value ≠ 0x10FFFF) := by
  intro l
  induction l with
  | nil =>
    intro p q D _ h0 _
    simp only [List.map_nil, Tiles] at h0
    refine .inl ⟨D, rfl, ?_⟩
    rw [List.drop_eq_nil_of_le (by omega)]; simp
  | cons s l ih =>
    intro p q D hw h0 h1
    simp only [List.map_cons, Tiles] at h0 h1
    obtain ⟨a1, a2, a3, a4⟩ := h0
    obtain ⟨b1, b2, b3, b4⟩ := h1
    have ha := tiles_le a4
    have hb := tiles_le b4
    rw [process_synclist]
    rcases processItem_last U hv0 hv1 (hw s (by simp)) ⟨by omega, a3, by omega, by omega⟩ ⟨by omega, b3, by omega, by omega⟩ D
      with ⟨D1, e1, p1⟩ | e1
    · rw [e1, bind_ok]
      rcases ih (p + (s.sub 0).length.toNat) (q + (s.sub 1).length.toNat) D1 (fun s hs => hw s (by simp [hs]))
        (by have : ((p + (s.sub 0).length.toNat : Nat) : Int) = p + (s.sub 0).length := by omega
            rw [this]; exact a4)
        (by have : ((q + (s.sub 1).length.toNat : Nat) : Int) = q + (s.sub 1).length := by omega
            rw [this]; exact b4) with ⟨D2, e2, p2⟩ | e2
      · refine .inl ⟨D2, e2, ?_⟩
        intro c hc
        rw [take_drop_split t0 p (s.sub 0).length.toNat] at hc
        rcases List.mem_append.1 hc with hc | hc
        · refine p1 c ?_
          unfold piece; rw [a1]; simpa using hc
        · exact p2 c hc
      · exact .inr e2
    · rw [e1]; exact .inr rfl

theorem pinv_zero : PInv Accdata.zero [] [] [] 0 := by
  refine ⟨by simp [Accdata.zero, nonreject], ⟨?_, ?_, ?_⟩, by simp [nonreject], ?_, ?_, ?_, ?_, ?_, ?_, ?_, ?_, ?_, ?_, ?_, ?_, ?_⟩
  all_goals simp [Accdata.zero, nonreject, Accops.Sound, add_ops]

theorem accuracy_spec (U : Unicode) (t0 t1 : List Ch) (hv0 : ∀ c ∈ t0, c.value < 0x10FFFF) (hv1 : ∀ c ∈ t1, c.value < 0x110000) :
    ∃ D r, accuracy U t0 t1 = .ok D ∧ PInv D t0 t1 (r.items.flatMap (itemMissed t0)) 0 ∧ fastukk_sync t0 t1 = .ok r ∧
      Added t0 t1 r.items Accdata.zero D := by
  obtain ⟨r, h1, h2, _, _⟩ := fastukk_spec t0 t1
  obtain ⟨D, e, P, he⟩ := process_spec U hv0 hv1 r.items 0 0 Accdata.zero [] (by simpa using h2.width)
    (by simpa using h2.tiles 0 (by simp)) (by simpa using h2.tiles 1 (by simp)) (by simpa using pinv_zero)
  refine ⟨D, r, ?_, by simpa using P, h1, he⟩
  unfold accuracy; rw [h1]; exact e

end Ocr.Acc
