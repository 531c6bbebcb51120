import Verif.Proof.AccPipe
import Verif.Proof.Accsum
import Verif.Props.Compare

namespace Ocr

theorem Res.Alike.ok_left {α β : Type} {R : α → β → Prop} {x : Res α} {y : Res β} (h : Res.Alike R x y) {b : β} (hy : y = .ok b) :
    ∃ a, x = .ok a ∧ R a b := by
  subst hy
  cases h with
  | ok h => exact ⟨_, rfl, h⟩

theorem Store.sum_key_mem {ε : Type} (keyOf : ε → List Nat) (f : ε → Int) : ∀ {s : List ε} {x : ε}, (s.map keyOf).Nodup → x ∈ s →
    (s.map (fun y => if keyOf y = keyOf x then f y else 0)).sum = f x := by
  intro s
  induction s with
  | nil => intro x _ h; simp at h
  | cons a s ih =>
    intro x hn hx
    rw [List.map_cons, List.nodup_cons] at hn
    rw [List.map_cons, List.sum_cons]
    rcases List.mem_cons.1 hx with rfl | hx
    · have : (s.map (fun y => if keyOf y = keyOf x then f y else 0)).sum = 0 := by
        have hz : s.map (fun y => if keyOf y = keyOf x then f y else 0) = s.map (fun _ => (0 : Int)) := by
          apply List.map_congr_left
          intro y hy
          rw [if_neg]
          intro e
          exact hn.1 (e ▸ List.mem_map_of_mem hy)
        rw [hz]; simp
      simp [this]
    · rw [ih hn.2 hx, if_neg]
      · simp
      · intro e; exact hn.1 (e ▸ List.mem_map_of_mem hx)

end Ocr

namespace Ocr.Acc
open Text Res Charclass Report

theorem IsSum.perm {Es Es' : List Accdata} {D : Accdata} (h : IsSum Es D) (hp : Es.Perm Es') : IsSum Es' D := by
  constructor
  case characters => rw [h.characters]; exact (hp.map _).sum_eq
  case errors => rw [h.errors]; exact (hp.map _).sum_eq
  case rejects => rw [h.rejects]; exact (hp.map _).sum_eq
  case suspects => rw [h.suspects]; exact (hp.map _).sum_eq
  case falses => rw [h.falses]; exact (hp.map _).sum_eq
  case marked =>
    rw [h.marked]; unfold sumOps
    rw [((hp.map _).map _).sum_eq, ((hp.map _).map _).sum_eq, ((hp.map _).map _).sum_eq, ((hp.map _).map _).sum_eq]
  case unmarked =>
    rw [h.unmarked]; unfold sumOps
    rw [((hp.map _).map _).sum_eq, ((hp.map _).map _).sum_eq, ((hp.map _).map _).sum_eq, ((hp.map _).map _).sum_eq]
  case total =>
    rw [h.total]; unfold sumOps
    rw [((hp.map _).map _).sum_eq, ((hp.map _).map _).sum_eq, ((hp.map _).map _).sum_eq, ((hp.map _).map _).sum_eq]
  case small => intro v; rw [(h.small v).1, (h.small v).2]; exact ⟨(hp.map _).sum_eq, (hp.map _).sum_eq⟩
  case large => intro v; rw [(h.large v).1, (h.large v).2]; exact ⟨(hp.map _).sum_eq, (hp.map _).sum_eq⟩
  case all => rw [h.all.1, h.all.2]; exact ⟨(hp.map _).sum_eq, (hp.map _).sum_eq⟩
  case conf => intro k; rw [(h.conf k).1, (h.conf k).2]; exact ⟨(hp.map _).sum_eq, (hp.map _).sum_eq⟩
  case keys => intro k; rw [h.keys k]; simp only [hp.mem_iff]
  case nodup => exact h.nodup

theorem class_ext {a b : Accclass} (h1 : a.count = b.count) (h2 : a.missed = b.missed) : a = b := by
  cases a; cases b; simp_all

theorem IsSum.confs_sub {Es : List Accdata} {D D' : Accdata} (h : IsSum Es D) (h' : IsSum Es D') :
    ∀ c ∈ D.conftable, c ∈ D'.conftable := by
  intro c hc
  have hk := (h'.keys c.key).2 ((h.keys c.key).1 (List.mem_map_of_mem hc))
  obtain ⟨c', hc', e⟩ := List.mem_map.1 hk
  have e1 : confErrors c.key D = c.errors := Store.sum_key_mem Conf.key Conf.errors h.nodup hc
  have e2 : confErrors c'.key D' = c'.errors := Store.sum_key_mem Conf.key Conf.errors h'.nodup hc'
  have m1 : confMarked c.key D = c.marked := Store.sum_key_mem Conf.key Conf.marked h.nodup hc
  have m2 : confMarked c'.key D' = c'.marked := Store.sum_key_mem Conf.key Conf.marked h'.nodup hc'
  have a := h.conf c.key
  have a' := h'.conf c.key
  rw [e] at e2 m2
  have : c' = c := by
    cases c; cases c'
    simp only at e e1 e2 m1 m2 a a' ⊢
    subst e
    rw [← e1, ← e2, ← m1, ← m2, a.1, a.2, a'.1, a'.2]
  exact this ▸ hc'

/-- A sum is determined up to the order of the confusions. -/
theorem IsSum.unique {Es : List Accdata} {D D' : Accdata} (h : IsSum Es D) (h' : IsSum Es D') : D.Same D' := by
  refine ⟨?_, ?_⟩
  · have hs : D'.small_class = D.small_class := by
      funext v; exact class_ext (by rw [(h.small v).1, (h'.small v).1]) (by rw [(h.small v).2, (h'.small v).2])
    have hl : D'.large_class = D.large_class := by
      funext v; exact class_ext (by rw [(h.large v).1, (h'.large v).1]) (by rw [(h.large v).2, (h'.large v).2])
    have ht : D'.total_class = D.total_class := class_ext (by rw [h.all.1, h'.all.1]) (by rw [h.all.2, h'.all.2])
    have e1 := h.characters.trans h'.characters.symm
    have e2 := h.errors.trans h'.errors.symm
    have e3 := h.rejects.trans h'.rejects.symm
    have e4 := h.suspects.trans h'.suspects.symm
    have e5 := h.falses.trans h'.falses.symm
    have e6 := h.marked.trans h'.marked.symm
    have e7 := h.unmarked.trans h'.unmarked.symm
    have e8 := h.total.trans h'.total.symm
    cases D; cases D'
    simp_all
  · have nd : D.conftable.Nodup := List.Nodup.of_map _ h.nodup
    have nd' : D'.conftable.Nodup := List.Nodup.of_map _ h'.nodup
    exact (List.perm_ext_iff_of_nodup nd nd').2 fun c => ⟨h.confs_sub h' c, h'.confs_sub h c⟩

/-! ## The report does not depend on the order of the confusions -/

/-- Confusion counts whose differences are representable as `int`s. -/
def IntCounts (D : Accdata) : Prop := ∀ c ∈ D.conftable, 0 ≤ c.errors ∧ c.errors < 2^31 ∧ 0 ≤ c.marked ∧ c.marked < 2^31

theorem write_same (U : Unicode) (pct : Int → Int → List Nat) {D D' : Accdata} (h : D.Same D') (hn : ∀ c ∈ D.conftable, NulFree c.key)
    (hk : (D.conftable.map Conf.key).Nodup) (hr : IntCounts D) : write_accrpt U pct D' = write_accrpt U pct D := by
  obtain ⟨he, hp⟩ := h
  have hc : write_confs D' = write_confs D := by
    unfold write_confs
    have p1 := Store.in_array_perm Conf.key D.conftable
    have p2 := Store.in_array_perm Conf.key D'.conftable
    obtain ⟨a, ha⟩ : ∃ a, Store.in_array Conf.key D.conftable = a := ⟨_, rfl⟩
    obtain ⟨b, hb⟩ : ∃ b, Store.in_array Conf.key D'.conftable = b := ⟨_, rfl⟩
    rw [ha] at p1; rw [hb] at p2
    simp only [ha, hb]
    have pab : a.Perm b := p1.trans (hp.trans p2.symm)
    obtain ⟨s, s1, s2, _⟩ := c04_confusions a b pab ((p1.map Conf.key).nodup_iff.2 hk) (fun c hc => hn c (p1.mem_iff.1 hc))
      (fun x hx y hy => by
        have := hr x (p1.mem_iff.1 hx); have := hr y (p1.mem_iff.1 hy); omega) a.length (Nat.le_refl _)
    rw [s1, ← pab.length_eq, s2]
  have hsm : ∀ is, write_small U pct D' is = write_small U pct D is := by
    intro is
    induction is with
    | nil => rfl
    | cons i is ih => rw [write_small, write_small, ih, he]
  have hla : ∀ is, write_large pct D' is = write_large pct D is := by
    intro is
    induction is with
    | nil => rfl
    | cons i is ih => rw [write_large, write_large, ih, he]
  have hh : write_head pct D' = write_head pct D := by rw [he]; rfl
  unfold write_accrpt
  simp only [hsm, hla, hh, hc]
  rw [he]

/-! ## Keys read from a file are C strings -/

theorem cstr_no0 (l : List Nat) : 0 ∉ cstr l := by
  intro h
  unfold cstr at h
  induction l with
  | nil => simp at h
  | cons a l ih =>
    rw [List.takeWhile_cons] at h
    split at h
    · rename_i ha
      rcases List.mem_cons.1 h with e | h
      · subst e; simp at ha
      · exact ih h
    · simp at h

theorem read_two_no0 {file rest line : List Nat} {v w : Int} (h : read_two file = some ((v, w, line), rest)) : 0 ∉ line := by
  unfold read_two at h
  obtain ⟨⟨l, f⟩, hl, h⟩ := Option.bind_eq_some_iff.1 h
  unfold read_line at hl
  obtain ⟨⟨x, y⟩, _, hxy⟩ := Option.map_eq_some_iff.1 hl
  simp only [Prod.mk.injEq] at hxy
  simp only at h
  split at h
  · simp only [Option.some.injEq, Prod.mk.injEq] at h
    rw [← h.1.2.2, ← hxy.1]; exact cstr_no0 x
  · simp at h

def NulKeys (D : Accdata) : Prop := ∀ c ∈ D.conftable, NulFree c.key

theorem NulKeys.add {D : Accdata} (h : NulKeys D) {key : List Nat} (hk : NulFree key) (e m : Int) : NulKeys (add_conf D key e m) := by
  intro c hc
  unfold add_conf at hc
  rcases Store.mem_add Conf.key _ _ _ hc with hc | rfl | ⟨c, hc2, _, rfl⟩
  · exact h c hc
  · exact hk
  · exact h c hc2

theorem readConfLoop_nul : ∀ (fuel : Nat) (file : List Nat) (D : Accdata) (r : Accdata × List Nat),
    readConfLoop fuel file D = .ok r → NulKeys D → NulKeys r.1 := by
  intro fuel
  induction fuel with
  | zero =>
    intro file D r h hk
    rw [readConfLoop.eq_def] at h
    simp only at h
    split at h
    · have := Res.ok.inj h; subst this; exact hk
    · simp at h
  | succ fuel ih =>
    intro file D r h hk
    rw [readConfLoop.eq_def] at h
    simp only at h
    split at h
    · have := Res.ok.inj h; subst this; exact hk
    · rename_i v1 v2 line rest hr
      obtain ⟨key, hkey, h⟩ := bind_eq_ok.1 h
      refine ih _ _ _ h (hk.add ?_ _ _)
      have h0 := read_two_no0 hr
      unfold strAt at hkey
      split at hkey
      · have := Res.ok.inj hkey
        subst this
        intro b hb e
        exact h0 (e ▸ (List.drop_suffix _ _).subset hb)
      · simp at hkey

theorem readClassLoop_conf : ∀ (fuel : Nat) (file : List Nat) (D D' : Accdata),
    readClassLoop fuel file D = .ok D' → D'.conftable = D.conftable := by
  intro fuel
  induction fuel with
  | zero =>
    intro file D r h
    rw [readClassLoop.eq_def] at h
    simp only at h
    split at h
    · have := Res.ok.inj h; subst this; rfl
    · simp at h
  | succ fuel ih =>
    intro file D r h
    rw [readClassLoop.eq_def] at h
    simp only at h
    split at h
    · have := Res.ok.inj h; subst this; rfl
    · obtain ⟨_, _, h⟩ := bind_eq_ok.1 h
      obtain ⟨_, _, h⟩ := bind_eq_ok.1 h
      split at h
      · simp at h
      · obtain ⟨D1, h1, h⟩ := bind_eq_ok.1 h
        rw [ih _ _ _ h, add_class_conf h1]

theorem read_nul {D E : Accdata} {file : List Nat} (h : read_accrpt D file = .ok E) (hk : NulKeys D) : NulKeys E := by
  unfold read_accrpt at h
  split at h
  · simp at h
  · obtain ⟨f, _, h⟩ := bind_eq_ok.1 h
    obtain ⟨⟨D1, f1⟩, h1, h⟩ := bind_eq_ok.1 h
    simp only at h
    have k1 : NulKeys D1 := by
      unfold readConfs at h1
      split at h1
      · split at h1
        · exact readConfLoop_nul _ _ _ _ h1 hk
        · have := Res.ok.inj h1; simp only [Prod.mk.injEq] at this; rw [← this.1]; exact hk
      · have := Res.ok.inj h1; simp only [Prod.mk.injEq] at this; rw [← this.1]; exact hk
    unfold readClasses at h
    split at h
    · split at h
      · unfold NulKeys; rw [readClassLoop_conf _ _ _ _ h]; exact k1
      · have := Res.ok.inj h; rw [← this]; exact k1
    · have := Res.ok.inj h; rw [← this]; exact k1

theorem readAll_nul : ∀ (files : List (List Nat)) (D E : Accdata), readAll D files = .ok E → NulKeys D → NulKeys E := by
  intro files
  induction files with
  | nil => intro D E h hk; have := Res.ok.inj h; subst this; exact hk
  | cons f fs ih =>
    intro D E h hk
    rw [readAll] at h
    obtain ⟨D1, h1, h⟩ := bind_eq_ok.1 h
    exact ih _ _ h (read_nul h1 hk)

/-- If several files can be read one after the other, each of them can be read on its own. -/
theorem readAll_each : ∀ (files : List (List Nat)) (D E : Accdata), readAll D files = .ok E →
    ∃ Es, List.Forall₂ (fun f E => read_accrpt Accdata.zero f = .ok E) files Es := by
  intro files
  induction files with
  | nil => intro _ _ _; exact ⟨[], .nil⟩
  | cons f fs ih =>
    intro D E h
    rw [readAll] at h
    obtain ⟨D1, h1, h⟩ := bind_eq_ok.1 h
    obtain ⟨Es, hEs⟩ := ih _ _ h
    obtain ⟨E1, e1, _⟩ := (read_plus (Plus.zero D) f).ok_left h1
    exact ⟨E1 :: Es, .cons e1 hEs⟩

theorem forall₂_perm {α β : Type} {R : α → β → Prop} {a a' : List α} (hp : a.Perm a') : ∀ {b : List β}, List.Forall₂ R a b →
    ∃ b', b.Perm b' ∧ List.Forall₂ R a' b' := by
  induction hp with
  | nil => intro b h; exact ⟨b, .refl _, h⟩
  | cons x _ ih =>
    intro b h
    cases h with
    | cons h1 h2 =>
      obtain ⟨b', p, f⟩ := ih h2
      exact ⟨_ :: b', p.cons _, .cons h1 f⟩
  | swap x y l =>
    intro b h
    cases h with
    | cons h1 h2 => cases h2 with
      | cons h2 h3 => exact ⟨_, .swap _ _ _, .cons h2 (.cons h1 h3)⟩
  | trans _ _ ih1 ih2 =>
    intro b h
    obtain ⟨b1, p1, f1⟩ := ih1 h
    obtain ⟨b2, p2, f2⟩ := ih2 f1
    exact ⟨b2, p1.trans p2, f2⟩

/-! ## Termination of the reading -/

theorem skipClasses_fuel : ∀ (fuel : Nat) (file : List Nat), file.length ≤ fuel → skipClasses fuel file ≠ .fuel := by
  intro fuel
  induction fuel with
  | zero =>
    intro file h
    have : file = [] := List.length_eq_zero_iff.1 (by omega)
    subst this
    rw [skipClasses.eq_def]; simp [read_line_nil]
  | succ fuel ih =>
    intro file h
    rw [skipClasses.eq_def]
    simp only
    split
    · simp
    · rename_i line rest hr
      have := read_line_shorter hr
      split
      · simp
      · exact ih _ (by omega)

theorem strAt_fuel (l : List Nat) (n : Nat) : strAt l n ≠ .fuel := by unfold strAt; split <;> simp

theorem bind_nofuel {α β : Type} {x : Res α} {f : α → Res β} (hx : x ≠ .fuel) (hf : ∀ a, x = .ok a → f a ≠ .fuel) : (x >>= f) ≠ .fuel := by
  cases x with
  | ok a => exact hf a rfl
  | err s => simp [Bind.bind, Res.bind]
  | ub => simp [Bind.bind, Res.bind]
  | fuel => exact absurd rfl hx

theorem readConfLoop_fuel : ∀ (fuel : Nat) (file : List Nat) (D : Accdata), file.length ≤ fuel → readConfLoop fuel file D ≠ .fuel := by
  intro fuel
  induction fuel with
  | zero =>
    intro file D h
    have : file = [] := List.length_eq_zero_iff.1 (by omega)
    subst this
    rw [readConfLoop.eq_def]; simp [read_two_nil]
  | succ fuel ih =>
    intro file D h
    rw [readConfLoop.eq_def]
    simp only
    split
    · simp
    · rename_i hr
      have := read_two_shorter hr
      exact bind_nofuel (strAt_fuel _ _) fun _ _ => ih _ _ (by omega)


theorem rd_fuel {α : Type} (l : List α) (i : Nat) : rd l i ≠ .fuel := by unfold rd; split <;> simp

theorem read_char_fuel (m : List Nat) : read_char m ≠ .fuel := by
  unfold read_char
  refine bind_nofuel (rd_fuel _ _) fun c0 _ => ?_
  split
  · simp
  refine bind_nofuel (rd_fuel _ _) fun c1 _ => ?_
  refine bind_nofuel ?_ fun step _ => ?_
  · split
    · refine bind_nofuel (rd_fuel _ _) fun c2 _ => ?_
      split
      · simp
      refine bind_nofuel ?_ fun nl _ => ?_
      · split
        · exact bind_nofuel (rd_fuel _ _) fun _ _ => by simp
        · simp
      refine bind_nofuel ?_ fun esc _ => ?_
      · split
        · simp
        · split
          · split <;> simp
          · simp
      split
      · simp
      · refine bind_nofuel (rd_fuel _ _) fun c _ => ?_
        split <;> simp
    · split
      · simp
      · simp only
        split
        · refine bind_nofuel (rd_fuel _ _) fun c _ => ?_
          split
          · split
            · simp
            · split <;> simp
          · simp
        · simp
  · split
    · simp
    · refine bind_nofuel (rd_fuel _ _) fun c _ => ?_
      split <;> simp

theorem add_class_fuel (D : Accdata) (v : Nat) (a b : Int) : add_class D v a b ≠ .fuel := by
  unfold add_class
  refine bind_nofuel ?_ fun i _ => ?_
  · unfold charclass
    obtain ⟨t, ht, _⟩ := initialize_spec
    rw [ht, bind_ok]
    split <;> simp
  · split <;> simp

theorem readClassLoop_fuel : ∀ (fuel : Nat) (file : List Nat) (D : Accdata), file.length ≤ fuel → readClassLoop fuel file D ≠ .fuel := by
  intro fuel
  induction fuel with
  | zero =>
    intro file D h
    have : file = [] := List.length_eq_zero_iff.1 (by omega)
    subst this
    rw [readClassLoop.eq_def]; simp [read_two_nil]
  | succ fuel ih =>
    intro file D h
    rw [readClassLoop.eq_def]
    simp only
    split
    · simp
    · rename_i hr
      have := read_two_shorter hr
      refine bind_nofuel (strAt_fuel _ _) fun _ _ => ?_
      refine bind_nofuel (read_char_fuel _) fun _ _ => ?_
      split
      · simp
      · exact bind_nofuel (add_class_fuel _ _ _ _) fun _ _ => ih _ _ (by omega)

/-- Reading a report terminates. -/
theorem read_fuel (D : Accdata) (file : List Nat) : read_accrpt D file ≠ .fuel := by
  unfold read_accrpt
  split
  · simp
  · refine bind_nofuel (skipClasses_fuel _ _ (Nat.le_refl _)) fun f _ => ?_
    refine bind_nofuel ?_ ?_
    · unfold readConfs
      split
      · split
        · exact readConfLoop_fuel _ _ _ (Nat.le_refl _)
        · simp
      · simp
    · rintro ⟨D', f'⟩ _
      show readClasses _ f' D' ≠ .fuel
      unfold readClasses
      split
      · split
        · exact readClassLoop_fuel _ _ _ (Nat.le_refl _)
        · simp
      · simp

/-! ## Large counts -/

theorem fmtLong_len9 {v : Int} (h0 : 10 ^ 8 ≤ v) (h : v < 10 ^ 9) : (fmtLong 8 v).length = 9 := by
  have h1 := decDigits_len 8 v.natAbs (by omega)
  have e : fmtInt v = decDigits v.natAbs := by unfold fmtInt; rw [if_neg (by omega)]
  have h2 : 9 ≤ (decDigits v.natAbs).length := by
    have : ∀ (k n : Nat), 10 ^ k ≤ n → k + 1 ≤ (decDigits n).length := by
      intro k
      induction k with
      | zero => intro n hn; have := List.length_pos_of_ne_nil (decDigits_ne n); omega
      | succ k ih =>
        intro n hn
        have h10 : 10 ≤ n := by
          have : 10 ^ 1 ≤ 10 ^ (k + 1) := Nat.pow_le_pow_right (by omega) (by omega)
          omega
        rw [decDigits, if_neg (by omega), List.length_append]
        have := ih (n / 10) (by rw [Nat.le_div_iff_mul_le (by omega)]; rw [Nat.pow_succ] at hn; exact hn)
        simp; omega
    exact this 8 _ (by omega)
  unfold fmtLong; rw [List.length_append, List.length_replicate, e]; omega

end Ocr.Acc
