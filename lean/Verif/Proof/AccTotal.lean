import Verif.Proof.Programs

/-!
# The sum of the figures of several pages can be reported
-/

namespace Ocr.Acc
open Text Res Charclass Report Sync

/-- The figures of a page are reportable and between 0 and `n`. -/
structure Bounded (n : Nat) (D : Accdata) : Prop where
  rep   : Reportable D
  heads : ∀ x ∈ [D.characters, D.errors, D.reject_characters, D.suspect_markers, D.false_marks], 0 ≤ x ∧ x ≤ n
  ops   : ∀ o ∈ [D.marked_ops, D.unmarked_ops, D.total_ops], ∀ x ∈ [o.ins, o.subst, o.del, o.errors], 0 ≤ x ∧ x ≤ n
  small : ∀ v, (D.small_class v).count ≤ n
  conf  : ∀ k, 0 ≤ confErrors k D ∧ confErrors k D ≤ n ∧ 0 ≤ confMarked k D ∧ confMarked k D ≤ n

theorem sum_ite_le {α : Type} (f : α → Int) (p : α → Prop) [DecidablePred p] : ∀ l : List α, (∀ x ∈ l, 0 ≤ f x) →
    0 ≤ (l.map (fun x => if p x then f x else 0)).sum ∧ (l.map (fun x => if p x then f x else 0)).sum ≤ (l.map f).sum
  | [], _ => by simp
  | a :: l, h => by
    have h1 := sum_ite_le f p l (fun x hx => h x (by simp [hx]))
    have h2 := h a (by simp)
    simp only [List.map_cons, List.sum_cons]
    split <;> omega

theorem accuracy_bounded {U : Unicode} (F : UnicodeFacts U) {t0 t1 : List Ch} (h0 : InTables t0) (h1 : CodePoints t1)
    (hl : t0.length + t1.length < 10^8) {D : Accdata} (h : accuracy U t0 t1 = .ok D) : Bounded (t0.length + t1.length) D := by
  obtain ⟨D1, e1, _, hR, _⟩ := accuracy_data F h0 h1 hl
  rw [h] at e1; cases e1
  obtain ⟨D2, items, e2, hA, _, hE⟩ := c21_exact U t0 t1 h0 h1
  rw [h] at e2; cases e2
  obtain ⟨D3, r, e3, P, _, _⟩ := accuracy_spec U t0 t1 h0 h1
  rw [h] at e3; cases e3
  have he : D.errors ≤ t0.length + t1.length := by
    rw [hE.errors]
    have := sum_tiles t0 items 0 0 _ _ (hA.tiles 0 (by simp)) (hA.tiles 1 (by simp))
    simp only [List.getElem_cons_zero, List.getElem_cons_succ, values, List.length_map] at this
    omega
  have hch := P.characters
  have hnr : (nonreject t0).length ≤ t0.length := by
    unfold nonreject; refine (List.length_filter_le _ _).trans ?_; rw [List.length_map]
  have hcp := List.countP_le_length (p := fun c : Ch => decide (c.value = REJECT_CHARACTER)) (l := t1)
  have hcp2 := List.countP_le_length (p := fun c : Ch => decide (c.value ≠ REJECT_CHARACTER ∧ c.suspect)) (l := t1)
  have hr := P.rejects
  have hs := P.suspects
  have hf1 := P.false_lo
  have hf2 := P.false_hi
  obtain ⟨m1, m2, m3, m4⟩ := P.marked
  obtain ⟨u1, u2, u3, u4⟩ := P.unmarked
  have hto := P.total
  have hte := P.errors
  rw [hto] at hte
  simp only [add_ops] at hte
  refine ⟨hR, ?_, ?_, ?_, ?_⟩
  · intro x hx
    simp only [List.mem_cons, List.not_mem_nil, or_false] at hx
    push_cast
    rcases hx with rfl | rfl | rfl | rfl | rfl <;> omega
  · intro o ho x hx
    simp only [List.mem_cons, List.not_mem_nil, or_false] at ho hx
    push_cast
    rcases ho with rfl | rfl | rfl
    · rcases hx with rfl | rfl | rfl | rfl <;> omega
    · rcases hx with rfl | rfl | rfl | rfl <;> omega
    · rw [hto] at hx; simp only [add_ops] at hx
      rcases hx with rfl | rfl | rfl | rfl <;> omega
  · intro v
    rw [P.tallied.small]
    have := List.count_le_length (a := v) (l := nonreject t0)
    simp only; push_cast; omega
  · intro k
    have a := sum_ite_le (fun c : Conf => c.errors) (fun c => c.key = k) D.conftable (fun c hc => by have := P.conf_ok c hc; omega)
    have b := sum_ite_le (fun c : Conf => c.marked) (fun c => c.key = k) D.conftable (fun c hc => by have := P.conf_ok c hc; omega)
    have a2 := P.conf_err
    have b2 := P.conf_mark
    unfold confErrors confMarked
    push_cast
    omega

/-! ## Sums -/

theorem total_bounds {g : Accdata → Int} (hg : ∀ n D, Bounded n D → 0 ≤ g D ∧ g D ≤ n) {ns : List Nat} {Ds : List Accdata}
    (h : List.Forall₂ Bounded ns Ds) : 0 ≤ (Ds.map g).sum ∧ (Ds.map g).sum ≤ (ns.sum : Nat) := by
  induction h with
  | nil => simp
  | cons h _ ih =>
    have := hg _ _ h
    simp only [List.map_cons, List.sum_cons]
    push_cast at ih ⊢
    omega

theorem sum_swap {α β : Type} (f : α → β → Int) (is : List β) : ∀ l : List α,
    (l.map (fun x => (is.map (f x)).sum)).sum = (is.map (fun i => (l.map (fun x => f x i)).sum)).sum
  | [] => by simp
  | a :: l => by
    simp only [List.map_cons, List.sum_cons]
    rw [sum_swap f is l]
    induction is with
    | nil => simp
    | cons i is ih => simp only [List.map_cons, List.sum_cons]; omega

theorem entry_errors {l : List Conf} (hn : (l.map Conf.key).Nodup) {c : Conf} (hc : c ∈ l) :
    (l.map (fun d => if d.key = c.key then d.errors else 0)).sum = c.errors ∧
    (l.map (fun d => if d.key = c.key then d.marked else 0)).sum = c.marked := by
  induction l with
  | nil => simp at hc
  | cons a l ih =>
    rw [List.map_cons, List.nodup_cons] at hn
    simp only [List.map_cons, List.sum_cons]
    rcases List.mem_cons.1 hc with rfl | hm
    · have z : ∀ g : Conf → Int, (l.map (fun d => if d.key = c.key then g d else 0)).sum = 0 := by
        intro g
        have : l.map (fun d => if d.key = c.key then g d else 0) = l.map (fun _ => 0) :=
          List.map_congr_left (fun d hd => if_neg (fun e : d.key = c.key => hn.1 (List.mem_map.2 ⟨d, hd, e⟩)))
        rw [this]; simp
      simp [z]
    · have : a.key ≠ c.key := fun e => hn.1 (List.mem_map.2 ⟨c, hm, e.symm⟩)
      rw [if_neg this, if_neg this]
      have := ih hn.2 hm
      omega

/-- The sum of bounded figures can be reported, if the sum of the bounds is less than 10^8. -/
theorem IsSum.reportable {ns : List Nat} {Ds : List Accdata} {D : Accdata} (hs : IsSum Ds D) (h : List.Forall₂ Bounded ns Ds)
    (hl : ns.sum < 10^8) : Reportable D := by
  have hall : ∀ E ∈ Ds, ∃ n, Bounded n E := by
    clear hs hl
    induction h with
    | nil => simp
    | cons h _ ih => intro E hE; rcases List.mem_cons.1 hE with rfl | hE; exacts [⟨_, h⟩, ih E hE]
  have head : ∀ g : Accdata → Int, (∀ E : Accdata, g E ∈ [E.characters, E.errors, E.reject_characters, E.suspect_markers, E.false_marks]) →
      0 ≤ (Ds.map g).sum ∧ (Ds.map g).sum < 10^8 := by
    intro g hg
    have := total_bounds (g := g) (fun n E hE => hE.heads _ (hg E)) h
    omega
  have opb : ∀ (o : Accdata → Accops) (g : Accops → Int), (∀ E : Accdata, o E ∈ [E.marked_ops, E.unmarked_ops, E.total_ops]) →
      (∀ p : Accops, g p ∈ [p.ins, p.subst, p.del, p.errors]) → IsLong (Ds.map (fun E => g (o E))).sum := by
    intro o g ho hg
    have := total_bounds (g := fun E => g (o E)) (fun n E hE => hE.ops _ (ho E) _ (hg _)) h
    unfold IsLong; omega
  have opl : ∀ (o : Accdata → Accops), (∀ E : Accdata, o E ∈ [E.marked_ops, E.unmarked_ops, E.total_ops]) →
      ∀ s, s = sumOps (Ds.map o) → IsLong s.ins ∧ IsLong s.subst ∧ IsLong s.del ∧ IsLong s.errors := by
    rintro o ho s rfl
    simp only [sumOps, List.map_map]
    exact ⟨opb o (·.ins) ho (by simp), opb o (·.subst) ho (by simp), opb o (·.del) ho (by simp), opb o (·.errors) ho (by simp)⟩
  have swap : ∀ (is : List Nat) (g : Accclass → Int),
      (Ds.map (fun E => (is.map (fun v => g (E.small_class v))).sum)).sum =
        (is.map (fun v => (Ds.map (fun E => g (E.small_class v))).sum)).sum := fun is g => sum_swap (fun E v => g (E.small_class v)) is Ds
  constructor
  case long =>
    have a := head (·.characters) (by simp); have b := head (·.errors) (by simp); have c := head (·.reject_characters) (by simp)
    have d := head (·.suspect_markers) (by simp); have e := head (·.false_marks) (by simp)
    rw [hs.characters, hs.errors, hs.rejects, hs.suspects, hs.falses]
    unfold IsLong; omega
  case ops =>
    intro o ho
    simp only [List.mem_cons, List.not_mem_nil, or_false] at ho
    rcases ho with rfl | rfl | rfl
    · exact opl (·.marked_ops) (by simp) _ hs.marked
    · exact opl (·.unmarked_ops) (by simp) _ hs.unmarked
    · exact opl (·.total_ops) (by simp) _ hs.total
  case small =>
    intro v
    rw [(hs.small v).1, (hs.small v).2]
    have a := total_bounds (g := fun E => (E.small_class v).count) (fun n E hE => by have := hE.rep.small v; have := hE.small v; omega) h
    have b := total_bounds (g := fun E => (E.small_class v).missed) (fun n E hE => by have := hE.rep.small v; have := hE.small v; omega) h
    have c : (Ds.map (fun E => (E.small_class v).missed)).sum ≤ (Ds.map (fun E => (E.small_class v).count)).sum := by
      clear hs head opb opl swap a b h
      induction Ds with
      | nil => simp
      | cons E Ds ih =>
        have := ih (fun E hE => hall E (by simp [hE]))
        obtain ⟨n, hE⟩ := hall E (by simp)
        have := hE.rep.small v
        simp only [List.map_cons, List.sum_cons]; omega
    omega
  case outside =>
    intro v hv
    rw [(hs.small v).1, List.map_congr_left (g := fun _ => 0) (fun E hE => by obtain ⟨n, hn⟩ := hall E hE; exact hn.rep.outside v hv)]
    simp
  case large =>
    intro c
    rw [(hs.large c).1, (hs.large c).2]
    constructor
    · rw [List.map_congr_left (fun E hE => by obtain ⟨n, hn⟩ := hall E hE; exact (hn.rep.large c).1), swap _ (·.count)]
      exact congrArg List.sum (List.map_congr_left (fun v _ => ((hs.small v).1).symm))
    · rw [List.map_congr_left (fun E hE => by obtain ⟨n, hn⟩ := hall E hE; exact (hn.rep.large c).2), swap _ (·.missed)]
      exact congrArg List.sum (List.map_congr_left (fun v _ => ((hs.small v).2).symm))
  case all =>
    rw [hs.all.1, hs.all.2]
    constructor
    · rw [List.map_congr_left (fun E hE => by obtain ⟨n, hn⟩ := hall E hE; exact hn.rep.all.1), swap _ (·.count)]
      exact congrArg List.sum (List.map_congr_left (fun v _ => ((hs.small v).1).symm))
    · rw [List.map_congr_left (fun E hE => by obtain ⟨n, hn⟩ := hall E hE; exact hn.rep.all.2), swap _ (·.missed)]
      exact congrArg List.sum (List.map_congr_left (fun v _ => ((hs.small v).2).symm))
  case nochars =>
    intro h0 v
    rw [(hs.small v).1]
    rw [hs.characters] at h0
    have : ∀ E ∈ Ds, (E.small_class v).count = 0 := by
      intro E hE
      obtain ⟨n, hn⟩ := hall E hE
      have := (mem_le_sum (Ds.map (·.characters)) (fun x hx => by
        obtain ⟨G, hG, rfl⟩ := List.mem_map.1 hx; obtain ⟨m, hm⟩ := hall G hG; exact (hm.heads _ (by simp)).1)
        (List.mem_map_of_mem (f := (·.characters)) hE)).1
      exact hn.rep.nochars (by omega) v
    rw [List.map_congr_left (g := fun _ => 0) this]; simp
  case noerrors =>
    intro h0
    rw [hs.errors] at h0
    cases hcf : D.conftable with
    | nil => rfl
    | cons c l =>
      obtain ⟨E, hE, hk⟩ := (hs.keys c.key).1 (by rw [hcf]; simp)
      obtain ⟨n, hn⟩ := hall E hE
      have := (mem_le_sum (Ds.map (·.errors)) (fun x hx => by
        obtain ⟨G, hG, rfl⟩ := List.mem_map.1 hx; obtain ⟨m, hm⟩ := hall G hG; exact (hm.heads _ (by simp)).1)
        (List.mem_map_of_mem (f := (·.errors)) hE)).1
      rw [hn.rep.noerrors (by omega)] at hk
      simp at hk
  case nodup => exact hs.nodup
  case confs =>
    intro c hc
    obtain ⟨a, b⟩ := entry_errors hs.nodup hc
    have x := total_bounds (g := confErrors c.key) (fun n E hE => by have := hE.conf c.key; omega) h
    have y := total_bounds (g := confMarked c.key) (fun n E hE => by have := hE.conf c.key; omega) h
    rw [← (hs.conf c.key).1] at x
    rw [← (hs.conf c.key).2] at y
    unfold confErrors at x
    unfold confMarked at y
    omega
  case conf_keys =>
    intro c hc
    obtain ⟨E, hE, hk⟩ := (hs.keys c.key).1 (List.mem_map_of_mem hc)
    obtain ⟨n, hn⟩ := hall E hE
    obtain ⟨d, hd, hdk⟩ := List.mem_map.1 hk
    rw [← hdk]; exact hn.rep.conf_keys d hd

/-! ## Confusions stored in another order -/

theorem conf_same {D E : Accdata} (h : D.Same E) (k : List Nat) : confErrors k E = confErrors k D ∧ confMarked k E = confMarked k D :=
  ⟨(h.2.symm.map _).sum_eq, (h.2.symm.map _).sum_eq⟩

theorem Reportable.same {D E : Accdata} (h : D.Same E) (hr : Reportable D) : Reportable E := by
  have hm : ∀ c ∈ E.conftable, c ∈ D.conftable := fun c hc => h.2.mem_iff.2 hc
  have hn : (E.conftable.map Conf.key).Nodup := (h.2.map Conf.key).nodup_iff.1 hr.nodup
  have h0 : D.conftable = [] → E.conftable = [] := fun e => by have := h.2; rw [e] at this; exact this.nil_eq.symm
  rw [h.1]
  exact ⟨hr.long, hr.ops, hr.small, hr.outside, hr.large, hr.all, hr.nochars, fun e => h0 (hr.noerrors e), hn,
    fun c hc => hr.confs c (hm c hc), fun c hc => hr.conf_keys c (hm c hc)⟩

theorem Bounded.same {n : Nat} {D E : Accdata} (h : D.Same E) (hb : Bounded n D) : Bounded n E := by
  have hc : ∀ k, 0 ≤ confErrors k E ∧ confErrors k E ≤ n ∧ 0 ≤ confMarked k E ∧ confMarked k E ≤ n := by
    intro k; rw [(conf_same h k).1, (conf_same h k).2]; exact hb.conf k
  have hr := Reportable.same h hb.rep
  rw [h.1] at hr hc ⊢
  exact ⟨hr, hb.heads, hb.ops, hb.small, hc⟩

theorem IsSum.same {Es : List Accdata} {D D' : Accdata} (h : D.Same D') (hs : IsSum Es D) : IsSum Es D' := by
  have hc : ∀ k, confErrors k D' = (Es.map (confErrors k)).sum ∧ confMarked k D' = (Es.map (confMarked k)).sum := by
    intro k; rw [(conf_same h k).1, (conf_same h k).2]; exact hs.conf k
  have hk : ∀ k, k ∈ D'.conftable.map Conf.key ↔ ∃ E ∈ Es, k ∈ E.conftable.map Conf.key := by
    intro k; rw [← hs.keys k]; exact ((h.2.map Conf.key).mem_iff).symm
  have hn : (D'.conftable.map Conf.key).Nodup := (h.2.map Conf.key).nodup_iff.1 hs.nodup
  rw [h.1] at hc hk hn ⊢
  exact ⟨hs.characters, hs.errors, hs.rejects, hs.suspects, hs.falses, hs.marked, hs.unmarked, hs.total, hs.small, hs.large, hs.all,
    hc, hk, hn⟩

end Ocr.Acc
