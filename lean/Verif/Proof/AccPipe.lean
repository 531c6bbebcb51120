import Verif.Proof.Accrpt
import Verif.Proof.Accuracy
import Verif.Props.Compare

namespace Ocr.Acc
open Text Res Charclass Report Sync

/-! ## The keys made by accuracy -/

theorem displayLoop_plain {U : Unicode} (F : UnicodeFacts U) {t : List Ch} (hv : ∀ c ∈ t, c.value < 0x110000) :
    ∀ (n : Nat) (j : Int) (b r : List Nat), displayLoop U t n j b = .ok r → Plain b → Plain r ∧ (b.length ≤ 27 → r.length ≤ 27) := by
  intro n
  induction n with
  | zero =>
    intro j b r h hb
    have := Res.ok.inj h
    subst this; exact ⟨hb, id⟩
  | succ n ih =>
    intro j b r h hb
    rw [displayLoop] at h
    obtain ⟨c, hc, h⟩ := bind_eq_ok.1 h
    obtain ⟨s, hs, h⟩ := bind_eq_ok.1 h
    have hcm : c ∈ t := by
      unfold rdI at hc
      split at hc
      · simp at hc
      · unfold rd at hc
        split at hc
        · rename_i a ha
          have := Res.ok.inj hc
          subst this
          exact List.mem_of_getElem? ha
        · simp at hc
    have hs' : charString U false c.value true = .ok s := by
      unfold char_to_string at hs
      obtain ⟨x, hx, hx'⟩ := bind_eq_ok.1 hs
      split at hx'
      · have := Res.ok.inj hx'; subst this; exact hx
      · simp at hx'
    have hp : Plain s := char_bytes F (hv c hcm) hs'
    have hcs : Plain (cstr s) := by
      intro x hx
      exact hp x ((List.takeWhile_prefix _).subset hx)
    simp only [strcat] at h
    have eD : MAX_DISPLAY = 24 := rfl
    have e3 : (ascii "...").length = 3 := by decide
    by_cases c1 : b.length + (cstr s).length > MAX_DISPLAY
    · rw [if_pos c1] at h
      by_cases c2 : b.length + (ascii "...").length + 1 ≤ MAX_DISPLAY + 4
      · rw [if_pos c2] at h
        have := Res.ok.inj h
        subst this
        exact ⟨hb.append (plain_ascii (by decide)), by intro _; rw [List.length_append]; omega⟩
      · rw [if_neg c2] at h; simp at h
    · rw [if_neg c1] at h
      by_cases c2 : b.length + (cstr s).length + 1 ≤ MAX_DISPLAY + 4
      · rw [if_pos c2, bind_ok] at h
        have := ih _ _ _ h (hb.append hcs)
        exact ⟨this.1, fun _ => this.2 (by rw [List.length_append]; omega)⟩
      · rw [if_neg c2, bind_ub] at h; simp at h

/-- What the keys of confusions look like. -/
def KeyOk (k : List Nat) : Prop := ∃ s, k = s ++ [10] ∧ 10 ∉ s ∧ 0 ∉ s ∧ s.length ≤ 77

theorem make_key_ok {U : Unicode} (F : UnicodeFacts U) {t0 t1 : List Ch} (h0 : ∀ c ∈ t0, c.value < 0x110000)
    (h1 : ∀ c ∈ t1, c.value < 0x110000) {sync : Sync} {key : List Nat} (h : make_key U t0 t1 sync = .ok key) : KeyOk key := by
  unfold make_key at h
  obtain ⟨s0, _, h⟩ := bind_eq_ok.1 h
  obtain ⟨b0, hb0, h⟩ := bind_eq_ok.1 h
  obtain ⟨s1, _, h⟩ := bind_eq_ok.1 h
  obtain ⟨b1, hb1, h⟩ := bind_eq_ok.1 h
  have nil : Plain [] := by intro b hb; simp at hb
  obtain ⟨p0, l0⟩ := displayLoop_plain F h0 _ _ _ _ hb0 nil
  obtain ⟨p1, l1⟩ := displayLoop_plain F h1 _ _ _ _ hb1 nil
  simp only at h
  split at h
  · have := Res.ok.inj h
    subst this
    have e : ascii "}\n" = [125] ++ [10] := by decide
    refine ⟨ascii "{" ++ b0 ++ ascii "}-{" ++ b1 ++ [125], by rw [e]; simp, ?_⟩
    have hp : Plain (ascii "{" ++ b0 ++ ascii "}-{" ++ b1 ++ [125]) :=
      ((((plain_ascii (by decide)).append p0).append (plain_ascii (by decide))).append p1).append
        (by intro b hb; simp at hb; subst hb; decide)
    refine ⟨fun h' => (hp _ h').1 rfl, fun h' => (hp _ h').2 rfl, ?_⟩
    have e1 : (ascii "{").length = 1 := by decide
    have e2 : (ascii "}-{").length = 3 := by decide
    have := l0 (by simp)
    have := l1 (by simp)
    simp only [List.length_append, e1, e2, List.length_cons, List.length_nil]; omega
  · simp at h

def KeysOk (D : Accdata) : Prop := ∀ c ∈ D.conftable, KeyOk c.key

theorem KeysOk.add {D : Accdata} (h : KeysOk D) {key : List Nat} (hk : KeyOk key) (e m : Int) : KeysOk (add_conf D key e m) := by
  intro c hc
  unfold add_conf at hc
  rcases Store.mem_add Conf.key _ _ _ hc with hc | rfl | ⟨c, hc2, _, rfl⟩
  · exact h c hc
  · exact hk
  · exact h c hc2

theorem add_class_conf {D D' : Accdata} {v : Nat} {a b : Int} (h : add_class D v a b = .ok D') : D'.conftable = D.conftable := by
  unfold add_class at h
  obtain ⟨c, hc, h⟩ := bind_eq_ok.1 h
  split at h
  · have := Res.ok.inj h; subst this; rfl
  · simp at h

theorem classLoop_conf {t0 : List Ch} {m : Int} : ∀ (n : Nat) (i ch w : Int) (D : Accdata) (r : Int × Int × Accdata),
    classLoop t0 m n i ch w D = .ok r → r.2.2.conftable = D.conftable := by
  intro n
  induction n with
  | zero => intro i ch w D r h; have := Res.ok.inj h; subst this; rfl
  | succ n ih =>
    intro i ch w D r h
    rw [classLoop] at h
    obtain ⟨c, _, h⟩ := bind_eq_ok.1 h
    split at h
    · exact ih _ _ _ _ _ h
    · obtain ⟨D1, h1, h⟩ := bind_eq_ok.1 h
      rw [ih _ _ _ _ _ h, add_class_conf h1]

theorem process_keys {U : Unicode} (F : UnicodeFacts U) {t0 t1 : List Ch} (h0 : ∀ c ∈ t0, c.value < 0x110000)
    (h1 : ∀ c ∈ t1, c.value < 0x110000) : ∀ (l : List Sync) (D D' : Accdata), process_synclist U t0 t1 l D = .ok D' →
    KeysOk D → KeysOk D' := by
  intro l
  induction l with
  | nil => intro D D' h hk; have := Res.ok.inj h; subst this; exact hk
  | cons sync l ih =>
    intro D D' h hk
    rw [process_synclist] at h
    obtain ⟨D2, h2, h⟩ := bind_eq_ok.1 h
    refine ih D2 D' h ?_
    unfold processItem at h2
    obtain ⟨s0, _, h2⟩ := bind_eq_ok.1 h2
    obtain ⟨⟨ch, w, D3⟩, h3, h2⟩ := bind_eq_ok.1 h2
    have hc3 := classLoop_conf _ _ _ _ _ _ h3
    simp only at hc3 h2
    obtain ⟨s1, _, h2⟩ := bind_eq_ok.1 h2
    obtain ⟨⟨r, s⟩, _, h2⟩ := bind_eq_ok.1 h2
    simp only at h2
    have hk3 : KeysOk D3 := by unfold KeysOk; rw [hc3]; exact hk
    split at h2
    · have := Res.ok.inj h2; subst this; exact hk3
    · unfold errorItem at h2
      simp only at h2
      split at h2
      · obtain ⟨key, hkey, h2⟩ := bind_eq_ok.1 h2
        have hko := make_key_ok F h0 h1 hkey
        have := Res.ok.inj h2
        subst this
        show KeysOk _
        split
        · exact KeysOk.add hk3 hko _ _
        · exact KeysOk.add hk3 hko _ _
      · have := Res.ok.inj h2; subst this; exact hk3

/-! ## Counting by character -/

theorem sum_single (v : Nat) : ∀ is : List Nat, is.Nodup → (is.map (fun w => if w = v then (1 : Int) else 0)).sum = if v ∈ is then 1 else 0 := by
  intro is
  induction is with
  | nil => intro _; rfl
  | cons i is ih =>
    intro h
    rw [List.nodup_cons] at h
    rw [List.map_cons, List.sum_cons, ih h.2]
    by_cases hi : i = v
    · subst hi; simp [h.1]
    · simp [hi, Ne.symm hi]

theorem countP_sum (p : Nat → Bool) {is : List Nat} (hn : is.Nodup) : ∀ vs : List Nat, (∀ v ∈ vs, v ∈ is) →
    ((vs.countP p : Nat) : Int) = ((is.filter p).map (fun w => ((vs.count w : Nat) : Int))).sum := by
  intro vs
  induction vs with
  | nil => intro _; simp
  | cons v vs ih =>
    intro h
    have ih := ih (fun w hw => h w (by simp [hw]))
    have hs := sum_single v (is.filter p) (hn.filter _)
    have hsplit : ((is.filter p).map (fun w => (((v :: vs).count w : Nat) : Int))).sum =
        ((is.filter p).map (fun w => ((vs.count w : Nat) : Int))).sum + ((is.filter p).map (fun w => if w = v then (1 : Int) else 0)).sum := by
      generalize is.filter p = l
      clear ih hs h hn
      induction l with
      | nil => rfl
      | cons w l ih =>
        rw [List.map_cons, List.sum_cons, ih, List.map_cons, List.sum_cons, List.map_cons, List.sum_cons]
        by_cases hw : w = v
        · subst hw; rw [List.count_cons_self, if_pos rfl]; omega
        · rw [List.count_cons_of_ne (Ne.symm hw), if_neg hw]; omega
    rw [hsplit, hs, ← ih, List.countP_cons]
    have hv := h v (by simp)
    by_cases hp : p v = true
    · rw [if_pos (List.mem_filter.2 ⟨hv, hp⟩)]; simp [hp]
    · rw [if_neg (by simp [hp])]; simp [hp]

theorem mem_le_sum {c : Int} : ∀ l : List Int, (∀ x ∈ l, 0 ≤ x) → c ∈ l → c ≤ l.sum ∧ 0 ≤ l.sum := by
  intro l
  induction l with
  | nil => intro _ h; simp at h
  | cons a l ih =>
    intro h hc
    have ha := h a (by simp)
    have hl : 0 ≤ l.sum := by
      clear ih hc
      induction l with
      | nil => simp
      | cons b l ih => 
        have := h b (by simp)
        have := ih (fun x hx => h x (by simp at hx ⊢; tauto))
        simp; omega
    simp only [List.sum_cons]
    rcases List.mem_cons.1 hc with rfl | hc
    · omega
    · have := ih (fun x hx => h x (by simp [hx])) hc; omega

/-- The data computed by accuracy can be reported. -/
theorem accuracy_reportable {U : Unicode} (F : UnicodeFacts U) {t0 t1 : List Ch} (hv0 : ∀ c ∈ t0, c.value < 0x10FFFF)
    (hv1 : ∀ c ∈ t1, c.value < 0x110000) {D : Accdata} (h : accuracy U t0 t1 = .ok D) (hc : D.characters < 10^8)
    (he : D.errors < 10^8) (hl : t1.length < 2^63) : Reportable D := by
  obtain ⟨D', r, h', P, _, _⟩ := accuracy_spec U t0 t1 hv0 hv1
  rw [h] at h'
  have := Res.ok.inj h'
  subst this
  generalize r.items.flatMap (itemMissed t0) = ms at P
  have hin : ∀ v ∈ nonreject t0, v < 0x10FFFF := by
    intro v hv
    unfold nonreject at hv
    obtain ⟨c, hc, rfl⟩ := List.mem_map.1 (List.mem_of_mem_filter hv)
    exact hv0 c hc
  obtain ⟨vs, hvs⟩ : ∃ vs, vs = nonreject t0 := ⟨_, rfl⟩
  have T := P.tallied
  have hch := P.characters
  have hsub := P.sub
  rw [← hvs] at T hch hsub hin
  have hcp := List.countP_le_length (p := fun c : Ch => decide (c.value = REJECT_CHARACTER)) (l := t1)
  have hcp2 := List.countP_le_length (p := fun c : Ch => decide (c.value ≠ REJECT_CHARACTER ∧ c.suspect)) (l := t1)
  have hr := P.rejects
  have hs := P.suspects
  have hf1 := P.false_lo
  have hf2 := P.false_hi
  obtain ⟨m1, m2, m3, m4⟩ := P.marked
  obtain ⟨u1, u2, u3, u4⟩ := P.unmarked
  have hto := P.total
  have hte := P.errors
  rw [hto] at hte
  simp only [add_ops] at hte
  have hce : ∀ c ∈ D.conftable, c.errors ≤ D.errors := by
    intro c hc
    rw [← P.conf_err]
    refine (mem_le_sum _ ?_ (List.mem_map_of_mem hc)).1
    intro x hx
    obtain ⟨d, hd, rfl⟩ := List.mem_map.1 hx
    have := P.conf_ok d hd; omega
  have hmsin : ∀ v ∈ ms, v ∈ vs := fun v hv => hsub.subset hv
  constructor
  case long => unfold IsLong; refine ⟨⟨?_, ?_⟩, ⟨?_, ?_⟩, ⟨?_, ?_⟩, ⟨?_, ?_⟩, ⟨?_, ?_⟩⟩ <;> omega
  case ops =>
    intro o ho
    simp only [List.mem_cons, List.not_mem_nil, or_false] at ho
    rcases ho with rfl | rfl | rfl
    · unfold IsLong; omega
    · unfold IsLong; omega
    · rw [hto]; simp only [add_ops, IsLong]; omega
  case small =>
    intro v
    rw [T.small]
    simp only
    have h1 := hsub.count_le v
    have h2 := List.count_le_length (a := v) (l := vs)
    omega
  case outside =>
    intro v hv
    rw [T.small]
    have : v ∉ vs := fun hm => by have := hin v hm; omega
    simp [List.count_eq_zero.2 this]
  case large =>
    intro c
    rw [T.large]
    simp only [T.small]
    have hnd : (List.range NUM_CHARVALUES).Nodup := List.nodup_range
    have hmem : ∀ v ∈ vs, v ∈ List.range NUM_CHARVALUES := fun v hv => List.mem_range.2 (hin v hv)
    exact ⟨countP_sum _ hnd vs hmem, countP_sum _ hnd ms (fun v hv => hmem v (hmsin v hv))⟩
  case all =>
    rw [T.total]
    simp only [T.small]
    have hnd : (List.range NUM_CHARVALUES).Nodup := List.nodup_range
    have hmem : ∀ v ∈ vs, v ∈ List.range NUM_CHARVALUES := fun v hv => List.mem_range.2 (hin v hv)
    have a1 := countP_sum (fun _ => true) hnd vs hmem
    have a2 := countP_sum (fun _ => true) hnd ms (fun v hv => hmem v (hmsin v hv))
    rw [List.filter_true, List.countP_true] at a1 a2
    exact ⟨a1, a2⟩
  case nochars =>
    intro h0 v
    rw [T.small]
    have : vs = [] := List.length_eq_zero_iff.1 (by omega)
    simp [this]
  case noerrors =>
    intro h0
    cases hcf : D.conftable with
    | nil => rfl
    | cons c l =>
      have h1 := P.conf_ok c (by rw [hcf]; simp)
      have h2 := hce c (by rw [hcf]; simp)
      omega
  case nodup => exact P.conf_keys
  case confs =>
    intro c hc
    have h1 := P.conf_ok c hc
    have h2 := hce c hc
    omega
  case conf_keys =>
    have : KeysOk D := by
      unfold accuracy at h
      obtain ⟨r', _, h⟩ := bind_eq_ok.1 h
      exact process_keys F (fun c hc => by have := hv0 c hc; omega) hv1 _ _ _ h (by intro c hc; simp [Accdata.zero] at hc)
    exact this

end Ocr.Acc
