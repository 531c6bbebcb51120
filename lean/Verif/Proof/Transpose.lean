import Verif.Proof.Synchronize

/-!
# transpose_sync
-/

namespace Ocr.Sync
open Text Res

/-- No common run of the two substrings is longer than `n`. -/
def NL (a b : List Nat) (x y : Substr) (n : Int) : Prop :=
  ∀ s1 s2, x.start ≤ s1 → y.start ≤ s2 → NoLonger a b x.stop y.stop s1 s2 n

theorem NL.mono {a b : List Nat} {x y : Substr} {n n' : Int} (h : NL a b x y n) (hn : n ≤ n') : NL a b x y n' := by
  intro s1 s2 h1 h2 t t1 t2 ht
  have := h s1 s2 h1 h2 t t1 t2 ht; omega

/-- The best match found so far. -/
structure BestOK (a b : List Nat) (l1 l2 : List Sync) (best : TBest) : Prop where
  ge : 0 ≤ best.length
  found : best.length = 0 ∨ ∃ s1 s2 p1 p2 x y, best.starts = some (s1, s2) ∧ best.items = some (p1, p2) ∧
    l1[p1]? = some x ∧ l2[p2]? = some y ∧ x.mtch = none ∧ y.mtch = none ∧
    (x.sub 0).start ≤ s1 ∧ s1 + best.length - 1 ≤ (x.sub 0).stop ∧ (y.sub 0).start ≤ s2 ∧ s2 + best.length - 1 ≤ (y.sub 0).stop ∧
    Run a b s1 s2 best.length

theorem only_eq {a : List Nat} {l : List Sync} (h : IsAlignment [a] l) {s : Sync} (hs : s ∈ l) : s.only = .ok (s.sub 0) := by
  have := h.width s hs
  have h0 : 0 < s.substr.length := by simp at this; omega
  simp [Sync.only, Sync.sub, rd, List.getElem?_eq_getElem h0]

theorem mem_bounds {a : List Nat} {l : List Sync} (h : IsAlignment [a] l) {s : Sync} (hs : s ∈ l) :
    0 ≤ (s.sub 0).start ∧ (s.sub 0).stop = (s.sub 0).start + (s.sub 0).length - 1 ∧ 0 ≤ (s.sub 0).length ∧
      (s.sub 0).stop < a.length := by
  obtain ⟨pre, post, rfl⟩ := List.append_of_mem hs
  simpa using item_bounds h (t := 0) (by simp)

theorem NL.short {a b : List Nat} {x y : Substr} {n : Int} (hx : x.stop = x.start + x.length - 1) (h : x.length ≤ n) : NL a b x y n := by
  intro s1 s2 h1 h2 t t1 t2 ht; omega
theorem NL.short' {a b : List Nat} {x y : Substr} {n : Int} (hy : y.stop = y.start + y.length - 1) (h : y.length ≤ n) : NL a b x y n := by
  intro s1 s2 h1 h2 t t1 t2 ht; omega

theorem transInner_spec {a b : List Nat} {l1 l2 : List Sync} (h1 : IsAlignment [a] l1) (h2 : IsAlignment [b] l2)
    {x : Sync} {p1 : Nat} (hx : l1[p1]? = some x) (hxm : x.mtch = none) : ∀ (rest done : List Sync) (best : TBest),
    l2 = done ++ rest → BestOK a b l1 l2 best → (∀ y ∈ done, y.mtch = none → NL a b (x.sub 0) (y.sub 0) best.length) →
    ∃ best', transInner a b (x.sub 0) p1 rest done.length best = .ok best' ∧ BestOK a b l1 l2 best' ∧ best.length ≤ best'.length ∧
      ∀ y ∈ l2, y.mtch = none → NL a b (x.sub 0) (y.sub 0) best'.length := by
  intro rest
  induction rest with
  | nil =>
    intro done best hl hb hd
    refine ⟨best, rfl, hb, le_refl _, ?_⟩
    rw [hl, List.append_nil]; exact hd
  | cons y rest ih =>
    intro done best hl hb hd
    have hy : y ∈ l2 := by rw [hl]; simp
    have hxl : x ∈ l1 := List.mem_of_getElem? hx
    have bx := mem_bounds h1 hxl
    have by_ := mem_bounds h2 hy
    unfold transInner
    rw [only_eq h2 hy]
    simp only [bind_ok]
    have cont : ∀ best' : TBest, best.length ≤ best'.length → BestOK a b l1 l2 best' →
        (y.mtch = none → NL a b (x.sub 0) (y.sub 0) best'.length) →
        ∃ best'', transInner a b (x.sub 0) p1 rest (done.length + 1) best' = .ok best'' ∧ BestOK a b l1 l2 best'' ∧
          best.length ≤ best''.length ∧ ∀ y ∈ l2, y.mtch = none → NL a b (x.sub 0) (y.sub 0) best''.length := by
      intro best' hle hb' hny
      obtain ⟨b2, e, o, m, n⟩ := ih (done ++ [y]) best' (by simp [hl]) hb' (by
        intro z hz hzm
        simp only [List.mem_append, List.mem_singleton] at hz
        rcases hz with hz | rfl
        · exact (hd z hz hzm).mono hle
        · exact hny hzm)
      exact ⟨b2, by simpa using e, o, by omega, n⟩
    have hge := hb.ge
    by_cases hc : y.mtch = none ∧ (y.sub 0).length > best.length
    · rw [if_pos hc]
      obtain ⟨len, m, e, hle, hf, hno⟩ := longest_spec (maxlen0 := best.length) (c1 := a) (c2 := b) (start1 := (x.sub 0).start)
        (stop1 := (x.sub 0).stop) (start2 := (y.sub 0).start) (stop2 := (y.sub 0).stop) (m0 := best.starts) hb.ge bx.2.2.2 by_.2.2.2 bx.1 by_.1
      rw [e]
      simp only [bind_ok]
      rcases hf with ⟨q1, q2⟩ | ⟨q1, s1, s2, q2, q3, q4, q5, q6, q7⟩
      · rw [if_neg (by omega), q2]
        exact cont _ (le_refl _) hb (fun _ => q1 ▸ hno)
      · rw [if_pos (by omega)]
        refine cont _ (by simp only; omega) ⟨by simp only; omega, Or.inr ⟨s1, s2, p1, done.length, x, y, q2, rfl, hx, ?_, hxm, hc.1, q3, q4, q5, q6, q7⟩⟩
          (fun _ => hno)
        rw [hl]; simp
    · rw [if_neg hc]
      refine cont best (le_refl _) hb (fun hym => ?_)
      exact NL.short' by_.2.1 (by
        by_contra hh; exact hc ⟨hym, by omega⟩)

theorem transOuter_spec {a b : List Nat} {l1 l2 : List Sync} (h1 : IsAlignment [a] l1) (h2 : IsAlignment [b] l2) :
    ∀ (rest done : List Sync) (best : TBest), l1 = done ++ rest → BestOK a b l1 l2 best →
    (∀ x ∈ done, x.mtch = none → ∀ y ∈ l2, y.mtch = none → NL a b (x.sub 0) (y.sub 0) best.length) →
    ∃ best', transOuter a b l2 rest done.length best = .ok best' ∧ BestOK a b l1 l2 best' ∧
      ∀ x ∈ l1, x.mtch = none → ∀ y ∈ l2, y.mtch = none → NL a b (x.sub 0) (y.sub 0) best'.length := by
  intro rest
  induction rest with
  | nil =>
    intro done best hl hb hd
    refine ⟨best, rfl, hb, ?_⟩
    intro x hx
    rw [hl, List.append_nil] at hx
    exact hd x hx
  | cons x rest ih =>
    intro done best hl hb hd
    have hx : x ∈ l1 := by rw [hl]; simp
    have hxg : l1[done.length]? = some x := by rw [hl]; simp
    have bx := mem_bounds h1 hx
    unfold transOuter
    rw [only_eq h1 hx]
    simp only [bind_ok]
    have cont : ∀ best' : TBest, best.length ≤ best'.length → BestOK a b l1 l2 best' →
        (x.mtch = none → ∀ y ∈ l2, y.mtch = none → NL a b (x.sub 0) (y.sub 0) best'.length) →
        ∃ best'', transOuter a b l2 rest (done.length + 1) best' = .ok best'' ∧ BestOK a b l1 l2 best'' ∧
          ∀ x ∈ l1, x.mtch = none → ∀ y ∈ l2, y.mtch = none → NL a b (x.sub 0) (y.sub 0) best''.length := by
      intro best' hle hb' hnx
      obtain ⟨b2, e, o, n⟩ := ih (done ++ [x]) best' (by simp [hl]) hb' (by
        intro z hz hzm y hy hym
        simp only [List.mem_append, List.mem_singleton] at hz
        rcases hz with hz | rfl
        · exact (hd z hz hzm y hy hym).mono hle
        · exact hnx hzm y hy hym)
      exact ⟨b2, by simpa using e, o, n⟩
    by_cases hc : x.mtch = none ∧ (x.sub 0).length > best.length
    · rw [if_pos hc]
      obtain ⟨b1, e, o, m, n⟩ := transInner_spec h1 h2 hxg hc.1 l2 [] best rfl hb (by simp)
      simp only [List.length_nil] at e
      rw [e]
      simp only [bind_ok]
      exact cont b1 m o (fun _ => n)
    · rw [if_neg hc]
      refine cont best (le_refl _) hb (fun hxm y hy hym => ?_)
      exact NL.short bx.2.1 (by by_contra hh; exact hc ⟨hxm, by omega⟩)

/-- Number of unmatched characters. -/
def unmatched (l : List Sync) : Int := (l.map (fun s => if s.mtch = none then (s.sub 0).length else 0)).sum

theorem unmatched_append (l l' : List Sync) : unmatched (l ++ l') = unmatched l + unmatched l' := by simp [unmatched]
theorem unmatched_cons (s : Sync) (l : List Sync) : unmatched (s :: l) = (if s.mtch = none then (s.sub 0).length else 0) + unmatched l := by
  simp [unmatched]

theorem unmatched_opt {s : Sync} (hw : s.substr.length = 1) (hs : s.mtch = none) (h : 0 ≤ (s.sub 0).length) :
    unmatched (opt s) = (s.sub 0).length := by
  unfold opt
  split
  · simp [unmatched, hs]
  · rename_i hv
    have : ¬ 0 < (s.sub 0).length := fun h0 => hv ((valid_iff s).2 ⟨0, by omega, h0⟩)
    simp [unmatched]; omega

theorem unmatched_nonneg {a : List Nat} {l : List Sync} (h : IsAlignment [a] l) : 0 ≤ unmatched l := by
  have : ∀ s ∈ l, 0 ≤ (s.sub 0).length := fun s hs => (mem_bounds h hs).2.2.1
  clear h
  induction l with
  | nil => simp [unmatched]
  | cons s l ih =>
    rw [unmatched_cons]
    have h1 := ih (fun s hs => this s (by simp [hs]))
    have h2 := this s (by simp)
    split <;> omega

structure TInv (a b : List Nat) (l1 l2 : List Sync) (next : Nat) : Prop where
  al1 : IsAlignment [a] l1
  al2 : IsAlignment [b] l2
  nd : (l1.filterMap (·.mtch)).Nodup
  lt : ∀ x ∈ l1.filterMap (·.mtch), x < next
  perm : (l2.filterMap (·.mtch)).Perm (l1.filterMap (·.mtch))
  same : ∀ x ∈ l1, ∀ y ∈ l2, x.mtch ≠ none → x.mtch = y.mtch → piece a (x.sub 0) = piece b (y.sub 0)

/-- The effect of `save_match` on one of the two lists. -/
theorem save_one {a : List Nat} {l : List Sync} {next : Nat} (h : IsAlignment [a] l) (hnd : (l.filterMap (·.mtch)).Nodup)
    (hlt : ∀ x ∈ l.filterMap (·.mtch), x < next) {p : Nat} {x : Sync} (hx : l[p]? = some x) (hxm : x.mtch = none)
    {s : Int} {len : Nat} (hpos : 0 < len) (h1 : (x.sub 0).start ≤ s) (h2 : s + len - 1 ≤ (x.sub 0).stop)
    (hrej : 126 ∉ (a.drop s.toNat).take len) (hwl : ((a.drop s.toNat).take len).length = len) :
    ∃ l', save_match l p [s] len next = .ok l' ∧ IsAlignment [a] l' ∧ (l'.filterMap (·.mtch)).Nodup ∧
      (∀ x ∈ l'.filterMap (·.mtch), x < next + 1) ∧ (l'.filterMap (·.mtch)).Perm (next :: l.filterMap (·.mtch)) ∧
      (∀ z ∈ l', z.mtch ≠ none → z ∈ l ∨ (z.mtch = some next ∧ piece a (z.sub 0) = (a.drop s.toNat).take len)) ∧
      unmatched l' = unmatched l - len := by
  have hlp : p < l.length := (List.getElem?_eq_some_iff.1 hx).1
  have hsplit : l = l.take p ++ x :: l.drop (p + 1) := by
    conv_lhs => rw [← List.take_append_drop p l]
    rw [List.drop_eq_getElem_cons hlp, (List.getElem?_eq_some_iff.1 hx).2]
  obtain ⟨pre, hpre⟩ : ∃ pre, pre = l.take p := ⟨_, rfl⟩
  obtain ⟨post, hpost⟩ : ∃ post, post = l.drop (p + 1) := ⟨_, rfl⟩
  have hxl : x ∈ l := List.mem_of_getElem? hx
  have hw := h.width x hxl
  have bx := mem_bounds h hxl
  rw [save_match_eq hx (by simp at hw ⊢; omega)]
  rw [← hpre, ← hpost] at hsplit ⊢
  have hal := alignment_split (q := next) (hsplit ▸ h) (start := [s]) (length := len) rfl hpos (by simp) (by
      intro t ht
      have : t = 0 := by simp at ht; omega
      subst this
      exact ⟨h1, h2⟩) ((a.drop s.toNat).take len) hrej hwl (by
      intro t ht ht'
      have : t = 0 := by simp at ht; omega
      subst this
      rfl)
  have hn := nodup_split (pre := pre) (post := post) (s := x) (l := leftOf x [s]) (r := rightOf x [s] len) (start := [s]) (len := len)
    (q := next) hxm rfl rfl (hsplit ▸ hnd) (by rw [← hsplit]; exact hlt)
  have ho : ∀ x : Sync, x.mtch = none → (opt x).filterMap (·.mtch) = [] := by
    intro x hx; unfold opt; split <;> simp [hx]
  refine ⟨_, rfl, hal, hn.1, hn.2, ?_, ?_, ?_⟩
  · rw [hsplit]
    simp only [List.filterMap_append, ho (leftOf x [s]) rfl, ho (rightOf x [s] len) rfl, List.append_nil, List.filterMap_cons,
      midOf, List.filterMap_nil, hxm, List.append_assoc, List.singleton_append]
    exact List.perm_middle
  · intro z hz hzm
    simp only [List.mem_append, List.mem_singleton] at hz
    rcases hz with (((hz | hz) | hz) | hz) | hz
    · left; rw [hsplit]; simp [hz]
    · obtain ⟨rfl, _⟩ := mem_opt hz; exact absurd rfl hzm
    · right; subst hz; exact ⟨rfl, by simp [midOf, Sync.sub, piece]⟩
    · obtain ⟨rfl, _⟩ := mem_opt hz; exact absurd rfl hzm
    · left; rw [hsplit]; simp [hz]
  · conv_rhs => rw [hsplit]
    simp only [unmatched_append, unmatched_cons, hxm, if_true]
    have hls : ([s] : List Int).length = x.substr.length := by simp at hw ⊢; omega
    have hwl : (leftOf x [s]).substr.length = 1 := by simp at hw; simp [leftOf, hw]
    have hwr : (rightOf x [s] len).substr.length = 1 := by simp at hw; simp [rightOf, hw]
    rw [unmatched_opt hwl rfl, unmatched_opt hwr rfl, sub_left hls (by simp), sub_right hls (by simp)]
    · simp [midOf, unmatched]; omega
    · rw [sub_right hls (by simp)]; show 0 ≤ (x.sub 0).stop - (s + len - 1); omega
    · rw [sub_left hls (by simp)]; show 0 ≤ s - (x.sub 0).start; omega

theorem transLoop_spec {a b : List Nat} : ∀ (fuel : Nat) (l1 l2 : List Sync) (next : Nat), TInv a b l1 l2 next → unmatched l1 ≤ fuel →
    ∃ l1' l2' next', transLoop a b fuel l1 l2 next = .ok (l1', l2') ∧ TInv a b l1' l2' next' ∧
      ∀ x ∈ l1', x.mtch = none → ∀ y ∈ l2', y.mtch = none → NL a b (x.sub 0) (y.sub 0) 0 := by
  intro fuel
  induction fuel with
  | zero =>
    intro l1 l2 next h hu
    obtain ⟨best, e, o, n⟩ := transOuter_spec h.al1 h.al2 l1 [] ⟨0, none, none⟩ rfl ⟨le_refl _, Or.inl rfl⟩ (by simp)
    simp only [List.length_nil] at e
    unfold transLoop
    rw [e]
    simp only [bind_ok]
    rcases o.found with hz | ⟨s1, s2, p1, p2, x, y, f1, f2, f3, f4, f5, f6, f7, f8, f9, f10, f11⟩
    · rw [if_pos hz]
      rw [hz] at n
      exact ⟨l1, l2, next, rfl, h, n⟩
    · by_cases hz : best.length = 0
      · rw [if_pos hz]
        rw [hz] at n
        exact ⟨l1, l2, next, rfl, h, n⟩
      · exfalso
        have hge := o.ge
        obtain ⟨len, hlen⟩ : ∃ k : Nat, best.length = k := ⟨best.length.toNat, by omega⟩
        have bx := mem_bounds h.al1 (List.mem_of_getElem? f3)
        obtain ⟨w1, w2, w3⟩ := run_eq (a := a) (b := a) len s1.toNat s1.toNat (by
          intro t ht
          obtain ⟨c, q1, q2, q3, q4, q5⟩ := f11 t (by omega) (by omega)
          rw [show (s1 + (t : Int)).toNat = s1.toNat + t by omega] at q3
          exact ⟨c, q3, q3, q5⟩)
        obtain ⟨l', _, al', _, _, _, _, hum⟩ := save_one (len := len) h.al1 h.nd h.lt f3 f5 (by omega) f7 (by omega) w2 w3
        have := unmatched_nonneg al'
        omega
  | succ fuel ih =>
    intro l1 l2 next h hu
    obtain ⟨best, e, o, n⟩ := transOuter_spec h.al1 h.al2 l1 [] ⟨0, none, none⟩ rfl ⟨le_refl _, Or.inl rfl⟩ (by simp)
    simp only [List.length_nil] at e
    unfold transLoop
    rw [e]
    simp only [bind_ok]
    by_cases hz : best.length = 0
    · rw [if_pos hz]
      rw [hz] at n
      exact ⟨l1, l2, next, rfl, h, n⟩
    · rw [if_neg hz]
      rcases o.found with hz' | ⟨s1, s2, p1, p2, x, y, f1, f2, f3, f4, f5, f6, f7, f8, f9, f10, f11⟩
      · exact absurd hz' hz
      · have hge := o.ge
        obtain ⟨len, hlen⟩ : ∃ k : Nat, best.length = k := ⟨best.length.toNat, by omega⟩
        have bx := mem_bounds h.al1 (List.mem_of_getElem? f3)
        have by_ := mem_bounds h.al2 (List.mem_of_getElem? f4)
        have hrun := run_eq (a := a) (b := b) len s1.toNat s2.toNat (by
          intro t ht
          obtain ⟨c, q1, q2, q3, q4, q5⟩ := f11 t (by omega) (by omega)
          rw [show (s1 + (t : Int)).toNat = s1.toNat + t by omega] at q3
          rw [show (s2 + (t : Int)).toNat = s2.toNat + t by omega] at q4
          exact ⟨c, q3, q4, q5⟩)
        obtain ⟨w1, w2, w3⟩ := hrun
        rw [f1, f2]
        simp only
        obtain ⟨l1', e1, al1, nd1, lt1, pm1, ns1, hum⟩ := save_one (len := len) h.al1 h.nd h.lt f3 f5 (by omega) f7 (by omega) w2 w3
        have hlt2 : ∀ z ∈ l2.filterMap (·.mtch), z < next := fun z hz => h.lt z (h.perm.mem_iff.1 hz)
        obtain ⟨l2', e2, al2, nd2, lt2, pm2, ns2, _⟩ := save_one (len := len) h.al2 (h.perm.nodup_iff.2 h.nd) hlt2 f4 f6 (by omega) f9
          (by omega) (w1 ▸ w2) (w1 ▸ w3)
        rw [hlen, e1, e2]
        simp only [bind_ok]
        refine ih l1' l2' (next + 1) ⟨al1, al2, nd1, lt1, pm2.trans ((h.perm.cons next).trans pm1.symm), ?_⟩ (by omega)
        intro u hu v hv hum huv
        have hvm : v.mtch ≠ none := huv ▸ hum
        rcases ns1 u hu hum with hu1 | ⟨hu1, hu2⟩
        · rcases ns2 v hv hvm with hv1 | ⟨hv1, hv2⟩
          · exact h.same u hu1 v hv1 hum huv
          · have := h.lt next (List.mem_filterMap.2 ⟨u, hu1, huv.trans hv1⟩)
            omega
        · rcases ns2 v hv hvm with hv1 | ⟨hv1, hv2⟩
          · have := hlt2 next (List.mem_filterMap.2 ⟨v, hv1, huv.symm.trans hu1⟩)
            omega
          · rw [hu2, hv2, w1]

theorem piece_get {a : List Nat} {x : Substr} {c : Nat} (h0 : 0 ≤ x.start) (h : c ∈ piece a x) :
    ∃ i : Nat, (i : Int) < x.length ∧ a[x.start.toNat + i]? = some c := by
  unfold piece at h
  obtain ⟨i, hi⟩ := List.mem_iff_getElem?.1 h
  have hlt : i < x.length.toNat := by
    have := (List.getElem?_eq_some_iff.1 hi).1
    simp only [List.length_take] at this
    omega
  rw [List.getElem?_take, if_pos hlt, List.getElem?_drop] at hi
  exact ⟨i, by omega, hi⟩

/-- `transpose_sync` succeeds; its two lists are alignments of their texts with the same matches, and nothing is left
to match. -/
theorem transpose_spec (a b : List Nat) : ∃ r, transpose_sync a b = .ok r ∧ IsAlignment [a] r.items1 ∧ IsAlignment [b] r.items2 ∧
    Numbered r.items1 r.cells ∧ (r.items2.filterMap (·.mtch)).Perm (r.items1.filterMap (·.mtch)) ∧
    (∀ x ∈ r.items1, ∀ y ∈ r.items2, x.mtch ≠ none → x.mtch = y.mtch → piece a (x.sub 0) = piece b (y.sub 0)) ∧
    (∀ x ∈ r.items1, ∀ y ∈ r.items2, x.mtch = none → y.mtch = none → ∀ c, c ≠ REJECT_CHARACTER →
      c ∈ piece a (x.sub 0) → c ∉ piece b (y.sub 0)) := by
  have i1 := initial_alignment [a]
  have i2 := initial_alignment [b]
  simp only [List.map_cons, List.map_nil] at i1 i2
  have hnone : ∀ n : Nat, (initialize_synclist [n]).filterMap (·.mtch) = [] := by
    intro n; unfold initialize_synclist; simp only; split <;> simp
  have hum : unmatched (initialize_synclist [a.length]) ≤ a.length := by
    unfold initialize_synclist; simp only; split <;> simp [unmatched, Sync.sub]
  obtain ⟨l1, l2, next, e, h, hn⟩ := transLoop_spec (a := a) (b := b) a.length _ _ 0
    ⟨i1, i2, by simp [hnone], by simp [hnone], by simp [hnone], by
      intro x hx _ _ hm
      exfalso
      have : (initialize_synclist [a.length]).filterMap (·.mtch) = [] := hnone _
      rw [List.filterMap_eq_nil_iff] at this
      exact hm (this x hx)⟩ hum
  unfold transpose_sync
  simp only
  rw [e]
  simp only [bind_ok]
  refine ⟨_, rfl, h.al1, h.al2, numbering _ _ h.nd, h.perm, h.same, ?_⟩
  intro x hx y hy hxm hym c hc hcx hcy
  have bx := mem_bounds h.al1 hx
  have by_ := mem_bounds h.al2 hy
  obtain ⟨i, hi1, hi2⟩ := piece_get bx.1 hcx
  obtain ⟨j, hj1, hj2⟩ := piece_get by_.1 hcy
  have := hn x hx hxm y hy hym ((x.sub 0).start + i) ((y.sub 0).start + j) (by omega) (by omega) 1 (by omega) (by omega) (by
    intro t t1 t2
    have : t = 0 := by omega
    subst this
    refine ⟨c, by omega, by omega, ?_, ?_, hc⟩
    · rw [show ((x.sub 0).start + (i : Int) + 0).toNat = (x.sub 0).start.toNat + i by omega]; exact hi2
    · rw [show ((y.sub 0).start + (j : Int) + 0).toNat = (y.sub 0).start.toNat + j by omega]; exact hj2)
  omega

end Ocr.Sync
