import Verif.Proof.SyncList

/-!
# The path list of fastukk_sync reaches the end of both texts after exactly as many levels as the edit distance
-/

namespace Ocr.Sync
open Text Res

/-! ## Distances with signed positions -/

def dS (a b : List Nat) (i j : Int) : Int := dsuf a b i.toNat j.toNat
def dP (a b : List Nat) (i j : Int) : Int := dpre a b i.toNat j.toNat
def MtAt (a b : List Nat) (i j : Int) : Prop :=
  ∃ x, 0 ≤ i ∧ 0 ≤ j ∧ a[i.toNat]? = some x ∧ b[j.toNat]? = some x ∧ x ≠ 126

section Dist
variable {a b : List Nat}

theorem D_le (i j : Int) : (lev a b : Int) ≤ dP a b i j + dS a b i j := by
  have := d_le a b i.toNat j.toNat
  unfold dP dS; omega

theorem D_zero : dS a b 0 0 = lev a b := by simp [dS, dsuf]
theorem D_full : dP a b a.length b.length = lev a b := by simp [dP, dpre]

theorem dS_nonneg (i j : Int) : 0 ≤ dS a b i j := by unfold dS; omega

theorem dS_le {i j : Int} (hi : 0 ≤ i) (hj : 0 ≤ j) (hi' : i ≤ a.length) (hj' : j ≤ b.length) :
    dS a b i j ≤ max (a.length - i) (b.length - j) := by
  have := dsuf_le_max a b i.toNat j.toNat
  unfold dS; omega

theorem dS_ge {i j : Int} (hi : 0 ≤ i) (hj : 0 ≤ j) (hi' : i ≤ a.length) (hj' : j ≤ b.length) :
    (a.length - i) - (b.length - j) ≤ dS a b i j ∧ (b.length - j) - (a.length - i) ≤ dS a b i j := by
  have := dsuf_ge a b i.toNat j.toNat
  unfold dS; omega

theorem D_ge : (a.length : Int) - b.length ≤ lev a b ∧ (b.length : Int) - a.length ≤ lev a b := by
  have := lev_ge_len a b; omega

theorem D_le_max : (lev a b : Int) ≤ max a.length b.length := by
  have := lev_le_max a b; omega

theorem dS_diag {i i' k : Int} (hi : 0 ≤ i) (hj : 0 ≤ i + k) (hii : i ≤ i') (hi' : i' ≤ a.length)
    (hj' : i' + k ≤ b.length) : dS a b i' (i' + k) ≤ dS a b i (i + k) := by
  have := dsuf_diag_add a b (i' - i).toNat i.toNat (i + k).toNat (by omega) (by omega)
  rw [show i.toNat + (i' - i).toNat = i'.toNat by omega, show (i + k).toNat + (i' - i).toNat = (i' + k).toNat by omega] at this
  unfold dS; omega

theorem dP_del {i j : Int} (hi : 0 ≤ i) : dP a b (i + 1) j ≤ dP a b i j + 1 := by
  have := dpre_del a b i.toNat j.toNat
  unfold dP
  rw [show (i + 1).toNat = i.toNat + 1 by omega]; omega

theorem dP_ins {i j : Int} (hj : 0 ≤ j) : dP a b i (j + 1) ≤ dP a b i j + 1 := by
  have := dpre_ins a b i.toNat j.toNat
  unfold dP
  rw [show (j + 1).toNat = j.toNat + 1 by omega]; omega

theorem dP_subst {i j : Int} (hi : 0 ≤ i) (hj : 0 ≤ j) (hi' : i < a.length) (hj' : j < b.length) :
    dP a b (i + 1) (j + 1) ≤ dP a b i j + 1 := by
  have := dpre_subst a b i.toNat j.toNat (by omega) (by omega)
  unfold dP
  rw [show (i + 1).toNat = i.toNat + 1 by omega, show (j + 1).toNat = j.toNat + 1 by omega]; omega

theorem mtAt_iff {i j : Int} (hi : 0 ≤ i) (hj : 0 ≤ j) (hi' : i < a.length) (hj' : j < b.length) :
    MtAt a b i j ↔ Mt (a[i.toNat]'(by omega)) (b[j.toNat]'(by omega)) := by
  unfold MtAt Mt
  rw [List.getElem?_eq_getElem (by omega), List.getElem?_eq_getElem (by omega)]
  constructor
  · rintro ⟨x, _, _, h1, h2, h3⟩
    simp only [Option.some.injEq] at h1 h2
    exact ⟨h1.trans h2.symm, h1 ▸ h3⟩
  · rintro ⟨h1, h2⟩
    exact ⟨_, hi, hj, rfl, by rw [h1], h2⟩

theorem mtAt_lt {i j : Int} (h : MtAt a b i j) : 0 ≤ i ∧ 0 ≤ j ∧ i < a.length ∧ j < b.length := by
  obtain ⟨x, hi, hj, h1, h2, _⟩ := h
  have := (List.getElem?_eq_some_iff.1 h1).1
  have := (List.getElem?_eq_some_iff.1 h2).1
  omega

theorem dP_match {i j : Int} (h : MtAt a b i j) : dP a b (i + 1) (j + 1) ≤ dP a b i j := by
  obtain ⟨hi, hj, hi', hj'⟩ := mtAt_lt h
  have := dpre_match a b i.toNat j.toNat (by omega) (by omega) ((mtAt_iff hi hj hi' hj').1 h)
  unfold dP
  rw [show (i + 1).toNat = i.toNat + 1 by omega, show (j + 1).toNat = j.toNat + 1 by omega]; omega

theorem dP_run {k : Int} : ∀ (t : Nat) (i : Int), (∀ x, i ≤ x → x < i + t → MtAt a b x (x + k)) →
    dP a b (i + t) (i + t + k) ≤ dP a b i (i + k) := by
  intro t
  induction t with
  | zero => intro i _; simp
  | succ t ih =>
    intro i h
    have h1 := ih i (fun x h1 h2 => h x h1 (by omega))
    have h2 := dP_match (h (i + t) (by omega) (by omega))
    rw [show i + ((t + 1 : Nat) : Int) = i + t + 1 by omega, show i + (t : Int) + 1 + k = i + t + k + 1 by omega]
    omega

theorem dS_step {i j : Int} (hi : 0 ≤ i) (hj : 0 ≤ j) (hi' : i ≤ a.length) (hj' : j ≤ b.length)
    (hno : ¬ MtAt a b i j) (hne : ¬ (i = a.length ∧ j = b.length)) :
    (i < a.length ∧ dS a b (i + 1) j + 1 ≤ dS a b i j) ∨
    (j < b.length ∧ dS a b i (j + 1) + 1 ≤ dS a b i j) ∨
    (i < a.length ∧ j < b.length ∧ dS a b (i + 1) (j + 1) + 1 ≤ dS a b i j) := by
  have := dsuf_step a b i.toNat j.toNat (by omega) (by omega)
    (fun h1 h2 h => hno ((mtAt_iff hi hj (by omega) (by omega)).2 h)) (by omega)
  unfold dS
  rw [show (i + 1).toNat = i.toNat + 1 by omega, show (j + 1).toNat = j.toNat + 1 by omega]
  omega

end Dist

/-! ## Cells of a path -/

/-- The path has value `i` on diagonal `k`. -/
def Cell (P : Path) (k i : Int) : Prop := P.start_k ≤ k ∧ P.f[(k - P.start_k).toNat]? = some i
def Shape (P : Path) : Prop := (P.f.length : Int) = P.stop_k - P.start_k + 1

theorem rdI_eq {α : Type} {xs : List α} {i : Int} {x : α} (hi : 0 ≤ i) (h : xs[i.toNat]? = some x) : rdI xs i = .ok x := by
  unfold rdI rd; rw [if_neg (by omega), h]

theorem Cell.rd {P : Path} {k i : Int} (h : Cell P k i) : rdI P.f (k - P.start_k) = .ok i :=
  rdI_eq (by have := h.1; omega) h.2

theorem cell_exists {P : Path} (hs : Shape P) {k : Int} (h1 : P.start_k ≤ k) (h2 : k ≤ P.stop_k) : ∃ i, Cell P k i := by
  unfold Shape at hs
  have : (k - P.start_k).toNat < P.f.length := by omega
  exact ⟨P.f[(k - P.start_k).toNat], h1, List.getElem?_eq_getElem this⟩

theorem Cell.le {P : Path} {k i : Int} (hs : Shape P) (h : Cell P k i) : k ≤ P.stop_k := by
  unfold Shape at hs
  have := (List.getElem?_eq_some_iff.1 h.2).1
  have := h.1
  omega

theorem Cell.inj {P : Path} {k i i' : Int} (h : Cell P k i) (h' : Cell P k i') : i = i' := by
  have := h.2.symm.trans h'.2; simpa using this

/-- One more deletion or substitution if the previous diagonal is not below. -/
def bump (q k : Int) : Int := if q ≥ k then 1 else 0

theorem initialLoop_spec {k : Int} {P : Path} : ∀ (count : Nat) (i result : Int) (pk : Option Int),
    (∀ q, i ≤ q → q < i + count → ∃ u, Cell P q u) →
    ∃ v pk', initialLoop k P count i result pk = .ok (v, pk') ∧ result ≤ v ∧
      (∀ q u, i ≤ q → q < i + count → Cell P q u → u + bump q k ≤ v) ∧
      ((v = result ∧ pk' = pk) ∨ ∃ q u, i ≤ q ∧ q < i + count ∧ pk' = some q ∧ Cell P q u ∧ v = u + bump q k) := by
  intro count
  induction count with
  | zero =>
    intro i result pk _
    exact ⟨result, pk, rfl, le_refl _, by intros; omega, Or.inl ⟨rfl, rfl⟩⟩
  | succ count ih =>
    intro i result pk h
    obtain ⟨u, hu⟩ := h i (le_refl _) (by omega)
    have hval : (if i ≥ k then u + 1 else u) = u + bump i k := by unfold bump; split <;> omega
    have hrest : ∀ q, i + 1 ≤ q → q < i + 1 + count → ∃ u, Cell P q u := fun q h1 h2 => h q (by omega) (by omega)
    unfold initialLoop
    rw [hu.rd]
    simp only [bind_ok, hval]
    by_cases hge : u + bump i k ≥ result
    · rw [if_pos hge]
      obtain ⟨v, pk', h1, h2, h3, h4⟩ := ih (i + 1) (u + bump i k) (some i) hrest
      refine ⟨v, pk', h1, by omega, ?_, ?_⟩
      · intro q u' hq1 hq2 hc
        by_cases hq : q = i
        · subst hq; rw [hc.inj hu]; exact h2
        · exact h3 q u' (by omega) (by omega) hc
      · rcases h4 with ⟨e1, e2⟩ | ⟨q, u', hq1, hq2, e1, e2, e3⟩
        · exact Or.inr ⟨i, u, le_refl _, by omega, e2, hu, e1⟩
        · exact Or.inr ⟨q, u', by omega, by omega, e1, e2, e3⟩
    · rw [if_neg hge]
      obtain ⟨v, pk', h1, h2, h3, h4⟩ := ih (i + 1) result pk hrest
      refine ⟨v, pk', h1, by omega, ?_, ?_⟩
      · intro q u' hq1 hq2 hc
        by_cases hq : q = i
        · subst hq; rw [hc.inj hu]; omega
        · exact h3 q u' (by omega) (by omega) hc
      · rcases h4 with h | ⟨q, u', hq1, hq2, e1, e2, e3⟩
        · exact Or.inl h
        · exact Or.inr ⟨q, u', by omega, by omega, e1, e2, e3⟩

theorem initial_f_spec {k : Int} {P : Path} (hs : Shape P) (hpos : ∀ q u, Cell P q u → 0 ≤ u)
    (hk : ∃ q, k - 1 ≤ q ∧ q ≤ k + 1 ∧ P.start_k ≤ q ∧ q ≤ P.stop_k) :
    ∃ q u, initial_f k (some P) = .ok (u + bump q k, some q) ∧ k - 1 ≤ q ∧ q ≤ k + 1 ∧ Cell P q u ∧
      ∀ q' u', k - 1 ≤ q' → q' ≤ k + 1 → Cell P q' u' → u' + bump q' k ≤ u + bump q k := by
  obtain ⟨q0, hq1, hq2, hq3, hq4⟩ := hk
  unfold initial_f
  simp only
  rw [if_neg (by omega)]
  obtain ⟨c, hc⟩ : ∃ c : Nat, (min (k + 1) P.stop_k - max (k - 1) P.start_k + 1).toNat = c + 1 :=
    ⟨(min (k + 1) P.stop_k - max (k - 1) P.start_k).toNat, by omega⟩
  rw [hc]
  obtain ⟨u, hu⟩ := cell_exists hs (k := max (k - 1) P.start_k) (by omega) (by omega)
  have hval : (if max (k - 1) P.start_k ≥ k then u + 1 else u) = u + bump (max (k - 1) P.start_k) k := by
    unfold bump; split <;> omega
  have hb : 0 ≤ bump (max (k - 1) P.start_k) k := by unfold bump; split <;> omega
  unfold initialLoop
  rw [hu.rd]
  simp only [bind_ok, hval]
  rw [if_pos (by have := hpos _ _ hu; omega)]
  obtain ⟨v, pk', h1, h2, h3, h4⟩ := initialLoop_spec (k := k) (P := P) c (max (k - 1) P.start_k + 1)
    (u + bump (max (k - 1) P.start_k) k) (some (max (k - 1) P.start_k))
    (fun q h1 h2 => cell_exists hs (by omega) (by omega))
  rw [h1]
  have dom : ∀ q' u', k - 1 ≤ q' → q' ≤ k + 1 → Cell P q' u' → u' + bump q' k ≤ v := by
    clear h4
    intro q' u' g1 g2 hc'
    have g3 := hc'.1
    have g4 := hc'.le hs
    by_cases e : q' = max (k - 1) P.start_k
    · subst e; rw [hc'.inj hu]; exact h2
    · exact h3 q' u' (by omega) (by omega) hc'
  rcases h4 with ⟨e1, e2⟩ | ⟨q, u', g1, g2, e1, e2, e3⟩
  · exact ⟨_, u, by rw [e1, e2], by omega, by omega, hu, by rw [← e1]; exact dom⟩
  · exact ⟨q, u', by rw [e1, e3], by omega, by omega, e2, by rw [← e3]; exact dom⟩

theorem extend_spec {a b : List Nat} : ∀ (fuel : Nat) (i k : Int), 0 ≤ i → 0 ≤ i + k → i ≤ a.length → i + k ≤ b.length →
    (a.length : Int) - i ≤ fuel →
    ∃ i', extendLoop a b fuel i (i + k) = .ok i' ∧ i ≤ i' ∧ i' ≤ a.length ∧ i' + k ≤ b.length ∧
      (∀ x, i ≤ x → x < i' → MtAt a b x (x + k)) ∧ ¬ MtAt a b i' (i' + k) := by
  intro fuel
  induction fuel with
  | zero =>
    intro i k h1 h2 h3 h4 h5
    unfold extendLoop
    rw [if_neg (by omega)]
    exact ⟨i, rfl, le_refl _, h3, h4, by intros; omega, fun h => by have := mtAt_lt h; omega⟩
  | succ fuel ih =>
    intro i k h1 h2 h3 h4 h5
    unfold extendLoop
    by_cases hlt : i < a.length ∧ i + k < b.length
    · rw [if_pos hlt]
      have ha : i.toNat < a.length := by omega
      have hb : (i + k).toNat < b.length := by omega
      rw [rdI_eq h1 (List.getElem?_eq_getElem ha), rdI_eq h2 (List.getElem?_eq_getElem hb)]
      simp only [bind_ok]
      have hmt := mtAt_iff (a := a) (b := b) h1 h2 hlt.1 hlt.2
      by_cases hm : a[i.toNat] = b[(i + k).toNat] ∧ a[i.toNat] ≠ REJECT_CHARACTER
      · rw [if_pos hm]
        obtain ⟨i', e, g1, g2, g3, g4, g5⟩ := ih (i + 1) k (by omega) (by omega) (by omega) (by omega) (by omega)
        rw [show i + k + 1 = i + 1 + k by omega]
        refine ⟨i', e, by omega, g2, g3, ?_, g5⟩
        intro x hx1 hx2
        by_cases hx : x = i
        · subst hx; exact hmt.2 hm
        · exact g4 x (by omega) hx2
      · rw [if_neg hm]
        exact ⟨i, rfl, le_refl _, h3, h4, by intros; omega, fun h => hm (hmt.1 h)⟩
    · rw [if_neg hlt]
      exact ⟨i, rfl, le_refl _, h3, h4, by intros; omega, fun h => by have := mtAt_lt h; omega⟩

/-! ## One level -/

/-- What `initial_f` returns. -/
def InitOK (prev : Option Path) (k i0 : Int) (pk : Option Int) : Prop :=
  match prev with
  | none => i0 = 0 ∧ k = 0
  | some P => ∃ q u, pk = some q ∧ Cell P q u ∧ k - 1 ≤ q ∧ q ≤ k + 1 ∧ i0 = u + bump q k ∧
      ∀ q' u', k - 1 ≤ q' → q' ≤ k + 1 → Cell P q' u' → u' + bump q' k ≤ i0

/-- A correct value on diagonal `k` of level `p`. -/
structure CellOK (a b : List Nat) (p : Nat) (prev : Option Path) (k i : Int) : Prop where
  klo : -(p : Int) ≤ k
  khi : k ≤ p
  i0  : 0 ≤ i
  im  : i ≤ a.length
  j0  : 0 ≤ i + k
  jn  : i + k ≤ b.length
  reach : dP a b i (i + k) ≤ p
  stop  : ¬ MtAt a b i (i + k)
  from_ : ∃ s pk, initial_f k prev = .ok (s, pk) ∧ InitOK prev k s pk ∧ 0 ≤ s ∧ 0 ≤ s + k ∧ s ≤ i ∧
    ∀ x, s ≤ x → x < i → MtAt a b x (x + k)

/-- What is known before level `p`. -/
structure Pre (a b : List Nat) (p : Nat) (prev : Option Path) (omin omax : Int) : Prop where
  init : ∀ k, omin ≤ k → k ≤ omax → -(p : Int) ≤ k → k ≤ p → ∃ s pk, initial_f k prev = .ok (s, pk) ∧ InitOK prev k s pk ∧
    0 ≤ s ∧ s ≤ a.length ∧ 0 ≤ s + k ∧ s + k ≤ b.length ∧ dP a b s (s + k) ≤ p
  lo : omin ≤ (b.length : Int) - a.length
  hi : (b.length : Int) - a.length ≤ omax
  lop : omin ≤ p
  hip : -(p : Int) ≤ omax

def FState.path (p : Int) (s : FState) : Path := ⟨p, s.start_k, s.stop_k, s.diags⟩

/-- Invariant within a level. -/
structure Mid (a b : List Nat) (p : Nat) (prev : Option Path) (omin omax : Int) (s : FState) : Prop where
  shape : s.diags ≠ [] → Shape (s.path p)
  cells : ∀ k i, Cell (s.path p) k i → CellOK a b p prev k i
  lo : omin ≤ s.min_k
  hi : s.max_k ≤ omax
  hitmin : ∀ k, Cell (s.path p) k a.length → k < s.min_k
  hitmax : ∀ k i, Cell (s.path p) k i → i + k = b.length → s.max_k < k
  minOK : ∀ k, k < s.min_k → k < omin ∨ (b.length : Int) - a.length - 2 * k > lev a b ∨
    ∃ k2, k ≤ k2 ∧ Cell (s.path p) k2 a.length
  maxOK : ∀ k, s.max_k < k → omax < k ∨ 2 * k - ((b.length : Int) - a.length) > lev a b ∨
    ∃ k2 i, k2 ≤ k ∧ Cell (s.path p) k2 i ∧ i + k2 = b.length

theorem cell_nil {p x y : Int} {k i mn mx : Int} (h : Cell (FState.path p ⟨mn, mx, x, y, []⟩) k i) : False := by
  have := h.2; simp [FState.path] at this

theorem compute_f_spec {a b : List Nat} {p : Nat} {prev : Option Path} {omin omax : Int} {s : FState}
    (hpre : Pre a b p prev omin omax) (hm : Mid a b p prev omin omax s) {k : Int}
    (h1 : omin ≤ k) (h2 : k ≤ omax) (h3 : -(p : Int) ≤ k) (h4 : k ≤ p)
    (hadj : s.diags = [] ∨ k = s.start_k - 1 ∨ k = s.stop_k + 1)
    (hkmin : s.min_k ≤ k ∨ (b.length : Int) - a.length ≤ k) (hkmax : k ≤ s.max_k ∨ k ≤ (b.length : Int) - a.length) :
    ∃ s', compute_f a b p prev k s = .ok s' ∧ Mid a b p prev omin omax s' ∧ s.min_k ≤ s'.min_k ∧ s'.max_k ≤ s.max_k ∧
      s'.diags ≠ [] ∧ (∃ i, Cell (s'.path p) k i) ∧ (∀ k' i', Cell (s.path p) k' i' → Cell (s'.path p) k' i') ∧
      s'.start_k = (if s.diags = [] then k else min k s.start_k) ∧ s'.stop_k = (if s.diags = [] then k else max k s.stop_k) := by
  obtain ⟨i0, pk, e1, e2, e3, e4, e5, e6, e7⟩ := hpre.init k h1 h2 h3 h4
  obtain ⟨i, x1, x2, x3, x4, x5, x6⟩ := extend_spec (a := a) (b := b) a.length i0 k e3 e5 e4 e6 (by omega)
  have hplo := hpre.lo
  have hphi := hpre.hi
  have hreach : dP a b i (i + k) ≤ p := by
    have := dP_run (a := a) (b := b) (k := k) (i - i0).toNat i0 (fun x g1 g2 => x5 x g1 (by omega))
    rw [show i0 + ((i - i0).toNat : Int) = i by omega] at this
    omega
  have hcell : CellOK a b p prev k i :=
    ⟨h3, h4, by omega, x3, by omega, x4, hreach, x6, i0, pk, e1, e2, e3, e5, x2, x5⟩
  obtain ⟨bound, hbound⟩ : ∃ bound, bound = (p : Int) + max (a.length : Int) ((b.length : Int) - k) - i := ⟨_, rfl⟩
  have hB : (lev a b : Int) ≤ bound := by
    have g1 := D_le (a := a) (b := b) i (i + k)
    have g2 := dS_le (a := a) (b := b) (i := i) (j := i + k) (by omega) (by omega) x3 x4
    omega
  have hD := D_ge (a := a) (b := b)
  obtain ⟨mn1, hmn1⟩ : ∃ x, x = if i = a.length then k + 1 else s.min_k := ⟨_, rfl⟩
  obtain ⟨mx1, hmx1⟩ : ∃ x, x = if i + k = b.length then k - 1 else s.max_k := ⟨_, rfl⟩
  obtain ⟨v1, hv1⟩ : ∃ x, x = (1 - bound + ((b.length : Int) - a.length)) / 2 := ⟨_, rfl⟩
  obtain ⟨v2, hv2⟩ : ∃ x, x = (bound + ((b.length : Int) - a.length)) / 2 := ⟨_, rfl⟩
  obtain ⟨mn, hmn⟩ : ∃ x, x = if v1 > mn1 then v1 else mn1 := ⟨_, rfl⟩
  obtain ⟨mx, hmx⟩ : ∃ x, x = if v2 < mx1 then v2 else mx1 := ⟨_, rfl⟩
  -- the limits move inwards
  have hmono1 : s.min_k ≤ mn1 := by
    rw [hmn1]; split
    · rename_i hi
      rcases hkmin with g | g
      · omega
      · by_contra hc
        rcases hm.minOK ((b.length : Int) - a.length + 1) (by omega) with g1 | g1 | ⟨k2, g1, g2⟩
        · omega
        · omega
        · have := (hm.cells _ _ g2).jn; omega
    · omega
  have hmono2 : mx1 ≤ s.max_k := by
    rw [hmx1]; split
    · rename_i hj
      rcases hkmax with g | g
      · omega
      · by_contra hc
        rcases hm.maxOK ((b.length : Int) - a.length - 1) (by omega) with g1 | g1 | ⟨k2, i2, g1, g2, g3⟩
        · omega
        · omega
        · have := (hm.cells _ _ g2).im; omega
    · omega
  have hle1 : mn1 ≤ mn := by rw [hmn]; split <;> omega
  have hle2 : mx ≤ mx1 := by rw [hmx]; split <;> omega
  -- the new state
  suffices key : ∀ s' : FState, s'.min_k = mn → s'.max_k = mx → s'.diags ≠ [] → Shape (s'.path p) →
      (∀ k' i', Cell (s'.path p) k' i' ↔ Cell (s.path p) k' i' ∨ (k' = k ∧ i' = i)) →
      Mid a b p prev omin omax s' ∧ s.min_k ≤ s'.min_k ∧ s'.max_k ≤ s.max_k ∧ s'.diags ≠ [] ∧
      (∃ i, Cell (s'.path p) k i) ∧ (∀ k' i', Cell (s.path p) k' i' → Cell (s'.path p) k' i') by
    unfold compute_f
    rw [e1]
    simp only [bind_ok]
    rw [x1]
    simp only [bind_ok]
    rw [← hbound, ← hmn1, ← hmx1, ← hv1, ← hv2, ← hmn, ← hmx]
    by_cases hd : s.diags = []
    · rw [if_pos hd]
      have := key ⟨mn, mx, k, k, [i]⟩ rfl rfl (by simp) (by simp [Shape, FState.path]) (by
        intro k' i'
        constructor
        · rintro ⟨g1, g2⟩
          simp only [FState.path] at g1 g2
          by_cases e : k' = k
          · subst e; simp at g2; exact Or.inr ⟨rfl, g2.symm⟩
          · rw [List.getElem?_eq_none (by simp; omega)] at g2; simp at g2
        · rintro (⟨g1, g2⟩ | ⟨rfl, rfl⟩)
          · simp [FState.path, hd] at g2
          · simp [Cell, FState.path])
      obtain ⟨r1, r2, r3, r4, r5, r6⟩ := this
      exact ⟨_, rfl, r1, r2, r3, r4, r5, r6, by simp [hd], by simp [hd]⟩
    · have hsh := hm.shape hd
      have hlen : (s.diags.length : Int) = s.stop_k - s.start_k + 1 := hsh
      have hpos := List.length_pos_iff.2 hd
      rw [if_neg hd]
      by_cases hks : k < s.start_k
      · rw [if_pos hks]
        have hk' : k = s.start_k - 1 := by
          rcases hadj with g | g | g
          · exact absurd g hd
          · exact g
          · omega
        have := key ⟨mn, mx, k, s.stop_k, i :: s.diags⟩ rfl rfl (by simp) (by simp [Shape, FState.path]; omega) (by
          intro k' i'
          unfold Cell
          simp only [FState.path]
          by_cases e : k' = k
          · subst e
            simp only [Int.sub_self, Int.toNat_zero, List.getElem?_cons_zero, Option.some.injEq, le_refl, true_and]
            constructor
            · intro e; exact Or.inr e.symm
            · rintro (⟨g, _⟩ | e)
              · omega
              · exact e.symm
          · constructor
            · rintro ⟨g1, g2⟩
              rw [show (k' - k).toNat = (k' - s.start_k).toNat + 1 by omega, List.getElem?_cons_succ] at g2
              exact Or.inl ⟨by omega, g2⟩
            · rintro (⟨g1, g2⟩ | ⟨g, _⟩)
              · rw [show (k' - k).toNat = (k' - s.start_k).toNat + 1 by omega, List.getElem?_cons_succ]
                exact ⟨by omega, g2⟩
              · exact absurd g e)
        obtain ⟨r1, r2, r3, r4, r5, r6⟩ := this
        exact ⟨_, rfl, r1, r2, r3, r4, r5, r6, by simp [hd]; omega, by simp [hd]; omega⟩
      · rw [if_neg hks]
        have hk' : k = s.stop_k + 1 := by
          rcases hadj with g | g | g
          · exact absurd g hd
          · omega
          · exact g
        have := key ⟨mn, mx, s.start_k, k, s.diags ++ [i]⟩ rfl rfl (by simp) (by simp [Shape, FState.path]; omega) (by
          intro k' i'
          unfold Cell
          simp only [FState.path]
          by_cases e : k' = k
          · subst e
            rw [List.getElem?_append_right (by omega), List.getElem?_eq_none (l := s.diags) (by omega)]
            rw [show (k' - s.start_k).toNat - s.diags.length = 0 by omega]
            simp only [List.getElem?_cons_zero, Option.some.injEq, true_and, reduceCtorEq, and_false, false_or]
            exact ⟨fun g => g.2.symm, fun g => ⟨by omega, g.symm⟩⟩
          · constructor
            · rintro ⟨g1, g2⟩
              have : (k' - s.start_k).toNat < s.diags.length := by
                by_contra hc
                rw [List.getElem?_eq_none (by simp; omega)] at g2; simp at g2
              rw [List.getElem?_append_left this] at g2
              exact Or.inl ⟨g1, g2⟩
            · rintro (⟨g1, g2⟩ | ⟨g, _⟩)
              · have := (List.getElem?_eq_some_iff.1 g2).1
                exact ⟨g1, by rw [List.getElem?_append_left this]; exact g2⟩
              · exact absurd g e)
        obtain ⟨r1, r2, r3, r4, r5, r6⟩ := this
        exact ⟨_, rfl, r1, r2, r3, r4, r5, r6, by simp [hd]; omega, by simp [hd]; omega⟩
  intro s' hs1 hs2 hs3 hs4 hcells
  refine ⟨?_, by omega, by omega, hs3, ⟨i, (hcells _ _).2 (Or.inr ⟨rfl, rfl⟩)⟩, fun k' i' g => (hcells _ _).2 (Or.inl g)⟩
  refine ⟨fun _ => hs4, ?_, by have := hm.lo; omega, by have := hm.hi; omega, ?_, ?_, ?_, ?_⟩
  · intro k' i' g
    rcases (hcells _ _).1 g with g | ⟨rfl, rfl⟩
    · exact hm.cells _ _ g
    · exact hcell
  · intro k' g
    rcases (hcells _ _).1 g with g | ⟨rfl, g⟩
    · have := hm.hitmin _ g; omega
    · rw [if_pos g.symm] at hmn1; omega
  · intro k' i' g hj
    rcases (hcells _ _).1 g with g | ⟨rfl, rfl⟩
    · have := hm.hitmax _ _ g hj; omega
    · rw [if_pos hj] at hmx1; omega
  · intro k' g
    rw [hs1] at g
    by_cases g1 : k' < mn1
    · by_cases hi : i = a.length
      · rw [if_pos hi] at hmn1
        exact Or.inr (Or.inr ⟨k, by omega, (hcells _ _).2 (Or.inr ⟨rfl, hi.symm⟩)⟩)
      · rw [if_neg hi] at hmn1
        rcases hm.minOK k' (by omega) with r | r | ⟨k2, r1, r2⟩
        · exact Or.inl r
        · exact Or.inr (Or.inl r)
        · exact Or.inr (Or.inr ⟨k2, r1, (hcells _ _).2 (Or.inl r2)⟩)
    · right; left
      split at hmn <;> omega
  · intro k' g
    rw [hs2] at g
    by_cases g1 : mx1 < k'
    · by_cases hj : i + k = b.length
      · rw [if_pos hj] at hmx1
        exact Or.inr (Or.inr ⟨k, i, by omega, (hcells _ _).2 (Or.inr ⟨rfl, rfl⟩), hj⟩)
      · rw [if_neg hj] at hmx1
        rcases hm.maxOK k' (by omega) with r | r | ⟨k2, i2, r1, r2, r3⟩
        · exact Or.inl r
        · exact Or.inr (Or.inl r)
        · exact Or.inr (Or.inr ⟨k2, i2, r1, (hcells _ _).2 (Or.inl r2), r3⟩)
    · right; left
      split at hmx <;> omega

/-! ## The loops of a level -/

theorem down_spec {a b : List Nat} {p : Nat} {prev : Option Path} {omin omax : Int} (hpre : Pre a b p prev omin omax) :
    ∀ (fuel : Nat) (k : Int) (s : FState), Mid a b p prev omin omax s → k ≤ (b.length : Int) - a.length → k ≤ p →
    (-(p : Int) ≤ k → s.diags = [] ∨ s.start_k = k + 1) → k + p + 1 ≤ fuel →
    ∃ s', downLoop a b p prev fuel k s = .ok s' ∧ Mid a b p prev omin omax s' ∧ s.min_k ≤ s'.min_k ∧ s'.max_k ≤ s.max_k ∧
      (∀ k' i', Cell (s.path p) k' i' → Cell (s'.path p) k' i') ∧
      (∀ k', -(p : Int) ≤ k' → k' ≤ k → (∃ i, Cell (s'.path p) k' i) ∨ k' < s'.min_k) ∧
      (s.diags ≠ [] → s'.diags ≠ [] ∧ s'.stop_k = s.stop_k) ∧
      (s.diags = [] → max s.min_k (-(p : Int)) ≤ k → s'.diags ≠ [] ∧ s'.stop_k = k) := by
  intro fuel
  induction fuel with
  | zero =>
    intro k s hm h1 h2 h3 h4
    unfold downLoop
    rw [if_neg (by omega)]
    exact ⟨s, rfl, hm, le_refl _, le_refl _, fun _ _ h => h, by intros; omega, fun h => ⟨h, rfl⟩, by intros; omega⟩
  | succ fuel ih =>
    intro k s hm h1 h2 h3 h4
    unfold downLoop
    by_cases hk : k ≥ max s.min_k (-(p : Int))
    · rw [if_pos hk]
      have hlo := hm.lo
      have hphi := hpre.hi
      obtain ⟨s1, e, m1, g1, g2, g3, g4, g5, g6, g7⟩ := compute_f_spec hpre hm (k := k) (by omega) (by omega) (by omega) h2
        (by rcases h3 (by omega) with h | h
            · exact Or.inl h
            · exact Or.inr (Or.inl (by omega)))
        (Or.inl (by omega)) (Or.inr h1)
      have hst : s1.start_k = k := by
        rw [g6]; split
        · rfl
        · rcases h3 (by omega) with h | h
          · contradiction
          · omega
      obtain ⟨s2, e2, m2, r1, r2, r3, r4, r5, r6⟩ := ih (k - 1) s1 m1 (by omega) (by omega) (fun _ => Or.inr (by omega)) (by omega)
      rw [e]
      simp only [bind_ok]
      refine ⟨s2, e2, m2, by omega, by omega, fun k' i' h => r3 _ _ (g5 _ _ h), ?_, ?_, ?_⟩
      · intro k' q1 q2
        by_cases hkk : k' = k
        · subst hkk
          obtain ⟨i, hi⟩ := g4
          exact Or.inl ⟨i, r3 _ _ hi⟩
        · exact r4 k' q1 (by omega)
      · intro hd
        obtain ⟨r51, r52⟩ := r5 g3
        refine ⟨r51, ?_⟩
        rw [r52, g7, if_neg hd]
        rcases h3 (by omega) with h | h
        · contradiction
        · have := hm.shape hd
          have hl := List.length_pos_iff.2 hd
          unfold Shape FState.path at this
          simp only at this
          omega
      · intro hd _
        obtain ⟨r51, r52⟩ := r5 g3
        refine ⟨r51, ?_⟩
        rw [r52, g7, if_pos hd]
    · rw [if_neg hk]
      exact ⟨s, rfl, hm, le_refl _, le_refl _, fun _ _ h => h, by intros; right; omega, fun h => ⟨h, rfl⟩, by intros; omega⟩

theorem up_spec {a b : List Nat} {p : Nat} {prev : Option Path} {omin omax : Int} (hpre : Pre a b p prev omin omax) :
    ∀ (fuel : Nat) (k : Int) (s : FState), Mid a b p prev omin omax s → (b.length : Int) - a.length ≤ k → -(p : Int) ≤ k →
    (k ≤ p → s.diags = [] ∨ s.stop_k = k - 1) → p - k + 1 ≤ fuel →
    ∃ s', upLoop a b p prev fuel k s = .ok s' ∧ Mid a b p prev omin omax s' ∧ s.min_k ≤ s'.min_k ∧ s'.max_k ≤ s.max_k ∧
      (∀ k' i', Cell (s.path p) k' i' → Cell (s'.path p) k' i') ∧
      (∀ k' : Int, k' ≤ p → k ≤ k' → (∃ i, Cell (s'.path p) k' i) ∨ s'.max_k < k') ∧
      (s.diags ≠ [] → s'.diags ≠ [] ∧ s'.start_k = s.start_k) ∧
      (s.diags = [] → k ≤ min s.max_k p → s'.diags ≠ [] ∧ s'.start_k = k) := by
  intro fuel
  induction fuel with
  | zero =>
    intro k s hm h1 h2 h3 h4
    unfold upLoop
    rw [if_neg (by omega)]
    exact ⟨s, rfl, hm, le_refl _, le_refl _, fun _ _ h => h, by intros; omega, fun h => ⟨h, rfl⟩, by intros; omega⟩
  | succ fuel ih =>
    intro k s hm h1 h2 h3 h4
    unfold upLoop
    by_cases hk : k ≤ min s.max_k (p : Int)
    · rw [if_pos hk]
      have hhi := hm.hi
      have hplo := hpre.lo
      obtain ⟨s1, e, m1, g1, g2, g3, g4, g5, g6, g7⟩ := compute_f_spec hpre hm (k := k) (by omega) (by omega) h2 (by omega)
        (by rcases h3 (by omega) with h | h
            · exact Or.inl h
            · exact Or.inr (Or.inr (by omega)))
        (Or.inr h1) (Or.inl (by omega))
      have hst : s1.stop_k = k := by
        rw [g7]; split
        · rfl
        · rcases h3 (by omega) with h | h
          · contradiction
          · omega
      obtain ⟨s2, e2, m2, r1, r2, r3, r4, r5, r6⟩ := ih (k + 1) s1 m1 (by omega) (by omega) (fun _ => Or.inr (by omega)) (by omega)
      rw [e]
      simp only [bind_ok]
      refine ⟨s2, e2, m2, by omega, by omega, fun k' i' h => r3 _ _ (g5 _ _ h), ?_, ?_, ?_⟩
      · intro k' q1 q2
        by_cases hkk : k' = k
        · subst hkk
          obtain ⟨i, hi⟩ := g4
          exact Or.inl ⟨i, r3 _ _ hi⟩
        · exact r4 k' q1 (by omega)
      · intro hd
        obtain ⟨r51, r52⟩ := r5 g3
        refine ⟨r51, ?_⟩
        rw [r52, g6, if_neg hd]
        rcases h3 (by omega) with h | h
        · contradiction
        · have := hm.shape hd
          have hl := List.length_pos_iff.2 hd
          unfold Shape FState.path at this
          simp only at this
          omega
      · intro hd _
        obtain ⟨r51, r52⟩ := r5 g3
        refine ⟨r51, ?_⟩
        rw [r52, g6, if_pos hd]
    · rw [if_neg hk]
      exact ⟨s, rfl, hm, le_refl _, le_refl _, fun _ _ h => h, by intros; right; omega, fun h => ⟨h, rfl⟩, by intros; omega⟩

theorem level_spec {a b : List Nat} {p : Nat} {prev : Option Path} {omin omax : Int} (hpre : Pre a b p prev omin omax) :
    ∃ s, computeLevel a b p prev omin omax = .ok s ∧ Mid a b p prev omin omax s ∧ s.diags ≠ [] ∧
      ∀ k, -(p : Int) ≤ k → k ≤ p → (∃ i, Cell (s.path p) k i) ∨ k < s.min_k ∨ s.max_k < k := by
  have h1 := hpre.lo
  have h2 := hpre.hi
  have h3 := hpre.lop
  have h4 := hpre.hip
  have hm0 : Mid a b p prev omin omax ⟨omin, omax, 0, 0, []⟩ :=
    ⟨fun h => absurd rfl h, fun k i h => (cell_nil h).elim, le_refl _, le_refl _, fun k h => (cell_nil h).elim,
      fun k i h => (cell_nil h).elim, fun k h => Or.inl h, fun k h => Or.inl h⟩
  unfold computeLevel
  simp only
  split
  · rename_i hle
    obtain ⟨s1, e1, m1, a1, a2, a3, a4, a5, a6⟩ := down_spec hpre (2 * p + 1) (min ((b.length : Int) - a.length) p) _ hm0
      (by omega) (by omega) (fun _ => Or.inl rfl) (by push_cast; omega)
    obtain ⟨b1, b2⟩ := a6 rfl (by simp only; omega)
    obtain ⟨s2, e2, m2, c1, c2, c3, c4, c5, c6⟩ := up_spec hpre (2 * p + 1) ((b.length : Int) - a.length + 1) s1 m1
      (by omega) (by omega) (fun _ => Or.inr (by omega)) (by push_cast; omega)
    rw [e1]; simp only [bind_ok]
    refine ⟨s2, e2, m2, (c5 b1).1, ?_⟩
    intro k hk1 hk2
    by_cases hk : k ≤ min ((b.length : Int) - a.length) p
    · rcases a4 k hk1 hk with ⟨i, hi⟩ | h
      · exact Or.inl ⟨i, c3 _ _ hi⟩
      · exact Or.inr (Or.inl (by omega))
    · rcases c4 k hk2 (by omega) with h | h
      · exact Or.inl h
      · exact Or.inr (Or.inr h)
  · rename_i hle
    obtain ⟨s1, e1, m1, a1, a2, a3, a4, a5, a6⟩ := up_spec hpre (2 * p + 1) (max ((b.length : Int) - a.length) (-p)) _ hm0
      (by omega) (by omega) (fun _ => Or.inl rfl) (by push_cast; omega)
    obtain ⟨b1, b2⟩ := a6 rfl (by simp only; omega)
    obtain ⟨s2, e2, m2, c1, c2, c3, c4, c5, c6⟩ := down_spec hpre (2 * p + 1) ((b.length : Int) - a.length - 1) s1 m1
      (by omega) (by omega) (fun _ => Or.inr (by omega)) (by push_cast; omega)
    rw [e1]; simp only [bind_ok]
    refine ⟨s2, e2, m2, (c5 b1).1, ?_⟩
    intro k hk1 hk2
    by_cases hk : max ((b.length : Int) - a.length) (-p) ≤ k
    · rcases a4 k hk2 hk with ⟨i, hi⟩ | h
      · exact Or.inl ⟨i, c3 _ _ hi⟩
      · exact Or.inr (Or.inr (by omega))
    · rcases c4 k hk1 (by omega) with h | h
      · exact Or.inl h
      · exact Or.inr (Or.inl h)

/-! ## From level to level -/

/-- What holds after level `p`. -/
structure LevelOK (a b : List Nat) (p : Nat) (prev : Option Path) (P : Path) (mn mx : Int) : Prop where
  shape : Shape P
  ne : P.start_k ≤ P.stop_k
  cells : ∀ k i, Cell P k i → CellOK a b p prev k i
  hitmin : ∀ k, Cell P k a.length → k < mn
  hitmax : ∀ k i, Cell P k i → i + k = b.length → mx < k
  minOK : ∀ k, k < mn → (b.length : Int) - a.length - 2 * k > lev a b ∨ ∃ k2, k ≤ k2 ∧ Cell P k2 a.length
  maxOK : ∀ k, mx < k → 2 * k - ((b.length : Int) - a.length) > lev a b ∨
    ∃ k2 i, k2 ≤ k ∧ Cell P k2 i ∧ i + k2 = b.length
  covers : ∀ k, -(p : Int) ≤ k → k ≤ p → (∃ i, Cell P k i) ∨ k < mn ∨ mx < k
  good : ∃ k i, Cell P k i ∧ p + dS a b i (i + k) ≤ lev a b

/-- Everything before a level, in terms of the previous level. -/
inductive StateOK (a b : List Nat) : List Path → Int → Int → Prop
  | start : StateOK a b [] (-a.length) b.length
  | level {P rest mn mx} : LevelOK a b rest.length rest.head? P mn mx → StateOK a b (P :: rest) mn mx

theorem LevelOK.max_ge {a b : List Nat} {p : Nat} {prev : Option Path} {P : Path} {mn mx : Int}
    (h : LevelOK a b p prev P mn mx) (hu : mn ≤ (b.length : Int) - a.length) : (b.length : Int) - a.length ≤ mx := by
  by_contra hc
  have hD := D_ge (a := a) (b := b)
  rcases h.maxOK _ (by omega : mx < (b.length : Int) - a.length) with g | ⟨k2, i, g1, g2, g3⟩
  · omega
  · have c := h.cells _ _ g2
    have := c.im
    have hi : i = a.length := by omega
    have := h.hitmin k2 (hi ▸ g2)
    omega

theorem pre_start (a b : List Nat) : Pre a b 0 none (-a.length) b.length := by
  refine ⟨?_, by omega, by omega, by simp, by simp⟩
  intro k _ _ h1 h2
  have : k = 0 := by simp at h1 h2; omega
  subst this
  exact ⟨0, none, rfl, ⟨rfl, rfl⟩, by omega, by omega, by omega, by omega, by simp [dP, dpre]⟩

theorem LevelOK.pre {a b : List Nat} {p : Nat} {prev : Option Path} {P : Path} {mn mx : Int}
    (h : LevelOK a b p prev P mn mx) (hu : mn ≤ (b.length : Int) - a.length) : Pre a b (p + 1) (some P) mn mx := by
  have hmx := h.max_ge hu
  have hD := D_ge (a := a) (b := b)
  refine ⟨?_, hu, hmx, ?_, ?_⟩
  · intro k h1 h2 h3 h4
    have hex : ∃ q, k - 1 ≤ q ∧ q ≤ k + 1 ∧ P.start_k ≤ q ∧ q ≤ P.stop_k := by
      suffices ∃ q i, k - 1 ≤ q ∧ q ≤ k + 1 ∧ Cell P q i by
        obtain ⟨q, i, g1, g2, g3⟩ := this
        exact ⟨q, g1, g2, g3.1, g3.le h.shape⟩
      by_cases c1 : k = p + 1
      · rcases h.covers p (by omega) (by omega) with ⟨i, g⟩ | g | g
        · exact ⟨p, i, by omega, by omega, g⟩
        · rcases h.minOK _ g with g | ⟨k2, g1, g2⟩
          · omega
          · have := (h.cells _ _ g2).khi
            exact ⟨k2, _, by omega, by omega, g2⟩
        · omega
      · by_cases c2 : k = -(p : Int) - 1
        · rcases h.covers (-(p : Int)) (by omega) (by omega) with ⟨i, g⟩ | g | g
          · exact ⟨_, i, by omega, by omega, g⟩
          · omega
          · rcases h.maxOK _ g with g | ⟨k2, i, g1, g2, g3⟩
            · omega
            · have := (h.cells _ _ g2).klo
              exact ⟨k2, _, by omega, by omega, g2⟩
        · rcases h.covers k (by omega) (by omega) with ⟨i, g⟩ | g | g
          · exact ⟨k, i, by omega, by omega, g⟩
          · omega
          · omega
    obtain ⟨q, u, e, q1, q2, hc, dom⟩ := initial_f_spec h.shape (fun q u hq => (h.cells _ _ hq).i0) hex
    have c := h.cells _ _ hc
    have := c.i0
    have := c.im
    have := c.j0
    have := c.jn
    have hr := c.reach
    have hmin : q ≥ k → u < a.length := by
      intro hq
      by_contra hcon
      have := h.hitmin q (by rwa [show (a.length : Int) = u by omega])
      omega
    have hmax : q ≤ k → u + q < b.length := by
      intro hq
      by_contra hcon
      have := h.hitmax q u hc (by omega)
      omega
    refine ⟨u + bump q k, some q, e, ⟨q, u, rfl, hc, q1, q2, rfl, fun q' u' a1 a2 a3 => dom q' u' a1 a2 a3⟩, ?_⟩
    unfold bump
    rcases (by omega : q = k - 1 ∨ q = k ∨ q = k + 1) with hq | hq | hq
    · subst hq
      have := hmax (by omega)
      rw [if_neg (by omega)]
      refine ⟨by omega, by omega, by omega, by omega, ?_⟩
      have := dP_ins (a := a) (b := b) (i := u) (j := u + (k - 1)) (by omega)
      rw [show u + 0 = u by omega, show u + k = u + (k - 1) + 1 by omega]
      push_cast; omega
    · subst hq
      have := hmax (by omega)
      have := hmin (by omega)
      rw [if_pos (by omega)]
      refine ⟨by omega, by omega, by omega, by omega, ?_⟩
      have := dP_subst (a := a) (b := b) (i := u) (j := u + q) (by omega) (by omega) (by omega) (by omega)
      rw [show u + 1 + q = u + q + 1 by omega]
      push_cast; omega
    · subst hq
      have := hmin (by omega)
      rw [if_pos (by omega)]
      refine ⟨by omega, by omega, by omega, by omega, ?_⟩
      have := dP_del (a := a) (b := b) (i := u) (j := u + (k + 1)) (by omega)
      rw [show u + 1 + k = u + (k + 1) by omega]
      push_cast; omega
  · by_contra hc
    push_cast at hc
    rcases h.minOK (p + 1) (by omega) with g | ⟨k2, g1, g2⟩
    · omega
    · have := (h.cells _ _ g2).khi; omega
  · by_contra hc
    push_cast at hc
    rcases h.maxOK (-(p : Int) - 1) (by omega) with g | ⟨k2, i, g1, g2, g3⟩
    · omega
    · have := (h.cells _ _ g2).klo; omega

theorem CellOK.ge {a b : List Nat} {p : Nat} {P : Path} {k i q u : Int} (h : CellOK a b p (some P) k i)
    (hc : Cell P q u) (h1 : k - 1 ≤ q) (h2 : q ≤ k + 1) : u + bump q k ≤ i := by
  obtain ⟨s, pk, _, hi, _, _, hs, _⟩ := h.from_
  obtain ⟨q', u', e1, e2, e3, e4, e5, dom⟩ := hi
  have := dom q u h1 h2 hc
  omega

theorem step_min {a b : List Nat} {p : Nat} {prev : Option Path} {P : Path} {mn mx : Int}
    (h : LevelOK a b p prev P mn mx) (hu : mn ≤ (b.length : Int) - a.length) {s : FState}
    (hm : Mid a b (p + 1) (some P) mn mx s)
    (hcov : ∀ k, -((p + 1 : Nat) : Int) ≤ k → k ≤ (p + 1 : Nat) →
      (∃ i, Cell (s.path (p + 1 : Nat)) k i) ∨ k < s.min_k ∨ s.max_k < k) :
    ∀ k, k < s.min_k → (b.length : Int) - a.length - 2 * k > lev a b ∨ ∃ k2, k ≤ k2 ∧ Cell (s.path (p + 1 : Nat)) k2 a.length := by
  have hmx := h.max_ge hu
  have hD := D_ge (a := a) (b := b)
  have key : ∀ (t : Nat) (k2 : Int), ((b.length : Int) - a.length - k2).toNat = t → Cell P k2 a.length → ∀ k, k ≤ k2 →
      (b.length : Int) - a.length - 2 * k > lev a b ∨ ∃ k2, k ≤ k2 ∧ Cell (s.path (p + 1 : Nat)) k2 a.length := by
    intro t
    induction t using Nat.strongRecOn with
    | ind t ih =>
      intro k2 ht hc k hk
      have c := h.cells _ _ hc
      have := c.klo
      have := c.khi
      have := h.hitmin _ hc
      rcases hcov (k2 + 1) (by push_cast; omega) (by push_cast; omega) with ⟨i, g⟩ | g | g
      · have cc := hm.cells _ _ g
        have g1 := cc.ge hc (by omega) (by omega)
        have := cc.im
        have : bump k2 (k2 + 1) = 0 := by unfold bump; rw [if_neg (by omega)]
        have : i = a.length := by omega
        exact Or.inr ⟨k2 + 1, by omega, this ▸ g⟩
      · rcases hm.minOK _ g with r | r | ⟨k3, r1, r2⟩
        · rcases h.minOK _ r with r | ⟨k4, r1, r2⟩
          · left; omega
          · have := (h.cells _ _ r2).jn
            exact ih _ (by omega) k4 rfl r2 k (by omega)
        · left; omega
        · exact Or.inr ⟨k3, by omega, r2⟩
      · rcases hm.maxOK _ g with r | r | ⟨k3, i, r1, r2, r3⟩
        · omega
        · omega
        · have := (hm.cells _ _ r2).im
          have : i = a.length := by omega
          exact Or.inr ⟨k3, by omega, this ▸ r2⟩
  intro k hk
  rcases hm.minOK k hk with r | r | r
  · rcases h.minOK k r with r | ⟨k2, r1, r2⟩
    · exact Or.inl r
    · exact key _ k2 rfl r2 k r1
  · exact Or.inl r
  · exact Or.inr r

theorem step_max {a b : List Nat} {p : Nat} {prev : Option Path} {P : Path} {mn mx : Int}
    (h : LevelOK a b p prev P mn mx) (hu : mn ≤ (b.length : Int) - a.length) {s : FState}
    (hm : Mid a b (p + 1) (some P) mn mx s)
    (hcov : ∀ k, -((p + 1 : Nat) : Int) ≤ k → k ≤ (p + 1 : Nat) →
      (∃ i, Cell (s.path (p + 1 : Nat)) k i) ∨ k < s.min_k ∨ s.max_k < k) :
    ∀ k, s.max_k < k → 2 * k - ((b.length : Int) - a.length) > lev a b ∨
      ∃ k2 i, k2 ≤ k ∧ Cell (s.path (p + 1 : Nat)) k2 i ∧ i + k2 = b.length := by
  have hmx := h.max_ge hu
  have hD := D_ge (a := a) (b := b)
  have key : ∀ (t : Nat) (k2 u : Int), (k2 - ((b.length : Int) - a.length)).toNat = t → Cell P k2 u → u + k2 = b.length →
      ∀ k, k2 ≤ k → 2 * k - ((b.length : Int) - a.length) > lev a b ∨
      ∃ k2 i, k2 ≤ k ∧ Cell (s.path (p + 1 : Nat)) k2 i ∧ i + k2 = b.length := by
    intro t
    induction t using Nat.strongRecOn with
    | ind t ih =>
      intro k2 u ht hc huk k hk
      have c := h.cells _ _ hc
      have := c.klo
      have := c.khi
      have := h.hitmax _ _ hc huk
      rcases hcov (k2 - 1) (by push_cast; omega) (by push_cast; omega) with ⟨i, g⟩ | g | g
      · have cc := hm.cells _ _ g
        have g1 := cc.ge hc (by omega) (by omega)
        have := cc.jn
        have : bump k2 (k2 - 1) = 1 := by unfold bump; rw [if_pos (by omega)]
        exact Or.inr ⟨k2 - 1, i, by omega, g, by omega⟩
      · rcases hm.minOK _ g with r | r | ⟨k3, r1, r2⟩
        · omega
        · omega
        · have := (hm.cells _ _ r2).jn
          exact Or.inr ⟨k3, _, by omega, r2, by omega⟩
      · rcases hm.maxOK _ g with r | r | ⟨k3, i, r1, r2, r3⟩
        · rcases h.maxOK _ r with r | ⟨k4, i, r1, r2, r3⟩
          · left; omega
          · have := (h.cells _ _ r2).im
            exact ih _ (by omega) k4 i rfl r2 r3 k (by omega)
        · left; omega
        · exact Or.inr ⟨k3, i, by omega, r2, r3⟩
  intro k hk
  rcases hm.maxOK k hk with r | r | r
  · rcases h.maxOK k r with r | ⟨k2, i, r1, r2, r3⟩
    · exact Or.inl r
    · exact key _ k2 i rfl r2 r3 k r1
  · exact Or.inl r
  · exact Or.inr r

theorem shape_ne {P : Path} (hs : Shape P) (h : P.f ≠ []) : P.start_k ≤ P.stop_k := by
  unfold Shape at hs
  have := List.length_pos_iff.2 h
  omega

theorem level_first (a b : List Nat) : ∃ s, computeLevel a b 0 none (-a.length) b.length = .ok s ∧
    LevelOK a b 0 none (s.path (0 : Nat)) s.min_k s.max_k := by
  have hDm := D_le_max (a := a) (b := b)
  obtain ⟨s, e, hm, hne, hcov⟩ := level_spec (pre_start a b)
  have hsh := hm.shape hne
  refine ⟨s, e, hsh, shape_ne hsh hne, hm.cells, hm.hitmin, hm.hitmax, ?_, ?_, hcov, ?_⟩
  · intro k hk
    rcases hm.minOK k hk with r | r | r
    · left; omega
    · exact Or.inl r
    · exact Or.inr r
  · intro k hk
    rcases hm.maxOK k hk with r | r | r
    · left; omega
    · exact Or.inl r
    · exact Or.inr r
  · obtain ⟨i, hi⟩ := cell_exists hsh (le_refl _) (shape_ne hsh hne)
    have c := hm.cells _ _ hi
    obtain ⟨s0, pk, _, hin, g1, g2, g3, _⟩ := c.from_
    obtain ⟨hs0, hk0⟩ : s0 = 0 ∧ _ = (0 : Int) := hin
    subst hs0
    rw [hk0] at hi c g2
    refine ⟨0, i, hi, ?_⟩
    have := dS_diag (a := a) (b := b) (i := 0) (i' := i) (k := 0) (by omega) (by omega) g3 c.im c.jn
    have := D_zero (a := a) (b := b)
    simp only [Int.add_zero] at *
    push_cast; omega

theorem level_next {a b : List Nat} {p : Nat} {prev : Option Path} {P : Path} {mn mx : Int}
    (h : LevelOK a b p prev P mn mx) (hu : mn ≤ (b.length : Int) - a.length) :
    ∃ s, computeLevel a b (p + 1) (some P) mn mx = .ok s ∧
      LevelOK a b (p + 1) (some P) (s.path (p + 1 : Nat)) s.min_k s.max_k := by
  obtain ⟨s, e, hm, hne, hcov⟩ := level_spec (h.pre hu)
  have hsh := hm.shape hne
  have hmin := step_min h hu hm hcov
  have hmax := step_max h hu hm hcov
  refine ⟨s, e, hsh, shape_ne hsh hne, hm.cells, hm.hitmin, hm.hitmax, hmin, hmax, hcov, ?_⟩
  obtain ⟨k, i, hc, hg⟩ := h.good
  have c := h.cells _ _ hc
  have := c.i0
  have := c.im
  have := c.j0
  have := c.jn
  have := c.klo
  have := c.khi
  -- the next point on an optimal script
  obtain ⟨k', i', t1, t2, t3, t4, t5, t6, t7, t8⟩ : ∃ k' i' : Int, 0 ≤ i' ∧ i' ≤ a.length ∧ 0 ≤ i' + k' ∧ i' + k' ≤ b.length ∧
      k' - 1 ≤ k ∧ k ≤ k' + 1 ∧ i' = i + bump k k' ∧ dS a b i' (i' + k') + 1 ≤ dS a b i (i + k) := by
    have hne : ¬ (i = a.length ∧ i + k = b.length) := by
      rintro ⟨g1, g2⟩
      have := h.hitmin k (g1 ▸ hc)
      omega
    rcases dS_step c.i0 c.j0 c.im c.jn c.stop hne with ⟨g1, g2⟩ | ⟨g1, g2⟩ | ⟨g1, g2, g3⟩
    · refine ⟨k - 1, i + 1, by omega, by omega, by omega, by omega, by omega, by omega, ?_, ?_⟩
      · unfold bump; rw [if_pos (by omega)]
      · rw [show i + 1 + (k - 1) = i + k by omega]; exact g2
    · refine ⟨k + 1, i, by omega, by omega, by omega, by omega, by omega, by omega, ?_, ?_⟩
      · unfold bump; rw [if_neg (by omega)]; omega
      · rw [show i + (k + 1) = i + k + 1 by omega]; exact g2
    · refine ⟨k, i + 1, by omega, by omega, by omega, by omega, by omega, by omega, ?_, ?_⟩
      · unfold bump; rw [if_pos (by omega)]
      · rw [show i + 1 + k = i + k + 1 by omega]; exact g3
  have hge := dS_ge (a := a) (b := b) t1 t3 t2 t4
  rcases hcov k' (by push_cast; omega) (by push_cast; omega) with ⟨f, g⟩ | g | g
  · have cc := hm.cells _ _ g
    have g1 := cc.ge hc t5 t6
    have := dS_diag (a := a) (b := b) (i := i') (i' := f) (k := k') t1 t3 (by omega) cc.im cc.jn
    exact ⟨k', f, g, by push_cast; omega⟩
  · rcases hmin k' g with r | ⟨k2, r1, r2⟩
    · omega
    · have cc := hm.cells _ _ r2
      have := dS_le cc.i0 cc.j0 cc.im cc.jn
      have := cc.jn
      exact ⟨k2, _, r2, by push_cast; omega⟩
  · rcases hmax k' g with r | ⟨k2, f, r1, r2, r3⟩
    · omega
    · have cc := hm.cells _ _ r2
      have := dS_le cc.i0 cc.j0 cc.im cc.jn
      have := cc.im
      exact ⟨k2, _, r2, by push_cast; omega⟩

/-! ## The path list -/

def ChainOK (a b : List Nat) : List Path → Prop
  | [] => True
  | P :: rest => (∀ k i, Cell P k i → CellOK a b rest.length rest.head? k i) ∧ ChainOK a b rest

theorem finish {a b : List Nat} {fuel : Nat} {P : Path} {rest : List Path} {mn mx : Int}
    (h : LevelOK a b rest.length rest.head? P mn mx) (hc : ChainOK a b (P :: rest)) (hu : ¬ mn ≤ (b.length : Int) - a.length) :
    ∃ P' rest', pathLoop a b fuel (P :: rest).length mn mx (P :: rest) = .ok (P' :: rest') ∧ ChainOK a b (P' :: rest') ∧
    Cell P' ((b.length : Int) - a.length) a.length ∧ rest'.length = lev a b := by
  have hD := D_ge (a := a) (b := b)
  unfold pathLoop
  rw [if_neg hu]
  refine ⟨P, rest, rfl, hc, ?_⟩
  have hcell : Cell P ((b.length : Int) - a.length) a.length := by
    rcases h.minOK ((b.length : Int) - a.length) (by omega) with g | ⟨k2, g1, g2⟩
    · omega
    · have := (h.cells _ _ g2).jn
      rwa [show (b.length : Int) - a.length = k2 by omega]
  refine ⟨hcell, ?_⟩
  obtain ⟨k, i, _, hg⟩ := h.good
  have := dS_nonneg (a := a) (b := b) i (i + k)
  have hr := (h.cells _ _ hcell).reach
  rw [show (a.length : Int) + ((b.length : Int) - a.length) = b.length by omega, D_full] at hr
  omega

theorem level_bound {a b : List Nat} {p : Nat} {prev : Option Path} {P : Path} {mn mx : Int}
    (h : LevelOK a b p prev P mn mx) (hu : mn ≤ (b.length : Int) - a.length) : p < lev a b := by
  obtain ⟨s, _, hl⟩ := level_next h hu
  obtain ⟨k, i, _, hg⟩ := hl.good
  have := dS_nonneg (a := a) (b := b) i (i + k)
  push_cast at hg
  omega

theorem pathLoop_spec {a b : List Nat} : ∀ (fuel : Nat) (mn mx : Int) (paths : List Path),
    StateOK a b paths mn mx → ChainOK a b paths → lev a b + 1 ≤ fuel + paths.length →
    ∃ P rest, pathLoop a b fuel paths.length mn mx paths = .ok (P :: rest) ∧ ChainOK a b (P :: rest) ∧
      Cell P ((b.length : Int) - a.length) a.length ∧ rest.length = lev a b := by
  intro fuel
  induction fuel with
  | zero =>
    intro mn mx paths hs hc hf
    cases hs with
    | start => simp at hf
    | level h =>
      rename_i P rest
      simp only [List.length_cons, Nat.zero_add] at hf
      exact finish h hc (fun hu => by have := level_bound h hu; omega)
  | succ fuel ih =>
    intro mn mx paths hs hc hf
    by_cases hu : mn ≤ (b.length : Int) - a.length
    · unfold pathLoop
      rw [if_pos hu]
      cases hs with
      | start =>
        obtain ⟨s, e, hl⟩ := level_first a b
        simp only [List.length_nil, List.head?_nil, e, bind_ok]
        exact ih s.min_k s.max_k [s.path (0 : Nat)] (.level hl) ⟨hl.cells, trivial⟩ (by simp at hf ⊢; omega)
      | level h =>
        rename_i P rest
        obtain ⟨s, e, hl⟩ := level_next h hu
        simp only [List.length_cons, List.head?_cons, e, bind_ok]
        exact ih s.min_k s.max_k (s.path (rest.length + 1 : Nat) :: P :: rest) (.level hl) ⟨hl.cells, hc⟩
          (by simp at hf ⊢; omega)
    · cases hs with
      | start => omega
      | level h => exact finish h hc hu

end Ocr.Sync
