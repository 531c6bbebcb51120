import Verif.Proof.Word

/-!
# UAX #29 and the property table
-/

namespace Ocr.Word
open WB Res Sync

/-! ## Collapsed contexts -/

/-- No Extend or Format directly after a newline. -/
def Chained : Option WB → List WB → Prop
  | _, [] => True
  | none, p :: ps => isExt p = false ∧ Chained (some p) ps
  | some q, p :: ps => (isExt p = true → isNewline q = false) ∧ Chained (some p) ps

theorem ext_not_newline {p : WB} (h : isExt p = true) : isNewline p = false := by
  cases p <;> simp_all [isExt, isNewline]

theorem Chained.weaken {q p : WB} {ps : List WB} (h : Chained (some p) ps) (hq : isNewline q = false) : Chained (some q) ps := by
  cases ps with
  | nil => trivial
  | cons r ps => exact ⟨fun _ => hq, h.2⟩

theorem collapse_eq : ∀ (ps : List WB) (q : Option WB), Chained q ps → collapse q ps = ps.filter (fun p => !isExt p) := by
  intro ps
  induction ps with
  | nil => intro q _; cases q <;> rfl
  | cons p ps ih =>
    intro q h
    cases q with
    | none =>
      obtain ⟨h1, h2⟩ := h
      rw [collapse, ih _ h2, List.filter_cons]
      simp [h1]
    | some q =>
      obtain ⟨h1, h2⟩ := h
      rw [collapse, List.filter_cons]
      cases hp : isExt p with
      | true =>
        rw [h1 hp, if_pos (by simp), ih _ (h2.weaken (h1 hp))]
        simp
      | false =>
        rw [if_neg (by simp), ih _ h2]
        simp

theorem chained_of_attached {prop : Nat → WB} {text : List Nat} (h : Attached prop text) :
    ∀ (mid before after : List Nat), text = before ++ mid ++ after →
    Chained (before.getLast?.map prop) (mid.map prop) := by
  intro mid
  induction mid with
  | nil => intro before after _; unfold Chained; cases before.getLast?.map prop <;> trivial
  | cons v mid ih =>
    intro before after e
    have h1 := ih (before ++ [v]) after (by rw [e]; simp)
    rw [List.getLast?_concat] at h1
    rw [List.map_cons]
    have h2 := h before v (mid ++ after) (by rw [e]; simp)
    cases hb : before.getLast? with
    | none =>
      refine ⟨?_, h1⟩
      cases hv : isExt (prop v) with
      | false => rfl
      | true =>
        obtain ⟨w, hw, _⟩ := h2 hv
        rw [hb] at hw; cases hw
    | some w =>
      refine ⟨fun hv => ?_, h1⟩
      obtain ⟨w', hw, hn⟩ := h2 hv
      rw [hb] at hw
      cases hw
      exact hn

theorem bases_concat (prop : Nat → WB) (b : List Nat) (l : Nat) :
    bases prop (b ++ [l]) = if isExt (prop l) then bases prop b else bases prop b ++ [prop l] := by
  rw [bases_append]
  unfold bases
  cases h : isExt (prop l) <;> simp [h]

theorem base_last {prop : Nat → WB} : ∀ (n : Nat) (b : List Nat) (l : Nat) (after : List Nat), b.length = n →
    Attached prop (b ++ l :: after) → isExt (prop l) = true →
    ∃ x, (bases prop (b ++ [l])).getLast? = some x ∧ isNewline x = false := by
  intro n
  induction n with
  | zero =>
    intro b l after hn h hl
    have := List.eq_nil_of_length_eq_zero hn
    subst this
    obtain ⟨w, hw, _⟩ := h [] l after rfl hl
    cases hw
  | succ n ih =>
    intro b l after hn h hl
    obtain ⟨w, hw, hnl⟩ := h b l after rfl hl
    obtain ⟨b', rfl⟩ := List.getLast?_eq_some_iff.1 hw
    rw [bases_concat, if_pos hl]
    cases hx : isExt (prop w) with
    | true => exact ih b' w (l :: after) (by simpa using hn) (by simpa using h) hx
    | false =>
      refine ⟨prop w, ?_, hnl⟩
      rw [bases_concat, hx, if_neg (by simp), List.getLast?_concat]

/-- Where Extend and Format characters follow no newline, the rules with these characters skipped are those of UAX #29. -/
theorem uax_eq {prop : Nat → WB} {text : List Nat} (h : Attached prop text) (before after : List Nat)
    (e : before ++ after = text) (hb : before ≠ []) (ha : after ≠ []) : SkipBreak prop before after = UaxBreak prop before after := by
  obtain ⟨b, l, rfl⟩ : ∃ b l, before = b ++ [l] := ⟨_, _, (List.dropLast_concat_getLast hb).symm⟩
  obtain ⟨r, a, rfl⟩ : ∃ r a, after = r :: a := by
    cases after with
    | nil => exact absurd rfl ha
    | cons r a => exact ⟨r, a, rfl⟩
  have hL : collapse none ((b ++ [l]).map prop) = bases prop (b ++ [l]) := by
    have := chained_of_attached h (b ++ [l]) [] (r :: a) (by rw [← e]; rfl)
    exact collapse_eq _ _ this
  unfold SkipBreak UaxBreak
  rw [hL]
  have e1 : ((b ++ [l]).map prop).getLast? = some (prop l) := by simp
  rw [e1]
  simp only [List.map_cons, List.head?_cons, List.headD_cons]
  cases hr : isExt (prop r) with
  | true =>
    obtain ⟨w, hw, hnw⟩ := h (b ++ [l]) r a e.symm hr
    rw [List.getLast?_concat] at hw
    cases hw
    have hnr := ext_not_newline hr
    rw [if_neg (by rintro ⟨_, h2⟩; rw [h2] at hnr; simp [isNewline] at hnr), if_neg (by simp [hnw, hnr])]
    simp
  | false =>
    have hR : collapse none (prop r :: a.map prop) = bases prop (r :: a) := by
      have h1 := chained_of_attached h a (b ++ [l] ++ [r]) [] (by rw [← e]; simp)
      rw [List.getLast?_concat] at h1
      exact collapse_eq (prop r :: a.map prop) none ⟨hr, h1⟩
    have hR' : bases prop (r :: a) = prop r :: bases prop a := by
      unfold bases; rw [List.map_cons, List.filter_cons]; simp [hr]
    rw [hR]
    have e2 : List.filter (fun p => !isExt p) (prop r :: a.map prop) = bases prop (r :: a) := rfl
    have e3 : List.filter (fun p => !isExt p) ((b ++ [l]).map prop) = bases prop (b ++ [l]) := rfl
    rw [e2, e3, hR']
    obtain ⟨x, L, hx, hx1, hx2⟩ : ∃ x L, (bases prop (b ++ [l])).reverse = x :: L ∧ (isNewline x = isNewline (prop l)) ∧ (x = CR ↔ prop l = CR) := by
      cases hl : isExt (prop l) with
      | true =>
        obtain ⟨x, q1, q2⟩ := base_last _ b l (r :: a) rfl (by rw [show b ++ l :: r :: a = text by rw [← e]; simp]; exact h) hl
        obtain ⟨ys, q3⟩ := List.getLast?_eq_some_iff.1 q1
        refine ⟨x, ys.reverse, by rw [q3]; simp, by rw [q2, ext_not_newline hl], ?_⟩
        constructor
        · intro hx; rw [hx] at q2; simp [isNewline] at q2
        · intro hx; rw [hx] at hl; simp [isExt] at hl
      | false =>
        rw [bases_concat, hl, if_neg (by simp), List.reverse_append]
        exact ⟨prop l, _, rfl, rfl, Iff.rfl⟩
    rw [hx]
    simp only [boundary, Bool.not_false, Bool.true_and, hx1, hx2]
    rw [if_neg (show ¬ (false = true) by simp)]

/-! ## Uniqueness of the cuts -/

/-- A text is cut in only one way. -/
theorem cutAt_unique {brk : List Nat → List Nat → Bool} {text : List Nat} {s t : List (List Nat)}
    (hs : CutAt brk text s) (ht : CutAt brk text t) : s = t := by
  induction s generalizing text t brk with
  | nil =>
    have : text = [] := by rw [← hs.whole]; rfl
    subst this
    cases t with
    | nil => rfl
    | cons x t =>
      have := ht.whole
      simp at this
      exact absurd this.1 (ht.nonempty x (by simp))
  | cons x s ih =>
    cases t with
    | nil =>
      have h1 := hs.whole
      rw [← ht.whole] at h1
      simp at h1
      exact absurd h1.1 (hs.nonempty x (by simp))
    | cons y t =>
      have hx := hs.nonempty x (by simp)
      have hy := ht.nonempty y (by simp)
      have e1 := hs.whole
      have e2 := ht.whole
      rw [List.flatten_cons] at e1 e2
      -- the first cut
      have first : ∀ (x y : List Nat) (s t : List (List Nat)), x ≠ [] → y ≠ [] → CutAt brk text (x :: s) → CutAt brk text (y :: t) →
          x.length ≤ y.length → x = y := by
        intro x y s t hx hy hs ht hl
        have e1 := hs.whole
        have e2 := ht.whole
        rw [List.flatten_cons] at e1 e2
        by_cases h0 : s.flatten = []
        · rw [h0, List.append_nil] at e1
          rw [← e1] at e2
          have := congrArg List.length e2
          rw [List.length_append] at this
          have h3 : t.flatten = [] := List.eq_nil_of_length_eq_zero (by omega)
          rw [h3, List.append_nil] at e2
          exact e2.symm
        · have hc : Cut (x :: s) x s.flatten := ⟨[x], s, rfl, by simp, rfl⟩
          have hc' := (ht.cut x s.flatten e1 hx h0).2 ((hs.cut x s.flatten e1 hx h0).1 hc)
          rcases (cut_cons hy hx).1 hc' with ⟨h1, _⟩ | ⟨b', h1, h2, _⟩
          · exact h1
          · have := congrArg List.length h1
            have h4 := List.length_pos_iff.2 h2
            simp at this
            omega
      have hxy : x = y := by
        rcases Nat.le_total x.length y.length with hl | hl
        · exact first x y s t hx hy hs ht hl
        · exact (first y x t s hy hx ht hs hl).symm
      subst hxy
      have e3 : s.flatten = t.flatten := by
        rw [← e2] at e1
        exact List.append_cancel_left e1
      congr 1
      have restr : ∀ (u : List (List Nat)), CutAt brk text (x :: u) → CutAt (fun b a => brk (x ++ b) a) u.flatten u := by
        intro u hu
        refine ⟨rfl, fun z hz => hu.nonempty z (by simp [hz]), ?_⟩
        intro b a hba hb ha
        rw [← hu.cut (x ++ b) a (by rw [List.append_assoc, hba]; exact hu.whole) (by simp [hx]) ha]
        rw [cut_cons hx (by simp [hx])]
        constructor
        · intro h; exact .inr ⟨b, rfl, hb, h⟩
        · rintro (⟨h1, _⟩ | ⟨b', h1, _, h2⟩)
          · have := congrArg List.length h1
            simp at this
            exact absurd this hb
          · rw [List.append_cancel_left h1]; exact h2
      have hs' := restr s hs
      have ht' := restr t ht
      rw [e3] at hs'
      exact ih hs' ht'

/-! ## The table -/

theorem search_spec (table : List Range) (hs : SortedTable table) (v : Nat) : ∀ (fuel : Nat) (left right : Int), 0 ≤ left →
    right < table.length → right - left + 1 ≤ fuel →
    (∀ (i : Nat) (h : i < table.length), (i : Int) < left → table[i].stop < v) →
    (∀ (i : Nat) (h : i < table.length), right < (i : Int) → v < table[i].start) →
    ∃ p, search_for_property table v fuel left right = .ok p ∧ Assigned table v p := by
  intro fuel
  induction fuel with
  | zero =>
    intro left right h1 h2 h3 h4 h5
    rw [search_for_property.eq_def]
    simp only
    rw [if_pos (by omega)]
    refine ⟨Other, rfl, .inr ⟨?_, rfl⟩⟩
    intro r hr
    obtain ⟨i, hi, rfl⟩ := List.mem_iff_getElem.1 hr
    rcases Int.lt_or_le (i : Int) left with h | h
    · have := h4 i hi h; omega
    · have := h5 i hi (by omega); omega
  | succ fuel ih =>
    intro left right h1 h2 h3 h4 h5
    rw [search_for_property.eq_def]
    simp only
    split
    · refine ⟨Other, rfl, .inr ⟨?_, rfl⟩⟩
      intro r hr
      obtain ⟨i, hi, rfl⟩ := List.mem_iff_getElem.1 hr
      rcases Int.lt_or_le (i : Int) left with h | h
      · have := h4 i hi h; omega
      · have := h5 i hi (by omega); omega
    · obtain ⟨m, hm⟩ : ∃ m : Nat, (m : Int) = left + (right - left) / 2 := ⟨(left + (right - left) / 2).toNat, by omega⟩
      have hml : m < table.length := by omega
      have hrd : rdI table (left + (right - left) / 2) = .ok table[m] := by
        rw [← hm]
        unfold rdI rd
        rw [if_neg (by omega), Int.toNat_natCast, List.getElem?_eq_getElem hml]
      rw [hrd, bind_ok]
      have hp := List.pairwise_iff_getElem.1 hs.2
      split
      · rename_i hlt
        apply ih _ _ h1 (by omega) (by omega) h4
        intro i hi hlt'
        rcases Nat.lt_trichotomy m i with h | rfl | h
        · have := hp m i hml hi h
          have := hs.1 table[m] (List.getElem_mem hml)
          omega
        · exact hlt
        · omega
      · split
        · rename_i hgt
          apply ih _ _ (by omega) h2 (by omega) _ h5
          intro i hi hlt'
          rcases Nat.lt_trichotomy m i with h | rfl | h
          · omega
          · exact hgt
          · have := hp i m hi hml h
            have := hs.1 table[m] (List.getElem_mem hml)
            omega
        · exact ⟨_, rfl, .inl ⟨_, List.getElem_mem hml, by omega, by omega, rfl⟩⟩

theorem assigned_unique {table : List Range} (hs : SortedTable table) {v : Nat} {p q : WB} (hp : Assigned table v p) (hq : Assigned table v q) :
    p = q := by
  rcases hp with ⟨r, hr, h1, h2, rfl⟩ | ⟨h1, rfl⟩
  · rcases hq with ⟨s, hs', h3, h4, rfl⟩ | ⟨h3, _⟩
    · obtain ⟨i, hi, rfl⟩ := List.mem_iff_getElem.1 hr
      obtain ⟨j, hj, rfl⟩ := List.mem_iff_getElem.1 hs'
      have hp := List.pairwise_iff_getElem.1 hs.2
      rcases Nat.lt_trichotomy i j with h | rfl | h
      · have := hp i j hi hj h; omega
      · rfl
      · have := hp j i hj hi h; omega
    · exact absurd ⟨h1, h2⟩ (h3 r hr)
  · rcases hq with ⟨s, hs', h3, h4, rfl⟩ | ⟨h3, rfl⟩
    · exact absurd ⟨h3, h4⟩ (h1 s hs')
    · rfl

end Ocr.Word
