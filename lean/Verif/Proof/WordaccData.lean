import Verif.Spec.Wordacc
import Verif.Proof.Wacsum

/-!
# The figures determined by wordacc
-/

namespace Ocr.Wordacc
open Res Wac

/-- Weighted sums over a table. -/
def sumC (p : List Nat → Bool) (t : List Term) : Int := (t.map (fun c => if p c.key then c.count else 0)).sum
def sumM (p : List Nat → Bool) (t : List Term) : Int := (t.map (fun c => if p c.key then c.missed else 0)).sum

theorem sumC_add (p : List Nat → Bool) (t : List Term) (key : List Nat) (c m : Int) :
    sumC p (add_term t key c m) = sumC p t + (if p key then c else 0) := by
  unfold sumC add_term
  apply Store.sum_add_key
  · intro x hx; simp only [hx]; split <;> simp
  · rfl

theorem sumM_add (p : List Nat → Bool) (t : List Term) (key : List Nat) (c m : Int) :
    sumM p (add_term t key c m) = sumM p t + (if p key then m else 0) := by
  unfold sumM add_term
  apply Store.sum_add_key
  · intro x hx; simp only [hx]; split <;> simp
  · rfl

theorem sumC_perm {p : List Nat → Bool} {t t' : List Term} (h : t.Perm t') : sumC p t = sumC p t' := (h.map _).sum_eq
theorem sumM_perm {p : List Nat → Bool} {t t' : List Term} (h : t.Perm t') : sumM p t = sumM p t' := (h.map _).sum_eq

/-- What is known of a table to which the words in `ws` satisfying `q` have been added. -/
structure Tab (q : List Nat → Bool) (ws : List (List Nat × Bool)) (t : List Term) : Prop where
  nodup : (t.map Term.key).Nodup
  keys  : ∀ k, k ∈ t.map Term.key ↔ k ∈ ws.map (fun x => x.1) ∧ q k = true
  count : ∀ p : List Nat → Bool, sumC p t = (ws.countP (fun x => q x.1 && p x.1) : Int)
  missd : ∀ p : List Nat → Bool, sumM p t = (ws.countP (fun x => q x.1 && p x.1 && !x.2) : Int)

theorem Tab.nil (q : List Nat → Bool) : Tab q [] [] := ⟨by simp, by simp, by simp [sumC], by simp [sumM]⟩

theorem Tab.add {q : List Nat → Bool} {ws : List (List Nat × Bool)} {t : List Term} (h : Tab q ws t) (w : List Nat) (r : Bool)
    (hq : q w = true) : Tab q (ws ++ [(w, r)]) (add_term t w 1 (if r then 0 else 1)) where
  nodup := nodup_add_term _ _ _ _ h.nodup
  keys := by
    intro k
    rw [keys_add, h.keys k]
    simp only [List.map_append, List.map_cons, List.map_nil, List.mem_append, List.mem_singleton]
    constructor
    · rintro (⟨h1, h2⟩ | rfl)
      · exact ⟨Or.inl h1, h2⟩
      · exact ⟨Or.inr rfl, hq⟩
    · rintro ⟨h1 | h1, h2⟩
      · exact Or.inl ⟨h1, h2⟩
      · exact Or.inr h1
  count := by
    intro p
    rw [sumC_add, h.count p, List.countP_append]
    cases hp : p w <;> simp [hq, hp]
  missd := by
    intro p
    rw [sumM_add, h.missd p, List.countP_append]
    cases hp : p w <;> cases r <;> simp [hq, hp]

theorem Tab.skip {q : List Nat → Bool} {ws : List (List Nat × Bool)} {t : List Term} (h : Tab q ws t) (w : List Nat) (r : Bool)
    (hq : q w = false) : Tab q (ws ++ [(w, r)]) t where
  nodup := h.nodup
  keys := by
    intro k
    rw [h.keys k]
    simp only [List.map_append, List.map_cons, List.map_nil, List.mem_append, List.mem_singleton]
    constructor
    · rintro ⟨h1, h2⟩
      exact ⟨Or.inl h1, h2⟩
    · rintro ⟨h1 | rfl, h2⟩
      · exact ⟨h1, h2⟩
      · rw [hq] at h2; simp at h2
  count := by intro p; rw [h.count p, List.countP_append]; simp [hq]
  missd := by intro p; rw [h.missd p, List.countP_append]; simp [hq]

theorem addWords_spec (stop : List Nat → Bool) : ∀ (ws done : List (List Nat × Bool)) (t1 t2 : List Term),
    Tab stop done t1 → Tab (fun w => !stop w) done t2 →
    Tab stop (done ++ ws) (addWords stop ws t1 t2).1 ∧ Tab (fun w => !stop w) (done ++ ws) (addWords stop ws t1 t2).2 := by
  intro ws
  induction ws with
  | nil => intro done t1 t2 h1 h2; simpa [addWords] using ⟨h1, h2⟩
  | cons x ws ih =>
    intro done t1 t2 h1 h2
    obtain ⟨w, r⟩ := x
    rw [addWords]
    have e : done ++ (w, r) :: ws = (done ++ [(w, r)]) ++ ws := by simp
    rw [e]
    by_cases hs : stop w = true
    · rw [if_pos hs]
      exact ih _ _ _ (h1.add w r hs) (h2.skip w r (by simp [hs]))
    · rw [if_neg hs]
      have hs' : stop w = false := by simpa using hs
      exact ih _ _ _ (h1.skip w r hs') (h2.add w r (by simp [hs']))

theorem sumC_key {t : List Term} (h : (t.map Term.key).Nodup) {x : Term} (hx : x ∈ t) : sumC (fun k => k == x.key) t = x.count := by
  unfold sumC
  simp only [beq_iff_eq]
  exact Store.sum_key_mem Term.key Term.count h hx

theorem sumM_key {t : List Term} (h : (t.map Term.key).Nodup) {x : Term} (hx : x ∈ t) : sumM (fun k => k == x.key) t = x.missed := by
  unfold sumM
  simp only [beq_iff_eq]
  exact Store.sum_key_mem Term.key Term.missed h hx

theorem Tab.tableOf {q : List Nat → Bool} {ws : List (List Nat × Bool)} {t : List Term} (h : Tab q ws t) : TableOf q ws t where
  nodup := h.nodup
  keys := h.keys
  entry := by
    intro x hx
    have hq := ((h.keys x.key).1 (List.mem_map_of_mem hx)).2
    rw [← sumC_key h.nodup hx, ← sumM_key h.nodup hx, h.count, h.missd]
    constructor
    · congr 1
      apply List.countP_congr
      intro y _
      by_cases e : y.1 = x.key
      · simp [e, hq]
      · simp [e]
    · congr 1
      apply List.countP_congr
      intro y _
      by_cases e : y.1 = x.key
      · simp [e, hq]
      · simp [e]

/-- Sums of the terms satisfying `p`. -/
def wsum (p : List Nat → Bool) (ts : List Term) : Wac := ⟨sumC p ts, sumM p ts⟩

theorem incrementAt_ok {size : Nat} {w : Nat → Wac} {i : Nat} (h : i < size) (c m : Int) :
    incrementAt size w (i : Int) c m = .ok (fun j => if j = i then increment_wac (w j) c m else w j) := by
  unfold incrementAt
  rw [if_pos (by omega)]
  simp

theorem wsum_cons (p : List Nat → Bool) (t : Term) (ts : List Term) :
    wsum p (t :: ts) = (if p t.key then (⟨t.count, t.missed⟩ : Wac) else ⟨0, 0⟩).add (wsum p ts) := by
  unfold wsum sumC sumM Wac.add increment_wac
  split <;> simp_all

/-- The occurrence histogram of a list of terms. -/
def osum (i : Nat) (ts : List Term) : Wac :=
  ⟨ts.countP (fun t => i = 0 || decide ((i : Int) = min t.count 11)),
    ts.countP (fun t => (i = 0 || decide ((i : Int) = min t.count 11)) && decide (t.count = t.missed))⟩

theorem termsLoop_none : ∀ (ts : List Term) (total : Wac) (length : Nat → Wac), (∀ t ∈ ts, 1 ≤ t.key.length ∧ t.key.length ≤ 50) →
    ∃ length', termsLoop ts total length none = .ok (total.add (wsum (fun _ => true) ts), length', none) ∧
      ∀ i, length' i = (length i).add (wsum (fun k => i == 0 || k.length == i) ts) := by
  intro ts
  induction ts with
  | nil =>
    intro total length _
    exact ⟨length, by simp [termsLoop, wsum, sumC, sumM, Wac.add, increment_wac], by simp [wsum, sumC, sumM, Wac.add, increment_wac]⟩
  | cons t ts ih =>
    intro total length h
    have hk := h t (by simp)
    have e1 : incrementAt (MAX_WORDLENGTH + 1) length 0 t.count t.missed = _ := incrementAt_ok (i := 0) (by unfold MAX_WORDLENGTH; omega) _ _
    rw [termsLoop, e1, bind_ok, incrementAt_ok (by unfold MAX_WORDLENGTH; omega), bind_ok]
    simp only [pure_eq, bind_ok]
    obtain ⟨length', e2, h2⟩ := ih (increment_wac total t.count t.missed) _ (fun x hx => h x (by simp [hx]))
    refine ⟨length', by rw [e2, wsum_cons, if_pos rfl, ← Wac.add_assoc]; rfl, ?_⟩
    intro i
    rw [h2 i, wsum_cons, ← Wac.add_assoc]
    congr 1
    by_cases i0 : i = 0
    · subst i0
      rw [if_neg (by omega)]
      simp [Wac.add]
    · by_cases il : i = t.key.length
      · subst il; simp [i0, Wac.add]
      · rw [if_neg il, if_neg i0, if_neg]
        · rw [Wac.add_zero]
        · simp only [Bool.or_eq_true, beq_iff_eq]; omega

theorem osum_cons (i : Nat) (t : Term) (ts : List Term) :
    osum i (t :: ts) = (if i = 0 ∨ (i : Int) = min t.count 11 then (⟨1, if t.count = t.missed then 1 else 0⟩ : Wac) else ⟨0, 0⟩).add (osum i ts) := by
  unfold osum Wac.add increment_wac
  rw [List.countP_cons, List.countP_cons]
  by_cases h : i = 0 ∨ (i : Int) = min t.count 11
  · rw [if_pos h]
    have : (decide (i = 0) || decide ((i : Int) = min t.count 11)) = true := by simpa using h
    by_cases hc : t.count = t.missed <;> simp [this, hc] <;> omega
  · rw [if_neg h]
    have : (decide (i = 0) || decide ((i : Int) = min t.count 11)) = false := by simpa using h
    simp [this]

theorem termsLoop_some : ∀ (ts : List Term) (total : Wac) (length occurs : Nat → Wac),
    (∀ t ∈ ts, 1 ≤ t.key.length ∧ t.key.length ≤ 50 ∧ 1 ≤ t.count) →
    ∃ length' occurs', termsLoop ts total length (some occurs) = .ok (total.add (wsum (fun _ => true) ts), length', some occurs') ∧
      (∀ i, length' i = (length i).add (wsum (fun k => i == 0 || k.length == i) ts)) ∧
      ∀ i, occurs' i = (occurs i).add (osum i ts) := by
  intro ts
  induction ts with
  | nil =>
    intro total length occurs _
    exact ⟨length, occurs, by simp [termsLoop, wsum, sumC, sumM, Wac.add, increment_wac],
      by simp [wsum, sumC, sumM, Wac.add, increment_wac], by simp [osum, Wac.add, increment_wac]⟩
  | cons t ts ih =>
    intro total length occurs h
    have hk := h t (by simp)
    have e1 : incrementAt (MAX_WORDLENGTH + 1) length 0 t.count t.missed = _ := incrementAt_ok (i := 0) (by unfold MAX_WORDLENGTH; omega) _ _
    have e3 := fun x : Int => incrementAt_ok (size := MAX_OCCURRENCES + 2) (w := occurs) (i := 0) (by unfold MAX_OCCURRENCES; omega) 1 x
    have hmin : (min t.count 11).toNat < MAX_OCCURRENCES + 2 := by unfold MAX_OCCURRENCES; omega
    have e4 := fun (w : Nat → Wac) (x : Int) => incrementAt_ok (w := w) hmin 1 x
    have hc : min t.count ((MAX_OCCURRENCES : Int) + 1) = ((min t.count 11).toNat : Int) := by
      have : (MAX_OCCURRENCES : Int) = 10 := rfl
      rw [this]; omega
    rw [termsLoop, e1, bind_ok, incrementAt_ok (by unfold MAX_WORDLENGTH; omega), bind_ok]
    simp only [pure_eq]
    simp only [Nat.cast_zero] at e3
    rw [e3]
    simp only [bind_ok]
    rw [hc, e4]
    simp only [bind_ok]
    obtain ⟨length', occurs', e2, h2, h3⟩ := ih (increment_wac total t.count t.missed) _ _ (fun x hx => h x (by simp [hx]))
    refine ⟨length', occurs', by rw [e2, wsum_cons, if_pos rfl, ← Wac.add_assoc]; rfl, ?_, ?_⟩
    · intro i
      rw [h2 i, wsum_cons, ← Wac.add_assoc]
      congr 1
      by_cases i0 : i = 0
      · subst i0
        rw [if_neg (by omega)]
        simp [Wac.add]
      · by_cases il : i = t.key.length
        · subst il; simp [i0, Wac.add]
        · rw [if_neg il, if_neg i0, if_neg]
          · rw [Wac.add_zero]
          · simp only [Bool.or_eq_true, beq_iff_eq]; omega
    · intro i
      rw [h3 i, osum_cons, ← Wac.add_assoc]
      congr 1
      by_cases i0 : i = 0
      · subst i0
        rw [if_neg (by omega), if_pos rfl, if_pos (Or.inl rfl)]; rfl
      · by_cases il : i = (min t.count 11).toNat
        · rw [if_pos il, if_neg i0, if_pos (Or.inr (by omega))]; rfl
        · rw [if_neg il, if_neg i0, if_neg (by omega), Wac.add_zero]

/-! ## Phrases -/

theorem phraseLoop_spec : ∀ (rs : List Bool) (j : Nat) (recognized : Bool) (phrase : Nat → Wac), 
    ∃ phrase', phraseLoop rs j recognized phrase = .ok phrase' ∧ ∀ L, phrase' L =
      (phrase L).add (if j < L ∧ L ≤ 8 ∧ L ≤ j + rs.length then ⟨1, if recognized && (rs.take (L - j)).all id then 0 else 1⟩ else ⟨0, 0⟩) := by
  intro rs
  induction rs with
  | nil =>
    intro j rc phrase
    refine ⟨phrase, by simp [phraseLoop], fun L => ?_⟩
    rw [if_neg (by simp; omega), Wac.add_zero]
  | cons r rs ih =>
    intro j rc phrase
    rw [phraseLoop]
    by_cases hj : j < MAX_PHRASELENGTH
    · rw [if_pos hj]
      have hj' : j < 8 := hj
      have e := fun x : Int => incrementAt_ok (size := MAX_PHRASELENGTH + 1) (w := phrase) (i := j + 1) (by unfold MAX_PHRASELENGTH; omega) 1 x
      simp only [Nat.cast_add, Nat.cast_one] at e
      simp only
      rw [e, bind_ok]
      obtain ⟨phrase', e', h⟩ := ih (j + 1) (rc && r) _
      refine ⟨phrase', e', fun L => ?_⟩
      rw [h L]
      by_cases hL : L = j + 1
      · subst hL
        rw [if_pos rfl, if_neg (show ¬ (j + 1 < j + 1 ∧ j + 1 ≤ 8 ∧ j + 1 ≤ j + 1 + rs.length) by omega), Wac.add_zero,
          if_pos (show j < j + 1 ∧ j + 1 ≤ 8 ∧ j + 1 ≤ j + (r :: rs).length by simp only [List.length_cons]; omega)]
        simp [Wac.add]
      · rw [if_neg hL]
        congr 1
        by_cases hc : j + 1 < L ∧ L ≤ 8 ∧ L ≤ j + 1 + rs.length
        · rw [if_pos hc, if_pos (show j < L ∧ L ≤ 8 ∧ L ≤ j + (r :: rs).length by simp only [List.length_cons]; omega)]
          have : L - j = L - (j + 1) + 1 := by omega
          rw [this, List.take_succ_cons, List.all_cons]
          simp [Bool.and_assoc]
        · rw [if_neg hc, if_neg (by simp only [List.length_cons]; omega)]
    · rw [if_neg hj]
      have hj' : ¬ j < 8 := hj
      exact ⟨phrase, rfl, fun L => by rw [if_neg (by omega), Wac.add_zero]⟩

theorem windows_cons (L : Nat) (r : Bool) (rs : List Bool) :
    windows L (r :: rs) = (if L ≤ rs.length + 1 then (⟨1, if ((r :: rs).take L).all id then 0 else 1⟩ : Wac) else ⟨0, 0⟩).add (windows L rs) := by
  unfold windows
  by_cases h : L ≤ rs.length + 1
  · rw [if_pos h]
    have e : (r :: rs).length + 1 - L = (rs.length + 1 - L) + 1 := by simp only [List.length_cons]; omega
    rw [e, List.range_succ_eq_map, List.countP_cons, List.countP_map]
    unfold Wac.add increment_wac
    have hz : (List.take L (List.drop 0 (r :: rs))).any (fun r => !r) = !((r :: rs).take L).all id := by
      rw [List.drop_zero]
      generalize (r :: rs).take L = l
      induction l with
      | nil => rfl
      | cons x l ih => simp only [List.any_cons, List.all_cons, ih]; cases x <;> simp
    have he : (List.range (rs.length + 1 - L)).countP ((fun i => (List.take L (List.drop i (r :: rs))).any fun r => !r) ∘ Nat.succ) =
        (List.range (rs.length + 1 - L)).countP (fun i => (List.take L (List.drop i rs)).any fun r => !r) := rfl
    rw [he, hz]
    cases ((r :: rs).take L).all id <;> simp <;> omega
  · rw [if_neg h]
    have e1 : (r :: rs).length + 1 - L = 0 := by simp only [List.length_cons]; omega
    have e2 : rs.length + 1 - L = 0 := by omega
    rw [e1, e2]
    simp [Wac.add, increment_wac]

theorem process_phrases_spec : ∀ (rs : List Bool) (phrase : Nat → Wac), ∃ phrase', process_phrases rs phrase = .ok phrase' ∧
    ∀ L, phrase' L = (phrase L).add (if 1 ≤ L ∧ L ≤ 8 then windows L rs else ⟨0, 0⟩) := by
  intro rs
  induction rs with
  | nil =>
    intro phrase
    refine ⟨phrase, rfl, fun L => ?_⟩
    split
    · have : 0 + 1 - L = 0 := by omega
      simp [windows, this, Wac.add, increment_wac]
    · rw [Wac.add_zero]
  | cons r rs ih =>
    intro phrase
    obtain ⟨p1, e1, h1⟩ := phraseLoop_spec (r :: rs) 0 true phrase
    obtain ⟨p2, e2, h2⟩ := ih p1
    refine ⟨p2, by rw [process_phrases, e1, bind_ok]; exact e2, fun L => ?_⟩
    rw [h2 L, h1 L]
    by_cases hL : 1 ≤ L ∧ L ≤ 8
    · rw [if_pos hL, if_pos hL, windows_cons L, Wac.add_assoc]
      congr 2
      by_cases hl : L ≤ rs.length + 1
      · rw [if_pos (by simp only [List.length_cons]; omega), if_pos hl]; simp
      · rw [if_neg (by simp only [List.length_cons]; omega), if_neg hl]
    · rw [if_neg hL, if_neg hL, if_neg (by omega)]
      simp [Wac.add_zero]

/-! ## All figures -/

theorem wsum_tab {q p : List Nat → Bool} {ws : List (List Nat × Bool)} {t ts : List Term} (h : Tab q ws t) (hp : ts.Perm t) :
    wsum p ts = tally (fun w => q w && p w) ws := by
  unfold wsum tally
  rw [sumC_perm hp, sumM_perm hp, h.count, h.missd]

theorem determine_spec (stop : List Nat → Bool) (words : List (List Nat × Bool))
    (hw : ∀ x ∈ words, 1 ≤ x.1.length ∧ x.1.length ≤ 50) :
    ∃ D, determine_wacdata stop words = .ok D ∧ Exact stop words D := by
  obtain ⟨h1, h2⟩ := addWords_spec stop words [] [] [] (Tab.nil _) (Tab.nil _)
  rw [List.nil_append] at h1 h2
  have p1 := Store.in_array_perm Term.key (addWords stop words [] []).1
  have p2 := Store.in_array_perm Term.key (addWords stop words [] []).2
  obtain ⟨t1, ht1⟩ : ∃ t, t = (addWords stop words [] []).1 := ⟨_, rfl⟩
  obtain ⟨t2, ht2⟩ : ∃ t, t = (addWords stop words [] []).2 := ⟨_, rfl⟩
  rw [← ht1] at h1 p1
  rw [← ht2] at h2 p2
  obtain ⟨s1, hs1⟩ : ∃ s, s = Store.in_array Term.key t1 := ⟨_, rfl⟩
  obtain ⟨s2, hs2⟩ : ∃ s, s = Store.in_array Term.key t2 := ⟨_, rfl⟩
  rw [← hs1] at p1
  rw [← hs2] at p2
  have len : ∀ {q t}, Tab q words t → ∀ x ∈ t, 1 ≤ x.key.length ∧ x.key.length ≤ 50 ∧ 1 ≤ x.count := by
    intro q t h x hx
    have hk := ((h.keys x.key).1 (List.mem_map_of_mem hx)).1
    obtain ⟨y, hy, e⟩ := List.mem_map.1 hk
    have hc := (h.tableOf.entry x hx).1
    have : 0 < words.countP (fun z => z.1 = x.key) := List.countP_pos_iff.2 ⟨y, hy, by simpa using e⟩
    have := hw y hy
    rw [e] at this
    exact ⟨this.1, this.2, by omega⟩
  obtain ⟨l1, e1, g1⟩ := termsLoop_none s1 ⟨0, 0⟩ (fun _ => ⟨0, 0⟩) (fun x hx => by
    have := len h1 x (p1.mem_iff.1 hx); exact ⟨this.1, this.2.1⟩)
  obtain ⟨l2, o2, e2, g2, g3⟩ := termsLoop_some s2 (Wac.add ⟨0, 0⟩ (wsum (fun _ => true) s1)) (fun _ => ⟨0, 0⟩) (fun _ => ⟨0, 0⟩)
    (fun x hx => len h2 x (p2.mem_iff.1 hx))
  obtain ⟨ph, e3, g4⟩ := process_phrases_spec (words.map Prod.snd) (fun _ => ⟨0, 0⟩)
  refine ⟨⟨(Wac.add ⟨0, 0⟩ (wsum (fun _ => true) s1)).add (wsum (fun _ => true) s2), l1, l2, o2, ph, t1, t2⟩, ?_, ?_⟩
  · unfold determine_wacdata
    rw [show addWords stop words [] [] = (t1, t2) by rw [ht1, ht2]]
    simp only
    rw [← hs1, ← hs2, e1]
    simp only [bind_ok]
    rw [e2]
    simp only [bind_ok]
    rw [e3]
    rfl
  constructor
  · simp only
    rw [wsum_tab h1 p1, wsum_tab h2 p2, Wac.zero_add]
    unfold tally Wac.add increment_wac
    simp only [Bool.and_true, Bool.true_and, List.countP_true]
    clear * - 
    induction words with
    | nil => rfl
    | cons x ws ih =>
      simp only [List.countP_cons, List.length_cons, Wac.mk.injEq] at ih ⊢
      cases stop x.1 <;> cases x.2 <;> simp <;> omega
  · simp only; rw [g1, Wac.zero_add, wsum_tab h1 p1]; simp
  · intro i hi
    simp only; rw [g1, Wac.zero_add, wsum_tab h1 p1]
    have : (i == 0) = false := by simp; omega
    simp [this]
  · simp only; rw [g2, Wac.zero_add, wsum_tab h2 p2]; simp
  · intro i hi
    simp only; rw [g2, Wac.zero_add, wsum_tab h2 p2]
    have : (i == 0) = false := by simp; omega
    simp [this]
  · intro E hE hm
    -- the distinct words are the keys of the table
    have hperm : (s2.map Term.key).Perm E := by
      refine (p2.map Term.key).trans ((List.perm_ext_iff_of_nodup h2.nodup hE).2 fun k => ?_)
      rw [h2.keys k, hm k]; simp
    have cnt : ∀ x ∈ s2, x.count = (words.countP (fun z => z.1 = x.key) : Int) ∧
        (x.count = x.missed ↔ words.all (fun z => !(decide (z.1 = x.key) && z.2)) = true) := by
      intro x hx
      have hx' := p2.mem_iff.1 hx
      obtain ⟨c1, c2⟩ := h2.tableOf.entry x hx'
      refine ⟨c1, ?_⟩
      rw [c1, c2, Nat.cast_inj, List.all_eq_true]
      clear * - 
      induction words with
      | nil => simp
      | cons z ws ih =>
        have hle : ws.countP (fun z => decide (z.1 = x.key) && !z.2) ≤ ws.countP (fun z => decide (z.1 = x.key)) :=
          List.countP_mono_left (by intro y _ h; simp at h ⊢; exact h.1)
        rw [List.countP_cons, List.countP_cons]
        by_cases e : z.1 = x.key
        · cases hz : z.2
          · simp only [e, hz, decide_true, Bool.true_and, Bool.not_false, if_true, Nat.add_right_cancel_iff, List.mem_cons,
              forall_eq_or_imp]
            rw [ih]; simp
          · simp [e, hz]; omega
        · simp only [e, decide_false, Bool.false_and, List.mem_cons, forall_eq_or_imp]
          simp only [Bool.false_eq_true, if_false, Nat.add_zero]
          rw [ih]; simp
    have conv : ∀ (i lo hi : Nat), (∀ x ∈ s2, (i = 0 ∨ (i : Int) = min x.count 11) ↔ lo ≤ words.countP (fun z => z.1 = x.key) ∧ words.countP (fun z => z.1 = x.key) ≤ hi) →
        osum i s2 = tallyDistinct lo hi E words := by
      intro i lo hi h
      unfold osum tallyDistinct
      simp only
      rw [← hperm.countP_eq, ← hperm.countP_eq, List.countP_map, List.countP_map]
      congr 2
      · apply List.countP_congr
        intro x hx
        have := h x hx
        simp only [Bool.or_eq_true, decide_eq_true_eq, Function.comp, Bool.and_eq_true]
        exact this
      · apply List.countP_congr
        intro x hx
        have := h x hx
        simp only [Bool.or_eq_true, decide_eq_true_eq, Function.comp, Bool.and_eq_true]
        rw [this, (cnt x hx).2]
    have pos := fun x hx => (len h2 x (p2.mem_iff.1 hx)).2.2
    refine ⟨?_, ?_, ?_, ?_⟩
    · simp only; rw [g3, Wac.zero_add]
      apply conv
      intro x hx
      have := List.countP_le_length (l := words) (p := fun z => decide (z.1 = x.key))
      simp; exact this
    · intro i hi1 hi2
      simp only; rw [g3, Wac.zero_add]
      apply conv
      intro x hx
      rw [(cnt x hx).1]
      omega
    · simp only; rw [g3, Wac.zero_add]
      apply conv
      intro x hx
      have := List.countP_le_length (l := words) (p := fun z => decide (z.1 = x.key))
      rw [(cnt x hx).1]
      omega
    · intro i hi
      simp only; rw [g3, Wac.zero_add]
      unfold osum
      have : ∀ x ∈ s2, (decide (i = 0) || decide ((i : Int) = min x.count 11)) = false := by
        intro x hx; simp; omega
      rw [List.countP_eq_zero.2 (by intro x hx; simp only [this x hx]; simp), List.countP_eq_zero.2 (by intro x hx; simp only [this x hx]; simp)]
      rfl
  · refine ⟨?_, ?_, ?_⟩
    · simp only; rw [g4, if_neg (by omega)]; rfl
    · intro L hL1 hL2
      simp only; rw [g4, if_pos ⟨hL1, hL2⟩, Wac.zero_add]
    · intro L hL
      simp only; rw [g4, if_neg (by omega)]; rfl
  · exact h1.tableOf
  · exact h2.tableOf

/-! ## Long words -/

theorem incrementAt_cases (size : Nat) (w : Nat → Wac) (i c m : Int) : incrementAt size w i c m = .ub ∨ ∃ w', incrementAt size w i c m = .ok w' := by
  unfold incrementAt; split
  · exact Or.inr ⟨_, rfl⟩
  · exact Or.inl rfl

theorem termsLoop_long : ∀ (ts : List Term) (total : Wac) (length : Nat → Wac) (occurs : Option (Nat → Wac)),
    (∃ t ∈ ts, 50 < t.key.length) → termsLoop ts total length occurs = .ub := by
  intro ts
  induction ts with
  | nil => simp
  | cons t ts ih =>
    intro total length occurs h
    have e1 : incrementAt (MAX_WORDLENGTH + 1) length 0 t.count t.missed = _ := incrementAt_ok (i := 0) (by unfold MAX_WORDLENGTH; omega) _ _
    rw [termsLoop.eq_def]
    simp only
    rw [e1, bind_ok]
    by_cases hl : 50 < t.key.length
    · have : ∀ w, incrementAt (MAX_WORDLENGTH + 1) w t.key.length t.count t.missed = .ub := by
        intro w
        unfold incrementAt
        rw [if_neg (by have : MAX_WORDLENGTH = 50 := rfl; omega)]
      rw [this, bind_ub]
    · rw [incrementAt_ok (by have : MAX_WORDLENGTH = 50 := rfl; omega), bind_ok]
      have h' : ∃ t ∈ ts, 50 < t.key.length := by
        obtain ⟨x, hx, h2⟩ := h
        rcases List.mem_cons.1 hx with rfl | hx
        · omega
        · exact ⟨x, hx, h2⟩
      cases occurs with
      | none => simp only [pure_eq, bind_ok]; exact ih _ _ _ h'
      | some o =>
        simp only
        rcases incrementAt_cases (MAX_OCCURRENCES + 2) o 0 1 (if t.count = t.missed then 1 else 0) with q | ⟨w, q⟩
        · rw [q]; rfl
        · rw [q]
          simp only [bind_ok]
          rcases incrementAt_cases (MAX_OCCURRENCES + 2) w (min t.count (MAX_OCCURRENCES + 1)) 1 (if t.count = t.missed then 1 else 0) with q | ⟨w', q⟩
          · rw [q]; rfl
          · rw [q]; simp only [bind_ok, pure_eq]; exact ih _ _ _ h'

theorem termsLoop_cases : ∀ (ts : List Term) (total : Wac) (length : Nat → Wac) (occurs : Option (Nat → Wac)),
    termsLoop ts total length occurs = .ub ∨ ∃ r, termsLoop ts total length occurs = .ok r := by
  intro ts
  induction ts with
  | nil => intro total length occurs; exact Or.inr ⟨_, rfl⟩
  | cons t ts ih =>
    intro total length occurs
    rw [termsLoop.eq_def]
    simp only
    rcases incrementAt_cases (MAX_WORDLENGTH + 1) length 0 t.count t.missed with q | ⟨w, q⟩
    · rw [q]; exact Or.inl rfl
    rw [q, bind_ok]
    rcases incrementAt_cases (MAX_WORDLENGTH + 1) w t.key.length t.count t.missed with q | ⟨w, q⟩
    · rw [q]; exact Or.inl rfl
    rw [q, bind_ok]
    cases occurs with
    | none => simp only [pure_eq, bind_ok]; exact ih _ _ _
    | some o =>
      simp only
      rcases incrementAt_cases (MAX_OCCURRENCES + 2) o 0 1 (if t.count = t.missed then 1 else 0) with q | ⟨w, q⟩
      · rw [q]; exact Or.inl rfl
      · rw [q]
        simp only [bind_ok]
        rcases incrementAt_cases (MAX_OCCURRENCES + 2) w (min t.count (MAX_OCCURRENCES + 1)) 1 (if t.count = t.missed then 1 else 0) with q | ⟨w', q⟩
        · rw [q]; exact Or.inl rfl
        · rw [q]; simp only [bind_ok, pure_eq]; exact ih _ _ _

/-- A word of more than 50 bytes is counted outside the array. -/
theorem determine_long (stop : List Nat → Bool) (words : List (List Nat × Bool)) (hw : ∃ x ∈ words, 50 < x.1.length) :
    determine_wacdata stop words = .ub := by
  obtain ⟨h1, h2⟩ := addWords_spec stop words [] [] [] (Tab.nil _) (Tab.nil _)
  rw [List.nil_append] at h1 h2
  have p1 := Store.in_array_perm Term.key (addWords stop words [] []).1
  have p2 := Store.in_array_perm Term.key (addWords stop words [] []).2
  obtain ⟨t1, ht1⟩ : ∃ t, t = (addWords stop words [] []).1 := ⟨_, rfl⟩
  obtain ⟨t2, ht2⟩ : ∃ t, t = (addWords stop words [] []).2 := ⟨_, rfl⟩
  rw [← ht1] at h1 p1
  rw [← ht2] at h2 p2
  obtain ⟨x, hx, hl⟩ := hw
  unfold determine_wacdata
  rw [show addWords stop words [] [] = (t1, t2) by rw [ht1, ht2]]
  simp only
  have find : ∀ {q t ts}, Tab q words t → List.Perm ts t → q x.1 = true → ∃ y ∈ ts, 50 < y.key.length := by
    intro q t ts h hp hq
    have := (h.keys x.1).2 ⟨List.mem_map_of_mem hx, hq⟩
    obtain ⟨y, hy, e⟩ := List.mem_map.1 this
    exact ⟨y, hp.mem_iff.2 hy, by rw [e]; exact hl⟩
  cases hs : stop x.1 with
  | true => rw [termsLoop_long _ _ _ _ (find h1 p1 hs)]; rfl
  | false =>
    rcases termsLoop_cases (Store.in_array Term.key t1) ⟨0, 0⟩ (fun _ => ⟨0, 0⟩) none with q | ⟨r, q⟩
    · rw [q]; rfl
    · rw [q]
      obtain ⟨r1, r2, r3⟩ := r
      simp only [bind_ok]
      rw [termsLoop_long _ _ _ _ (find h2 p2 (by simp [hs]))]
      rfl

end Ocr.Wordacc
