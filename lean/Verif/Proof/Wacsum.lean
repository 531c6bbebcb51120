import Verif.Proof.Wacrpt
import Verif.Proof.AccOrder

/-! # Reading several word accuracy reports -/

namespace Ocr.Wac
open Text Res Report
open Ocr.Acc (strAt after_line PctFormat bind_nofuel strAt_fuel)

def Wac.add (a b : Wac) : Wac := increment_wac a b.count b.missed

theorem Wac.add_assoc (a b c : Wac) : (a.add b).add c = a.add (b.add c) := by simp [Wac.add, increment_wac, Int.add_assoc]
theorem Wac.zero_add (a : Wac) : Wac.add ⟨0, 0⟩ a = a := by simp [Wac.add, increment_wac]
theorem Wac.add_zero (a : Wac) : Wac.add a ⟨0, 0⟩ = a := by simp [Wac.add, increment_wac]
theorem inc_add (a b : Wac) (x y : Int) : increment_wac (a.add b) x y = a.add (increment_wac b x y) := by
  simp [Wac.add, increment_wac, Int.add_assoc]

theorem sumWac_cons (a : Wac) (l : List Wac) : sumWac (a :: l) = a.add (sumWac l) := by simp [sumWac, Wac.add, increment_wac]
theorem sumWac_perm {l l' : List Wac} (h : l.Perm l') : sumWac l = sumWac l' := by
  unfold sumWac; rw [(h.map _).sum_eq, (h.map _).sum_eq]

/-- The array `d` is `b` with `e` added. -/
def PlusA (b e d : Nat → Wac) : Prop := ∀ i, d i = (b i).add (e i)

/-- The table `d` is `b` with `e` added. -/
structure PlusT (b e d : List Term) : Prop where
  count : ∀ k, termCount k d = termCount k b + termCount k e ∧ termMissed k d = termMissed k b + termMissed k e
  keys  : ∀ k, k ∈ d.map Term.key ↔ k ∈ b.map Term.key ∨ k ∈ e.map Term.key
  nodup : (b.map Term.key).Nodup → (d.map Term.key).Nodup

theorem PlusT.zero (b : List Term) : PlusT b [] b := ⟨by simp [termCount, termMissed], by simp, id⟩

theorem termCount_add (t : List Term) (key k : List Nat) (c m : Int) :
    termCount k (add_term t key c m) = termCount k t + (if key = k then c else 0) := by
  unfold termCount add_term
  apply Store.sum_add_key
  · intro x hx; simp only [hx]; split <;> simp
  · rfl

theorem termMissed_add (t : List Term) (key k : List Nat) (c m : Int) :
    termMissed k (add_term t key c m) = termMissed k t + (if key = k then m else 0) := by
  unfold termMissed add_term
  apply Store.sum_add_key
  · intro x hx; simp only [hx]; split <;> simp
  · rfl

theorem keys_add (t : List Term) (key k : List Nat) (c m : Int) :
    k ∈ (add_term t key c m).map Term.key ↔ k ∈ t.map Term.key ∨ k = key := by
  unfold add_term
  exact Store.mem_keys_add Term.key key (fun t : Term => { t with count := t.count + c, missed := t.missed + m })
    ⟨key, c, m⟩ (fun _ => rfl) rfl t k

theorem nodup_add_term (t : List Term) (key : List Nat) (c m : Int) (h : (t.map Term.key).Nodup) :
    ((add_term t key c m).map Term.key).Nodup := by
  unfold add_term
  exact Store.nodup_add Term.key key (fun t : Term => { t with count := t.count + c, missed := t.missed + m })
    ⟨key, c, m⟩ (fun _ => rfl) rfl h

theorem PlusT.add {b e d : List Term} (h : PlusT b e d) (key : List Nat) (c m : Int) : PlusT b (add_term e key c m) (add_term d key c m) where
  count := by
    intro k
    have := h.count k
    rw [termCount_add, termCount_add, termMissed_add, termMissed_add, this.1, this.2]
    constructor <;> omega
  keys := by intro k; rw [keys_add, keys_add, h.keys k, or_assoc]
  nodup := fun hb => nodup_add_term _ _ _ _ (h.nodup hb)

theorem incrementAt_plus {b e d : Nat → Wac} (h : PlusA b e d) (size : Nat) (i c m : Int) :
    Res.Alike (PlusA b) (incrementAt size e i c m) (incrementAt size d i c m) := by
  unfold incrementAt
  split
  · refine .ok fun j => ?_
    split
    · rw [h j, inc_add]
    · exact h j
  · exact .ub

theorem numbersLoop_plus {b : Nat → Wac} (size : Nat) : ∀ (fuel : Nat) (file : List Nat) (t : Int) {e d : Nat → Wac}, PlusA b e d →
    Res.Alike (fun x y => PlusA b x.1 y.1 ∧ x.2 = y.2) (numbersLoop size fuel file e t) (numbersLoop size fuel file d t) := by
  intro fuel
  induction fuel with
  | zero =>
    intro file t e d h
    obtain ⟨r, hr⟩ : ∃ r, read_two file = r := ⟨_, rfl⟩
    unfold numbersLoop
    simp only [hr]
    cases r with
    | none => exact .ok ⟨h, rfl⟩
    | some p => exact .fuel
  | succ fuel ih =>
    intro file t e d h
    obtain ⟨r, hr⟩ : ∃ r, read_two file = r := ⟨_, rfl⟩
    unfold numbersLoop
    simp only [hr]
    cases r with
    | none => exact .ok ⟨h, rfl⟩
    | some p =>
      obtain ⟨⟨v1, v2, line⟩, rest⟩ := p
      apply Res.Alike.bind (Res.Alike.refl _)
      rintro s _ rfl
      apply Res.Alike.bind (incrementAt_plus h _ _ _ _)
      intro e' d' h'
      exact ih rest _ h'

theorem termsLoop_plus {b : List Term} : ∀ (fuel : Nat) (file : List Nat) {e d : List Term}, PlusT b e d →
    Res.Alike (fun x y => PlusT b x.1 y.1 ∧ x.2 = y.2) (termsLoop fuel file e) (termsLoop fuel file d) := by
  intro fuel
  induction fuel with
  | zero =>
    intro file e d h
    obtain ⟨r, hr⟩ : ∃ r, read_two file = r := ⟨_, rfl⟩
    unfold termsLoop
    simp only [hr]
    cases r with
    | none => exact .ok ⟨h, rfl⟩
    | some p => exact .fuel
  | succ fuel ih =>
    intro file e d h
    obtain ⟨r, hr⟩ : ∃ r, read_two file = r := ⟨_, rfl⟩
    unfold termsLoop
    simp only [hr]
    cases r with
    | none => exact .ok ⟨h, rfl⟩
    | some p =>
      obtain ⟨⟨v1, v2, line⟩, rest⟩ := p
      simp only
      split
      · exact ih rest (h.add _ _ _)
      · exact .ub

theorem read_numbers_plus {b e d : Nat → Wac} (h : PlusA b e d) (size : Nat) (file : List Nat) :
    Res.Alike (fun x y => PlusA b x.1 y.1 ∧ x.2 = y.2) (read_numbers size file e) (read_numbers size file d) := by
  unfold read_numbers
  split
  · exact numbersLoop_plus _ _ _ _ h
  · exact .ok ⟨h, rfl⟩

theorem read_terms_plus {b e d : List Term} (h : PlusT b e d) (file : List Nat) :
    Res.Alike (fun x y => PlusT b x.1 y.1 ∧ x.2 = y.2) (read_terms file e) (read_terms file d) := by
  unfold read_terms
  split
  · exact termsLoop_plus _ _ h
  · exact .ok ⟨h, rfl⟩

/-- `D` is `B` with `E` added. -/
structure Plus (B E D : Wacdata) : Prop where
  total    : D.total = B.total.add E.total
  stop     : PlusA B.stopword E.stopword D.stopword
  non      : PlusA B.non_stopword E.non_stopword D.non_stopword
  distinct : PlusA B.distinct_non_stopword E.distinct_non_stopword D.distinct_non_stopword
  phrase   : PlusA B.phrase E.phrase D.phrase
  table1   : PlusT B.stopword_table E.stopword_table D.stopword_table
  table2   : PlusT B.non_stopword_table E.non_stopword_table D.non_stopword_table

theorem Plus.zero (B : Wacdata) : Plus B Wacdata.zero B := by
  constructor
  · simp [Wacdata.zero, Wac.add_zero]
  · intro i; simp [Wacdata.zero, Wac.add_zero]
  · intro i; simp [Wacdata.zero, Wac.add_zero]
  · intro i; simp [Wacdata.zero, Wac.add_zero]
  · intro i; simp [Wacdata.zero, Wac.add_zero]
  · exact .zero _
  · exact .zero _

/-- Reading adds the same figures whatever was there before. -/
theorem read_plus {B E D : Wacdata} (h : Plus B E D) (file : List Nat) :
    Res.Alike (Plus B) (read_wacrpt E file) (read_wacrpt D file) := by
  unfold read_wacrpt
  obtain ⟨r, hr⟩ : ∃ r, read_head file = r := ⟨_, rfl⟩
  simp only [hr]
  cases r with
  | none => exact .err _
  | some p =>
    obtain ⟨⟨words, missed⟩, f⟩ := p
    simp only
    apply Res.Alike.bind (read_numbers_plus h.stop _ _)
    rintro ⟨e1, w1, f1⟩ ⟨d1, _⟩ ⟨h1, hx⟩
    simp only at hx
    subst hx
    simp only
    apply Res.Alike.bind (read_numbers_plus h.non _ _)
    rintro ⟨e2, w2, f2⟩ ⟨d2, _⟩ ⟨h2, hx⟩
    simp only at hx
    subst hx
    simp only
    apply Res.Alike.bind (read_numbers_plus h.distinct _ _)
    rintro ⟨e3, w3, f3⟩ ⟨d3, _⟩ ⟨h3, hx⟩
    simp only at hx
    subst hx
    simp only
    apply Res.Alike.bind (R := fun x y => PlusA B.phrase x.1 y.1 ∧ x.2 = y.2)
    · split
      · exact read_numbers_plus h.phrase _ _
      · exact .ok ⟨h.phrase, rfl⟩
    rintro ⟨e4, w4, f4⟩ ⟨d4, _⟩ ⟨h4, hx⟩
    simp only at hx
    subst hx
    simp only
    apply Res.Alike.bind (R := fun x y => PlusT B.stopword_table x.1 y.1 ∧ x.2 = y.2)
    · split
      · exact read_terms_plus h.table1 _
      · exact .ok ⟨h.table1, rfl⟩
    rintro ⟨e5, f5⟩ ⟨d5, _⟩ ⟨h5, hx⟩
    simp only at hx
    subst hx
    simp only
    apply Res.Alike.bind (R := fun x y => PlusT B.non_stopword_table x.1 y.1 ∧ x.2 = y.2)
    · split
      · exact read_terms_plus h.table2 _
      · exact .ok ⟨h.table2, rfl⟩
    rintro ⟨e6, f6⟩ ⟨d6, _⟩ ⟨h6, hx⟩
    simp only at hx
    subst hx
    simp only
    exact .ok ⟨by simp only [h.total]; rw [inc_add], h1, h2, h3, h4, h5, h6⟩

theorem TableSum.single {b : List Term} (h : (b.map Term.key).Nodup) : TableSum [b] b := ⟨by simp, by simp, h⟩

theorem TableSum.step {b e d1 d : List Term} {es : List (List Term)} (hp : PlusT b e d1) (h : TableSum (d1 :: es) d) :
    TableSum (b :: e :: es) d where
  count := by intro k; rw [(h.count k).1, (h.count k).2]; simp [(hp.count k).1, (hp.count k).2, Int.add_assoc]
  keys := by
    intro k; rw [h.keys k]
    simp only [List.mem_cons, exists_eq_or_imp, hp.keys k, or_assoc]
  nodup := h.nodup

theorem TableSum.of_zero {d : List Term} {es : List (List Term)} (h : TableSum ([] :: es) d) : TableSum es d where
  count := by intro k; rw [(h.count k).1, (h.count k).2]; simp [termCount, termMissed]
  keys := by intro k; rw [h.keys k]; simp
  nodup := h.nodup

theorem TableSum.perm {d : List Term} {es es' : List (List Term)} (h : TableSum es d) (hp : es.Perm es') : TableSum es' d where
  count := by intro k; rw [(h.count k).1, (h.count k).2]; exact ⟨(hp.map _).sum_eq, (hp.map _).sum_eq⟩
  keys := by intro k; rw [h.keys k]; simp only [hp.mem_iff]
  nodup := h.nodup

theorem TableSum.sub {es : List (List Term)} {d d' : List Term} (h : TableSum es d) (h' : TableSum es d') : ∀ c ∈ d, c ∈ d' := by
  intro c hc
  have hk := (h'.keys c.key).2 ((h.keys c.key).1 (List.mem_map_of_mem hc))
  obtain ⟨c', hc', e⟩ := List.mem_map.1 hk
  have e1 : termCount c.key d = c.count := Store.sum_key_mem Term.key Term.count h.nodup hc
  have e2 : termCount c'.key d' = c'.count := Store.sum_key_mem Term.key Term.count h'.nodup hc'
  have m1 : termMissed c.key d = c.missed := Store.sum_key_mem Term.key Term.missed h.nodup hc
  have m2 : termMissed c'.key d' = c'.missed := Store.sum_key_mem Term.key Term.missed h'.nodup hc'
  have a := h.count c.key
  have a' := h'.count c.key
  rw [e] at e2 m2
  have : c' = c := by
    cases c; cases c'
    simp only at e e1 e2 m1 m2 a a' ⊢
    subst e
    rw [← e1, ← e2, ← m1, ← m2, a.1, a.2, a'.1, a'.2]
  exact this ▸ hc'

theorem TableSum.unique {es : List (List Term)} {d d' : List Term} (h : TableSum es d) (h' : TableSum es d') : d.Perm d' :=
  (List.perm_ext_iff_of_nodup (List.Nodup.of_map _ h.nodup) (List.Nodup.of_map _ h'.nodup)).2 fun c => ⟨h.sub h' c, h'.sub h c⟩

theorem IsSum.single {B : Wacdata} (h1 : (B.stopword_table.map Term.key).Nodup) (h2 : (B.non_stopword_table.map Term.key).Nodup) :
    IsSum [B] B := by
  constructor
  · simp [sumWac]
  · intro i; simp [sumWac]
  · intro i; simp [sumWac]
  · intro i; simp [sumWac]
  · intro i; simp [sumWac]
  · exact .single h1
  · exact .single h2

theorem IsSum.step {B E D1 D : Wacdata} {Es : List Wacdata} (hp : Plus B E D1) (h : IsSum (D1 :: Es) D) : IsSum (B :: E :: Es) D := by
  constructor
  · rw [h.total]; simp only [List.map_cons, sumWac_cons, hp.total, Wac.add_assoc]
  · intro i; rw [h.stop]; simp only [List.map_cons, sumWac_cons, hp.stop i, Wac.add_assoc]
  · intro i; rw [h.non]; simp only [List.map_cons, sumWac_cons, hp.non i, Wac.add_assoc]
  · intro i; rw [h.distinct]; simp only [List.map_cons, sumWac_cons, hp.distinct i, Wac.add_assoc]
  · intro i; rw [h.phrase]; simp only [List.map_cons, sumWac_cons, hp.phrase i, Wac.add_assoc]
  · exact .step hp.table1 h.table1
  · exact .step hp.table2 h.table2

theorem IsSum.of_zero {D : Wacdata} {Es : List Wacdata} (h : IsSum (Wacdata.zero :: Es) D) : IsSum Es D := by
  constructor
  · rw [h.total]; simp only [List.map_cons, sumWac_cons, Wacdata.zero, Wac.zero_add]
  · intro i; rw [h.stop]; simp only [List.map_cons, sumWac_cons, Wacdata.zero, Wac.zero_add]
  · intro i; rw [h.non]; simp only [List.map_cons, sumWac_cons, Wacdata.zero, Wac.zero_add]
  · intro i; rw [h.distinct]; simp only [List.map_cons, sumWac_cons, Wacdata.zero, Wac.zero_add]
  · intro i; rw [h.phrase]; simp only [List.map_cons, sumWac_cons, Wacdata.zero, Wac.zero_add]
  · exact .of_zero h.table1
  · exact .of_zero h.table2

theorem IsSum.perm {Es Es' : List Wacdata} {D : Wacdata} (h : IsSum Es D) (hp : Es.Perm Es') : IsSum Es' D := by
  constructor
  · rw [h.total]; exact sumWac_perm (hp.map _)
  · intro i; rw [h.stop]; exact sumWac_perm (hp.map _)
  · intro i; rw [h.non]; exact sumWac_perm (hp.map _)
  · intro i; rw [h.distinct]; exact sumWac_perm (hp.map _)
  · intro i; rw [h.phrase]; exact sumWac_perm (hp.map _)
  · exact h.table1.perm (hp.map _)
  · exact h.table2.perm (hp.map _)

/-- A sum is determined up to the order of the words. -/
theorem IsSum.unique {Es : List Wacdata} {D D' : Wacdata} (h : IsSum Es D) (h' : IsSum Es D') : D.Same D' := by
  refine ⟨?_, h.table1.unique h'.table1, h.table2.unique h'.table2⟩
  have e1 : D'.stopword = D.stopword := by funext i; rw [h.stop, h'.stop]
  have e2 : D'.non_stopword = D.non_stopword := by funext i; rw [h.non, h'.non]
  have e3 : D'.distinct_non_stopword = D.distinct_non_stopword := by funext i; rw [h.distinct, h'.distinct]
  have e4 : D'.phrase = D.phrase := by funext i; rw [h.phrase, h'.phrase]
  have e5 := h.total.trans h'.total.symm
  cases D; cases D'
  simp_all

theorem readAll_spec {files : List (List Nat)} {Es : List Wacdata}
    (h : List.Forall₂ (fun f E => read_wacrpt Wacdata.zero f = .ok E) files Es) :
    ∀ B : Wacdata, (B.stopword_table.map Term.key).Nodup → (B.non_stopword_table.map Term.key).Nodup →
      ∃ D, readAll B files = .ok D ∧ IsSum (B :: Es) D := by
  induction h with
  | nil => intro B h1 h2; exact ⟨B, rfl, IsSum.single h1 h2⟩
  | cons hE _ ih =>
    intro B h1 h2
    obtain ⟨D1, e1, hp⟩ := (read_plus (Plus.zero B) _).ok_right hE
    obtain ⟨D, e2, h3⟩ := ih D1 (hp.table1.nodup h1) (hp.table2.nodup h2)
    exact ⟨D, by rw [readAll, e1]; exact e2, h3.step hp⟩

theorem readAll_each : ∀ (files : List (List Nat)) (D E : Wacdata), readAll D files = .ok E →
    ∃ Es, List.Forall₂ (fun f E => read_wacrpt Wacdata.zero f = .ok E) files Es := by
  intro files
  induction files with
  | nil => intro _ _ _; exact ⟨[], .nil⟩
  | cons f fs ih =>
    intro D E h
    rw [readAll] at h
    obtain ⟨D1, h1, h⟩ := bind_eq_ok.1 h
    obtain ⟨Es, hEs⟩ := ih _ _ h
    obtain ⟨E1, e1, _⟩ := (read_plus (Plus.zero D) f).ok_left h1
    exact ⟨E1 :: Es, .cons e1 hEs⟩

/-! ## The report does not depend on the order of the words -/

def NulTable (t : List Term) : Prop := ∀ c ∈ t, NulFree c.key

theorem write_terms_same (pct : Int → Int → List Nat) {t t' : List Term} (hp : t.Perm t') (hk : (t.map Term.key).Nodup)
    (hn : NulTable t) (title : String) : write_terms pct t' title = write_terms pct t title := by
  unfold write_terms
  have p1 := Store.in_array_perm Term.key t
  have p2 := Store.in_array_perm Term.key t'
  obtain ⟨a, ha⟩ : ∃ a, Store.in_array Term.key t = a := ⟨_, rfl⟩
  obtain ⟨b, hb⟩ : ∃ b, Store.in_array Term.key t' = b := ⟨_, rfl⟩
  rw [ha] at p1; rw [hb] at p2
  simp only [ha, hb]
  have pab : a.Perm b := p1.trans (hp.trans p2.symm)
  obtain ⟨s, s1, s2, _⟩ := c04_terms_by_key a b pab ⟨(p1.map Term.key).nodup_iff.2 hk, fun c hc => hn c (p1.mem_iff.1 hc)⟩
    a.length (Nat.le_refl _)
  rw [s1, ← pab.length_eq, s2]

theorem write_same (pct : Int → Int → List Nat) {D D' : Wacdata} (h : D.Same D') (k1 : (D.stopword_table.map Term.key).Nodup)
    (k2 : (D.non_stopword_table.map Term.key).Nodup) (n1 : NulTable D.stopword_table) (n2 : NulTable D.non_stopword_table) :
    write_wacrpt pct D' = write_wacrpt pct D := by
  obtain ⟨he, p1, p2⟩ := h
  have w1 := write_terms_same pct p1 k1 n1 "Stopwords"
  have w2 := write_terms_same pct p2 k2 n2 "Non-stopwords"
  unfold write_wacrpt
  simp only [w1, w2]
  have ht : write_top pct D' = write_top pct D := by rw [he]; rfl
  simp only [ht]
  rw [he]

theorem termsLoop_nul : ∀ (fuel : Nat) (file : List Nat) (t : List Term) (r : List Term × List Nat),
    termsLoop fuel file t = .ok r → NulTable t → NulTable r.1 := by
  intro fuel
  induction fuel with
  | zero =>
    intro file t r h hk
    rw [termsLoop.eq_def] at h
    simp only at h
    split at h
    · have := Res.ok.inj h; subst this; exact hk
    · simp at h
  | succ fuel ih =>
    intro file t r h hk
    rw [termsLoop.eq_def] at h
    simp only at h
    split at h
    · have := Res.ok.inj h; subst this; exact hk
    · rename_i v1 v2 line rest hr
      have h0 := Acc.read_two_no0 hr
      split at h
      · refine ih _ _ _ h ?_
        intro c hc
        have hf : NulFree (line.dropLast.drop OFFSET) := by
          intro b hb e
          exact h0 (e ▸ (List.dropLast_prefix _).subset ((List.drop_suffix _ _).subset hb))
        unfold add_term at hc
        rcases Store.mem_add Term.key _ _ _ hc with hc | rfl | ⟨c, hc2, _, rfl⟩
        · exact hk c hc
        · exact hf
        · exact hk c hc2
      · simp at h

theorem read_terms_nul {file : List Nat} {t : List Term} {r : List Term × List Nat} (h : read_terms file t = .ok r) (hk : NulTable t) :
    NulTable r.1 := by
  unfold read_terms at h
  split at h
  · exact termsLoop_nul _ _ _ _ h hk
  · have := Res.ok.inj h; subst this; exact hk

theorem read_nul {D E : Wacdata} {file : List Nat} (h : read_wacrpt D file = .ok E) (h1 : NulTable D.stopword_table)
    (h2 : NulTable D.non_stopword_table) : NulTable E.stopword_table ∧ NulTable E.non_stopword_table := by
  unfold read_wacrpt at h
  split at h
  · simp at h
  · obtain ⟨⟨_, _, _⟩, _, h⟩ := bind_eq_ok.1 h
    obtain ⟨⟨_, _, _⟩, _, h⟩ := bind_eq_ok.1 h
    obtain ⟨⟨_, _, _⟩, _, h⟩ := bind_eq_ok.1 h
    obtain ⟨⟨_, _, _⟩, _, h⟩ := bind_eq_ok.1 h
    obtain ⟨⟨t1, f1⟩, g1, h⟩ := bind_eq_ok.1 h
    obtain ⟨⟨t2, f2⟩, g2, h⟩ := bind_eq_ok.1 h
    have := Res.ok.inj h
    subst this
    constructor
    · split at g1
      · exact read_terms_nul g1 h1
      · have := Res.ok.inj g1; simp only [Prod.mk.injEq] at this; rw [← this.1]; exact h1
    · split at g2
      · exact read_terms_nul g2 h2
      · have := Res.ok.inj g2; simp only [Prod.mk.injEq] at this; rw [← this.1]; exact h2

theorem readAll_nul : ∀ (files : List (List Nat)) (D E : Wacdata), readAll D files = .ok E → NulTable D.stopword_table →
    NulTable D.non_stopword_table → NulTable E.stopword_table ∧ NulTable E.non_stopword_table := by
  intro files
  induction files with
  | nil => intro D E h h1 h2; have := Res.ok.inj h; subst this; exact ⟨h1, h2⟩
  | cons f fs ih =>
    intro D E h h1 h2
    rw [readAll] at h
    obtain ⟨D1, g, h⟩ := bind_eq_ok.1 h
    have := read_nul g h1 h2
    exact ih _ _ h this.1 this.2

/-! ## Termination -/

theorem numbersLoop_fuel (size : Nat) : ∀ (fuel : Nat) (file : List Nat) (w : Nat → Wac) (t : Int), file.length ≤ fuel →
    numbersLoop size fuel file w t ≠ .fuel := by
  intro fuel
  induction fuel with
  | zero =>
    intro file w t h
    have : file = [] := List.length_eq_zero_iff.1 (by omega)
    subst this
    rw [numbersLoop.eq_def]; simp [read_two_nil]
  | succ fuel ih =>
    intro file w t h
    rw [numbersLoop.eq_def]
    simp only
    split
    · simp
    · rename_i hr
      have := read_two_shorter hr
      refine bind_nofuel (strAt_fuel _ _) fun _ _ => ?_
      refine bind_nofuel ?_ fun _ _ => ih _ _ _ (by omega)
      unfold incrementAt; split <;> simp

theorem termsLoop_fuel : ∀ (fuel : Nat) (file : List Nat) (t : List Term), file.length ≤ fuel → termsLoop fuel file t ≠ .fuel := by
  intro fuel
  induction fuel with
  | zero =>
    intro file t h
    have : file = [] := List.length_eq_zero_iff.1 (by omega)
    subst this
    rw [termsLoop.eq_def]; simp [read_two_nil]
  | succ fuel ih =>
    intro file t h
    rw [termsLoop.eq_def]
    simp only
    split
    · simp
    · rename_i hr
      have := read_two_shorter hr
      split
      · exact ih _ _ (by omega)
      · simp

theorem read_numbers_fuel (size : Nat) (file : List Nat) (w : Nat → Wac) : read_numbers size file w ≠ .fuel := by
  unfold read_numbers; split
  · exact numbersLoop_fuel _ _ _ _ _ (Nat.le_refl _)
  · simp

theorem read_terms_fuel (file : List Nat) (t : List Term) : read_terms file t ≠ .fuel := by
  unfold read_terms; split
  · exact termsLoop_fuel _ _ _ (Nat.le_refl _)
  · simp

theorem read_fuel (D : Wacdata) (file : List Nat) : read_wacrpt D file ≠ .fuel := by
  unfold read_wacrpt
  split
  · simp
  · refine bind_nofuel (read_numbers_fuel _ _ _) ?_
    rintro ⟨_, _, _⟩ _
    refine bind_nofuel (read_numbers_fuel _ _ _) ?_
    rintro ⟨_, _, _⟩ _
    refine bind_nofuel (read_numbers_fuel _ _ _) ?_
    rintro ⟨_, _, _⟩ _
    refine bind_nofuel ?_ ?_
    · split
      · exact read_numbers_fuel _ _ _
      · simp
    rintro ⟨_, _, _⟩ _
    refine bind_nofuel ?_ ?_
    · split
      · exact read_terms_fuel _ _
      · simp
    rintro ⟨_, _⟩ _
    refine bind_nofuel ?_ ?_
    · split
      · exact read_terms_fuel _ _
      · simp
    rintro ⟨_, _⟩ _
    simp

end Ocr.Wac
