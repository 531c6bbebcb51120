import Verif.Proof.HeapEditop
import Verif.Props.EditopTrace

/-! # editop.c on the heap: moves -/

namespace Ocr.Heap
open Text Res Sync CList

variable {h : Heap} {s : Abs Bool} {ex : List Addr} {val : Addr → Sync} {longs : Addr → Option Int} {k : Nat} {a : Addr} {l : Bool}

/-! ## Arrays -/

theorem rd_some {α : Type} {xs : List α} {i : Nat} {x : α} : rd xs i = .ok x ↔ xs[i]? = some x := by
  unfold rd; split <;> simp_all

theorem wr_ok {α : Type} {xs ys : List α} {i : Nat} {x : α} : wr xs i x = .ok ys ↔ i < xs.length ∧ ys = xs.set i x := by
  unfold wr; split
  · rename_i hi; simp [hi, eq_comm]
  · rename_i hi; simp [hi]

theorem rdI_nat {α : Type} (xs : List α) (i : Nat) : rdI xs (i : Int) = rd xs i := by
  simp [rdI]

theorem rd_rel {α β : Type} {S : α → β → Prop} {xs : List α} {ys : List β} (f : List.Forall₂ S xs ys) {i : Nat} {y : β}
    (e : rd ys i = .ok y) : ∃ x, rd xs i = .ok x ∧ S x y := by
  rw [rd_some] at e
  obtain ⟨hi, he⟩ := List.getElem?_eq_some_iff.1 e
  have hl := f.length_eq
  refine ⟨xs[i]'(by omega), rd_some.2 (List.getElem?_eq_getElem _), ?_⟩
  rw [← he]
  exact (List.forall₂_iff_get.1 f).2 i (by omega) hi

theorem wr_rel {α β : Type} {S : α → β → Prop} {xs : List α} {ys ys' : List β} (f : List.Forall₂ S xs ys) {i : Nat} {x : α} {y : β}
    (hxy : S x y) (e : wr ys i y = .ok ys') : ∃ xs', wr xs i x = .ok xs' ∧ List.Forall₂ S xs' ys' := by
  obtain ⟨hi, rfl⟩ := wr_ok.1 e
  have hl := f.length_eq
  refine ⟨xs.set i x, wr_ok.2 ⟨by omega, rfl⟩, ?_⟩
  rw [List.forall₂_iff_get] at f ⊢
  refine ⟨by simp [hl], fun j h1 h2 => ?_⟩
  simp only [List.get_eq_getElem, List.getElem_set]
  by_cases hj : i = j
  · simp [hj, hxy]
  · simp only [hj, if_false]
    exact f.2 j (by simpa using h1) (by simpa using h2)

/-! ## find_candidates -/

/-- The pointer to an object of the list and the name of its block. -/
def Ptr (s : Abs Bool) (val : Addr → Sync) (p : Option Addr) (q : Option Nat) : Prop :=
  (p = none ∧ q = none) ∨ ∃ a c, p = some a ∧ q = some c ∧ a ∈ s false ∧ (val a).mtch = some c

def Cand (s : Abs Bool) (val : Addr → Sync) (c d : Edo.Candidate) : Prop :=
  c.for_insertion = d.for_insertion ∧ c.for_deletion = d.for_deletion ∧ Ptr s val c.sync d.sync

theorem flagInsertion_rel {C : List Edo.Block} (r : R h s [] val longs k) {ys zs : List Addr} (e : s false = ys ++ a :: zs)
    {b : Edo.Block} (ib : Is val longs a b) (f : List.Forall₂ (Is val longs) zs C) {K L L' : List Edo.Candidate}
    (g : List.Forall₂ (Cand s val) K L) (he : Edo.flagInsertion b C L = .ok L') :
    ∃ K', flagInsertion h a K = .ok K' ∧ List.Forall₂ (Cand s val) K' L' := by
  simp only [flagInsertion, r.next e, bind_ok]
  cases f with
  | nil =>
    simp only [Edo.flagInsertion, Res.ok.injEq] at he
    exact ⟨K, rfl, he ▸ g⟩
  | cons ix f =>
    rename_i x b' zs C
    have hi : In s [] a := in_list (l := false) (by simp [e])
    have hx : In s [] x := in_list (l := false) (by simp [e])
    simp only [List.head?_cons, r.number hi ib, r.number hx ix, bind_ok]
    simp only [Edo.flagInsertion] at he
    split at he
    · rename_i hm
      rw [if_pos (by rw [hm]; push_cast; rfl)]
      obtain ⟨c, ec, he⟩ := bind_eq_ok.1 he
      obtain ⟨d, ed, hd⟩ := rd_rel g ec
      rw [show ((b.mtch : Int) + 1) = ((b.mtch + 1 : Nat) : Int) by push_cast; rfl, rdI_nat, ed]
      simp only [bind_ok, Int.toNat_natCast]
      exact wr_rel (x := { d with for_insertion := true }) (y := { c with for_insertion := true }) g ⟨rfl, hd.2.1, hd.2.2⟩ he
    · rename_i hm
      rw [if_neg (by intro hh; apply hm; exact_mod_cast hh)]
      simp only [Res.ok.injEq] at he
      exact ⟨K, rfl, he ▸ g⟩

theorem flagDeletion_rel {C : List Edo.Block} (r : R h s [] val longs k) {ys zs : List Addr} (e : s false = ys ++ a :: zs)
    {b : Edo.Block} (ib : Is val longs a b) (f : List.Forall₂ (Is val longs) zs C) {K L L' : List Edo.Candidate}
    (g : List.Forall₂ (Cand s val) K L) (he : Edo.flagDeletion b C L = .ok L') :
    ∃ K', flagDeletion h a K = .ok K' ∧ List.Forall₂ (Cand s val) K' L' := by
  simp only [flagDeletion, r.next e, bind_ok]
  cases f with
  | nil =>
    simp only [Edo.flagDeletion, Res.ok.injEq] at he
    exact ⟨K, rfl, he ▸ g⟩
  | cons ix f =>
    rename_i x b' zs C
    have hi : In s [] a := in_list (l := false) (by simp [e])
    have hx : In s [] x := in_list (l := false) (by simp [e])
    have e' : s false = (ys ++ [a]) ++ x :: zs := by simp [e]
    simp only [List.head?_cons, r.next e', bind_ok]
    cases f with
    | nil =>
      simp only [Edo.flagDeletion, Res.ok.injEq] at he
      exact ⟨K, rfl, he ▸ g⟩
    | cons iy f =>
      rename_i y b'' zs C
      have hy : In s [] y := in_list (l := false) (by simp [e])
      simp only [List.head?_cons, r.number hi ib, r.number hx ix, r.number hy iy, bind_ok]
      simp only [Edo.flagDeletion] at he
      split at he
      · rename_i hm
        rw [if_pos (by rw [hm]; push_cast; rfl)]
        obtain ⟨c, ec, he⟩ := bind_eq_ok.1 he
        obtain ⟨d, ed, hd⟩ := rd_rel g ec
        rw [rdI_nat, ed]
        simp only [bind_ok, Int.toNat_natCast]
        exact wr_rel (x := { d with for_deletion := true }) (y := { c with for_deletion := true }) g ⟨hd.1, rfl, hd.2.2⟩ he
      · rename_i hm
        rw [if_neg (by intro hh; apply hm; exact_mod_cast hh)]
        simp only [Res.ok.injEq] at he
        exact ⟨K, rfl, he ▸ g⟩

theorem candidates_each (r : R h s [] val longs k) : ∀ (xs ys : List Addr) (C : List Edo.Block) (K L L' : List Edo.Candidate),
    s false = ys ++ xs → List.Forall₂ (Is val longs) xs C → List.Forall₂ (Cand s val) K L → Edo.candidateLoop C L = .ok L' →
    ∃ K', each (candidateStep h) xs K = .ok K' ∧ List.Forall₂ (Cand s val) K' L' := by
  intro xs
  induction xs with
  | nil =>
    intro ys C K L L' _ f g he
    cases f
    simp only [Edo.candidateLoop, Res.ok.injEq] at he
    exact ⟨K, rfl, he ▸ g⟩
  | cons x xs ih =>
    intro ys C K L L' e f g he
    cases f with
    | cons ix f =>
      rename_i b C
      have hx : In s [] x := in_list (l := false) (by simp [e])
      simp only [Edo.candidateLoop] at he
      obtain ⟨L1, e1, he⟩ := bind_eq_ok.1 he
      obtain ⟨L2, e2, he⟩ := bind_eq_ok.1 he
      obtain ⟨c, e3, he⟩ := bind_eq_ok.1 he
      obtain ⟨L3, e4, he⟩ := bind_eq_ok.1 he
      obtain ⟨K1, k1, g1⟩ := flagInsertion_rel r e ix f g e1
      obtain ⟨K2, k2, g2⟩ := flagDeletion_rel r e ix f g1 e2
      obtain ⟨d, k3, hd⟩ := rd_rel g2 e3
      obtain ⟨K3, k4, g3⟩ := wr_rel g2 (x := { d with sync := some x }) (y := { c with sync := some b.id })
        ⟨hd.1, hd.2.1, Or.inr ⟨x, b.id, rfl, rfl, by simp [e], ix.1⟩⟩ e4
      simp only [each, candidateStep, k1, k2, bind_ok, r.number hx ix, rdI_nat, k3, Int.toNat_natCast, k4]
      exact ih (ys ++ [x]) C K3 L3 L' (by simp [e]) f g3 he

theorem Holds.candidates {C : List Edo.Block} (H : Holds h s val longs k C) {L : List Edo.Candidate}
    (e : Edo.find_candidates C = .ok L) : ∃ K, find_candidates false h = .ok K ∧ List.Forall₂ (Cand s val) K L := by
  simp only [Edo.find_candidates] at e
  have hc : ((h.links.hdr false).count + 1).toNat = C.length + 1 := by
    rw [H.rep.count, H.length]; omega
  have g : List.Forall₂ (Cand s val) (List.replicate (C.length + 1) ⟨false, false, none⟩)
      (List.replicate (C.length + 1) ⟨false, false, none⟩) := by
    rw [List.forall₂_iff_get]
    refine ⟨rfl, fun i _ _ => ?_⟩
    simp only [List.get_eq_getElem, List.getElem_replicate]
    exact ⟨rfl, rfl, Or.inl ⟨rfl, rfl⟩⟩
  obtain ⟨K, e1, g1⟩ := candidates_each H.rep (s false) [] C _ _ L rfl H.items g e
  refine ⟨K, ?_, g1⟩
  rw [Heap.find_candidates, H.rep.walk false, hc]
  exact e1

/-! ## find_move -/

theorem Holds.mem {C : List Edo.Block} (H : Holds h s val longs k C) (ha : a ∈ s false) : ∃ b ∈ C, Is val longs a b := by
  have : ∀ {xs : List Addr} {C : List Edo.Block}, List.Forall₂ (Is val longs) xs C → a ∈ xs → ∃ b ∈ C, Is val longs a b := by
    intro xs C f
    induction f with
    | nil => intro h; simp at h
    | cons i _ ih =>
      intro h
      rcases List.mem_cons.1 h with rfl | h
      · exact ⟨_, by simp, i⟩
      · obtain ⟨b, hb, hi⟩ := ih h
        exact ⟨b, by simp [hb], hi⟩
  exact this H.items ha

theorem nodup_id {C : List Edo.Block} (hn : (C.map (·.id)).Nodup) {b c : Edo.Block} (hb : b ∈ C) (hc : c ∈ C) (e : b.id = c.id) : b = c :=
  List.inj_on_of_nodup_map hn hb hc e

theorem Holds.deref {C : List Edo.Block} (H : Holds h s val longs k C) {p : Option Addr} {q : Option Nat} (hp : Ptr s val p q)
    {b : Edo.Block} (e : Edo.deref C q = .ok b) : ∃ a, p = some a ∧ a ∈ s false ∧ Is val longs a b ∧ b ∈ C := by
  rcases hp with ⟨_, rfl⟩ | ⟨a, c, rfl, rfl, ha, hc⟩
  · simp [Edo.deref] at e
  · simp only [Edo.deref] at e
    split at e
    · rename_i b' hf
      simp only [Res.ok.injEq] at e
      subst e
      have hb := List.mem_of_find?_eq_some hf
      have hid : b'.id = c := by simpa using List.find?_some hf
      obtain ⟨b2, hb2, i2⟩ := H.mem ha
      have : b2.id = c := by have := i2.1; rw [hc] at this; simpa using this.symm
      have := nodup_id H.nodup hb2 hb (by rw [this, hid])
      subst this
      exact ⟨a, rfl, ha, i2, hb⟩
    · simp at e

theorem Holds.candidateLength {C : List Edo.Block} (H : Holds h s val longs k C) {c d : Edo.Candidate} (hcd : Cand s val c d)
    {b : Edo.Block} (e : Edo.deref C d.sync = .ok b) : candidateLength h c = .ok b.length := by
  obtain ⟨a, ha, hm, i, _⟩ := H.deref hcd.2.2 e
  obtain ⟨sub, es, hl, _⟩ := H.rep.block (in_list hm) i
  simp only [Heap.candidateLength, ha, es, bind_ok, pure_eq, hl]

theorem Holds.choice {C : List Edo.Block} (H : Holds h s val longs k C) {K L : List Edo.Candidate} (g : List.Forall₂ (Cand s val) K L) :
    ∀ (n i : Nat) (m m' : Option (Nat × Int × Nat)), Edo.moveChoice C L n i m = .ok m' → moveChoice h K n i m = .ok m' := by
  intro n
  induction n with
  | zero => intro i m m' e; simpa [Edo.moveChoice, moveChoice] using e
  | succ n ih =>
    intro i m m' e
    simp only [Edo.moveChoice] at e
    obtain ⟨d, ed, e⟩ := bind_eq_ok.1 e
    obtain ⟨c, ec, hcd⟩ := rd_rel g ed
    simp only [moveChoice, ec, bind_ok]
    rw [hcd.1, hcd.2.1]
    generalize 1 + (if d.for_insertion then 1 else 0) + (if d.for_deletion then 1 else 0) = rank at e ⊢
    cases m with
    | none =>
      simp only at e ⊢
      obtain ⟨b, eb, e⟩ := bind_eq_ok.1 e
      rw [H.candidateLength hcd eb]
      exact ih _ _ _ e
    | some m =>
      obtain ⟨mi, ml, mr⟩ := m
      simp only at e ⊢
      split at e
      · rename_i h1
        rw [if_pos h1]
        obtain ⟨b, eb, e⟩ := bind_eq_ok.1 e
        rw [H.candidateLength hcd eb]
        exact ih _ _ _ e
      · rename_i h1
        rw [if_neg h1]
        split at e
        · rename_i h2
          rw [if_pos h2]
          obtain ⟨b, eb, e⟩ := bind_eq_ok.1 e
          rw [H.candidateLength hcd eb]
          simp only [bind_ok]
          split at e
          · rename_i h3
            rw [if_pos h3]
            exact ih _ _ _ e
          · rename_i h3
            rw [if_neg h3]
            exact ih _ _ _ e
        · rename_i h2
          rw [if_neg h2]
          exact ih _ _ _ e

theorem Holds.move {C : List Edo.Block} (H : Holds h s val longs k C) {K L : List Edo.Candidate} (g : List.Forall₂ (Cand s val) K L)
    {b : Edo.Block} (e : Edo.find_move C L = .ok b) : ∃ a, find_move false h K = .ok (some a) ∧ a ∈ s false ∧ Is val longs a b ∧ b ∈ C := by
  simp only [Edo.find_move] at e
  obtain ⟨m, em, e⟩ := bind_eq_ok.1 e
  have hc : (h.links.hdr false).count.toNat = C.length := by rw [H.rep.count, H.length]; omega
  simp only [Heap.find_move, hc, H.choice g _ _ _ _ em, bind_ok]
  split at e
  · simp at e
  · obtain ⟨d, ed, e⟩ := bind_eq_ok.1 e
    obtain ⟨c, ec, hcd⟩ := rd_rel g ed
    obtain ⟨a, ha, hm, i, hb⟩ := H.deref hcd.2.2 e
    exact ⟨a, by simp [ec, ha], hm, i, hb⟩

/-! ## perform_move -/

theorem forall₂_mid {α β : Type} {S : α → β → Prop} : ∀ {P Q : List β} {b : β} {xs : List α}, List.Forall₂ S xs (P ++ b :: Q) →
    ∃ ys a zs, xs = ys ++ a :: zs ∧ List.Forall₂ S ys P ∧ S a b ∧ List.Forall₂ S zs Q
  | [], _, _, _, .cons h f => ⟨[], _, _, rfl, .nil, h, f⟩
  | _ :: P, _, _, _, .cons h f => by
    obtain ⟨ys, a, zs, rfl, h1, h2, h3⟩ := forall₂_mid (P := P) f
    exact ⟨_ :: ys, a, zs, rfl, .cons h h1, h2, h3⟩

theorem insertBefore_ok {b : Edo.Block} {p : Nat} : ∀ {C C' : List Edo.Block}, Edo.insertBefore b p C = .ok C' →
    ∃ P x Q, C = P ++ x :: Q ∧ x.id = p ∧ C' = P ++ b :: x :: Q
  | [], C', e => by simp [Edo.insertBefore] at e
  | y :: C, C', e => by
    simp only [Edo.insertBefore] at e
    split at e
    · rename_i hy
      simp only [Res.ok.injEq] at e
      exact ⟨[], y, C, rfl, hy, e.symm⟩
    · obtain ⟨C1, e1, e⟩ := bind_eq_ok.1 e
      simp only [pure_eq, Res.ok.injEq] at e
      obtain ⟨P, x, Q, rfl, hx, rfl⟩ := insertBefore_ok e1
      exact ⟨y :: P, x, Q, rfl, hx, e.symm⟩

theorem insertAfter_ok {b : Edo.Block} {p : Nat} : ∀ {C C' : List Edo.Block}, Edo.insertAfter p b C = .ok C' →
    ∃ P x Q, C = P ++ x :: Q ∧ x.id = p ∧ C' = P ++ x :: b :: Q
  | [], C', e => by simp [Edo.insertAfter] at e
  | y :: C, C', e => by
    simp only [Edo.insertAfter] at e
    split at e
    · rename_i hy
      simp only [Res.ok.injEq] at e
      exact ⟨[], y, C, rfl, hy, e.symm⟩
    · obtain ⟨C1, e1, e⟩ := bind_eq_ok.1 e
      simp only [pure_eq, Res.ok.injEq] at e
      obtain ⟨P, x, Q, rfl, hx, rfl⟩ := insertAfter_ok e1
      exact ⟨y :: P, x, Q, rfl, hx, e.symm⟩

theorem Holds.inj {C : List Edo.Block} (H : Holds h s val longs k C) {p q : Addr} (hp : p ∈ s false) (hq : q ∈ s false)
    (e : (val p).mtch = (val q).mtch) : p = q := by
  have key : (s false).map (fun a => (val a).mtch) = (C.map (·.id)).map some := by
    have : ∀ {xs : List Addr} {C : List Edo.Block}, List.Forall₂ (Is val longs) xs C →
        xs.map (fun a => (val a).mtch) = (C.map (·.id)).map some := by
      intro xs C f
      induction f with
      | nil => rfl
      | cons i _ ih => simp only [List.map_cons, i.1, ih]
    exact this H.items
  have hn : ((s false).map (fun a => (val a).mtch)).Nodup := by
    rw [key]
    exact H.nodup.map (Option.some_injective _)
  exact List.inj_on_of_nodup_map hn hp hq e

theorem Holds.perform {C C' : List Edo.Block} (H : Holds h s val longs k C) {K L : List Edo.Candidate} (g : List.Forall₂ (Cand s val) K L)
    (ha : a ∈ s false) {b : Edo.Block} (ib : Is val longs a b) (hb : b ∈ C) (h1 : 1 ≤ b.mtch) {debug : Bool} {D D' : Edo.Edodata} {out : List Nat}
    (hn : (C'.map (·.id)).Nodup) (e : Edo.perform_moveD debug D C L b = .ok (D', C', out)) :
    ∃ h' s', perform_move debug false D K (some a) h = .ok (D', h', out) ∧ Holds h' s' val longs k C' ∧ s' true = s true := by
  obtain ⟨P, Q, rfl, hne⟩ := Edo.mem_split_id H.nodup hb
  obtain ⟨ys, a', zs, es, f1, i2, f3⟩ := forall₂_mid H.items
  have haa : a' = a := H.inj (by simp [es]) ha (by rw [i2.1, ib.1])
  subst haa
  obtain ⟨g1, e1, r1, _⟩ := H.rep.remove es
  have hin : In (upd s false (ys ++ zs)) [a'] a' := Or.inr (by simp)
  have f13 : List.Forall₂ (Is val longs) (ys ++ zs) (P ++ Q) := forall₂_join f1 f3
  have hsub : ∀ x ∈ ys ++ zs, x ∈ s false := by
    intro x hx; rw [es]; simp only [List.mem_append, List.mem_cons] at hx ⊢; tauto
  simp only [Edo.perform_moveD] at e
  obtain ⟨⟨D1, C1⟩, e2, e⟩ := bind_eq_ok.1 e
  simp only at e
  simp only [Edo.perform_move, Edo.remove_eq P Q b hne, bind_ok] at e2
  obtain ⟨C2, e3, e2⟩ := bind_eq_ok.1 e2
  have key : ∃ g2 s', (if (b.mtch : Int) = 1 then do
      let c ← rd K 2
      let p ← Edo.nonNull c.sync
      insert_before g1 false a' p
    else do
      let c ← rdI K ((b.mtch : Int) - 1)
      let p ← Edo.nonNull c.sync
      insert_after g1 false p a') = .ok g2 ∧ R g2 s' [] val longs k ∧ List.Forall₂ (Is val longs) (s' false) C2 ∧ s' true = s true ∧
        a' ∈ s' false := by
    split at e3
    · rename_i hm
      rw [if_pos (by exact_mod_cast hm)]
      obtain ⟨d, ed, e3⟩ := bind_eq_ok.1 e3
      obtain ⟨p, ep, e3⟩ := bind_eq_ok.1 e3
      obtain ⟨c, ec, hcd⟩ := rd_rel g ed
      rw [ec, bind_ok]
      obtain ⟨U, x, V, eU, hx, rfl⟩ := insertBefore_ok e3
      rw [eU] at f13
      obtain ⟨us, q, vs, eq, fu, iq, fv⟩ := forall₂_mid f13
      rcases hcd.2.2 with ⟨_, hh⟩ | ⟨q', c', h5, h6, h7, h8⟩
      · rw [hh] at ep; simp [Edo.nonNull] at ep
      · rw [h6] at ep
        simp only [Edo.nonNull, Res.ok.injEq] at ep
        have hqq : q' = q := H.inj h7 (hsub q (by simp [eq])) (by rw [h8, iq.1, ep, hx])
        subst hqq
        obtain ⟨g2, e4, r2, _⟩ := R.insert_before (e1 := []) (e2 := []) (l := false) (b := q') (ys := us) (zs := vs) r1 (by rw [upd_same, eq])
        rw [upd_upd] at r2
        refine ⟨g2, upd s false (us ++ a' :: q' :: vs), by rw [h5]; exact e4, r2, ?_, by simp [upd], by rw [upd_same]; simp⟩
        rw [upd_same]
        exact forall₂_join fu (.cons i2 (.cons iq fv))
    · rename_i hm
      rw [if_neg (by intro hh; apply hm; exact_mod_cast hh)]
      obtain ⟨d, ed, e3⟩ := bind_eq_ok.1 e3
      obtain ⟨p, ep, e3⟩ := bind_eq_ok.1 e3
      obtain ⟨c, ec, hcd⟩ := rd_rel g ed
      rw [show (b.mtch : Int) - 1 = ((b.mtch - 1 : Nat) : Int) by omega, rdI_nat, ec, bind_ok]
      obtain ⟨U, x, V, eU, hx, rfl⟩ := insertAfter_ok e3
      rw [eU] at f13
      obtain ⟨us, q, vs, eq, fu, iq, fv⟩ := forall₂_mid f13
      rcases hcd.2.2 with ⟨_, hh⟩ | ⟨q', c', h5, h6, h7, h8⟩
      · rw [hh] at ep; simp [Edo.nonNull] at ep
      · rw [h6] at ep
        simp only [Edo.nonNull, Res.ok.injEq] at ep
        have hqq : q' = q := H.inj h7 (hsub q (by simp [eq])) (by rw [h8, iq.1, ep, hx])
        subst hqq
        obtain ⟨g2, e4, r2, _⟩ := R.insert_after (e1 := []) (e2 := []) (l := false) (b := q') (ys := us) (zs := vs) r1 (by rw [upd_same, eq])
        rw [upd_upd] at r2
        refine ⟨g2, upd s false (us ++ q' :: a' :: vs), by rw [h5]; exact e4, r2, ?_, by simp [upd], by rw [upd_same]; simp⟩
        rw [upd_same]
        exact forall₂_join fu (.cons iq (.cons i2 fv))
  obtain ⟨g2, s', e4, r2, f4, ht, hmem⟩ := key
  have hin2 : In s' [] a' := in_list hmem
  obtain ⟨sub, e5, hl, _⟩ := r2.block hin2 ib
  simp only [Heap.perform_move, show Edo.nonNull (some a') = .ok a' from rfl, bind_ok, e1, r1.number hin ib]
  rw [e4]
  simp only [bind_ok, e5, hl]
  split at e2
  · simp at e2
  · rename_i hpos
    rw [if_neg hpos]
    simp only [pure_eq, Res.ok.injEq, Prod.mk.injEq] at e2
    obtain ⟨rfl, rfl⟩ := e2
    have H2 : ∀ {C' : List Edo.Block}, C' = C2 → (C'.map (·.id)).Nodup → Holds g2 s' val longs k C' := by
      rintro C' rfl hn; exact ⟨r2, f4, hn⟩
    cases debug with
    | false =>
      simp only [Bool.false_eq_true, if_false, pure_eq, Res.ok.injEq, Prod.mk.injEq] at e ⊢
      obtain ⟨rfl, rfl, rfl⟩ := e
      exact ⟨g2, s', ⟨rfl, rfl, rfl⟩, H2 rfl hn, ht⟩
    | true =>
      simp only [if_true] at e ⊢
      split at e
      · rename_i hlab
        simp only [pure_eq, Res.ok.injEq, Prod.mk.injEq] at e
        obtain ⟨rfl, rfl, rfl⟩ := e
        refine ⟨g2, s', ?_, H2 rfl hn, ht⟩
        rw [r2.number hin2 ib, bind_ok, if_pos hlab, (H2 rfl hn).display]
        rfl
      · simp at e

/-! ## count_moves -/

theorem Holds.loop (debug : Bool) : ∀ (fl : Nat) (D D' : Edo.Edodata) (h : Heap) (s : Abs Bool) (val : Addr → Sync)
    (longs : Addr → Option Int) (C : List Edo.Block) (B : List (List (Nat × Int))) (out : List Nat), Holds h s val longs k C →
    Edo.Inv C B → Edo.countLoopD debug fl D C = .ok (D', out) →
    ∃ h' s' val' longs' C', countLoop debug false fl D h = .ok (D', h', out) ∧ Holds h' s' val' longs' k C' ∧ C'.length ≤ 1 ∧
      s' true = s true ∧ (∀ x ∈ s true, val' x = val x) := by
  intro fl
  induction fl with
  | zero =>
    intro D D' h s val longs C B out H I e
    rw [Edo.countLoopD.eq_def] at e
    simp only at e
    split at e
    · simp at e
    · rename_i hC
      simp only [Res.ok.injEq, Prod.mk.injEq] at e
      obtain ⟨rfl, rfl⟩ := e
      refine ⟨h, s, val, longs, C, ?_, H, by omega, rfl, fun _ _ => rfl⟩
      rw [countLoop.eq_def]
      simp only
      rw [if_neg (by rw [H.rep.count, H.length]; omega)]
  | succ fl ih =>
    intro D D' h s val longs C B out H I e
    rw [Edo.countLoopD.eq_def] at e
    simp only at e
    split at e
    · rename_i hC
      obtain ⟨L, e1, e⟩ := bind_eq_ok.1 e
      obtain ⟨b, e2, e⟩ := bind_eq_ok.1 e
      obtain ⟨⟨D1, C1, o1⟩, e3, e⟩ := bind_eq_ok.1 e
      obtain ⟨⟨C2, o2⟩, e4, e⟩ := bind_eq_ok.1 e
      obtain ⟨⟨D3, o3⟩, e5, e⟩ := bind_eq_ok.1 e
      simp only [pure_eq, Res.ok.injEq, Prod.mk.injEq] at e
      obtain ⟨rfl, rfl⟩ := e
      obtain ⟨L', q1, hpts⟩ := Edo.find_candidates_spec I
      rw [e1] at q1; cases q1
      obtain ⟨K, k1, g⟩ := H.candidates e1
      obtain ⟨a, k2, ha, ib, hb⟩ := H.move g e2
      obtain ⟨D1', C1', q3, I1, _⟩ := Edo.perform_spec (D := D) I hpts hb hC
      have hC1 : C1' = C1 := by
        have e3' := e3
        simp only [Edo.perform_moveD, q3, bind_ok] at e3'
        split at e3'
        · split at e3'
          · simp only [pure_eq, Res.ok.injEq, Prod.mk.injEq] at e3'; exact e3'.2.1
          · simp at e3'
        · simp only [pure_eq, Res.ok.injEq, Prod.mk.injEq] at e3'; exact e3'.2.1
      subst hC1
      obtain ⟨h1, s1, k3, H1, t1⟩ := H.perform g ha ib hb (I.range hb).1 I1.ids e3
      obtain ⟨C2', B2, q4, I2, _⟩ := Edo.combine_spec C1' B I1
      have hC2 : C2' = C2 := by
        have e4' := e4
        simp only [Edo.combine_adjacentD, q4, bind_ok, pure_eq, Res.ok.injEq, Prod.mk.injEq] at e4'
        exact e4'.1
      subst hC2
      obtain ⟨h2, s2, val2, longs2, k4, H2, t2, v2⟩ := H1.combine debug e4
      obtain ⟨h3, s3, val3, longs3, C3, k5, H3, l3, t3, v3⟩ := ih D1 D3 h2 s2 val2 longs2 C2' B2 o3 H2 I2 e5
      refine ⟨h3, s3, val3, longs3, C3, ?_, H3, l3, by rw [t3, t2, t1], ?_⟩
      · rw [countLoop.eq_def]
        simp only
        rw [if_pos (by rw [H.rep.count, H.length]; omega), k1, bind_ok, k2, bind_ok, k3, bind_ok]
        simp only
        rw [k4, bind_ok]
        simp only
        rw [k5, bind_ok]
        rfl
      · intro x hx
        rw [← t1] at hx
        rw [v3 x (by rw [t2]; exact hx), v2 x hx]
    · rename_i hC
      simp only [Res.ok.injEq, Prod.mk.injEq] at e
      obtain ⟨rfl, rfl⟩ := e
      refine ⟨h, s, val, longs, C, ?_, H, by omega, rfl, fun _ _ => rfl⟩
      rw [countLoop.eq_def]
      simp only
      rw [if_neg (by rw [H.rep.count, H.length]; omega)]

theorem Holds.moves {C : List Edo.Block} {B : List (List (Nat × Int))} (H : Holds h s val longs k C) (I : Edo.Inv C B) (debug : Bool)
    {D D' : Edo.Edodata} {out : List Nat} (e : Edo.count_movesD debug D C = .ok (D', out)) :
    ∃ h' s' val' longs' C', count_moves debug false D h = .ok (D', h', out) ∧ Holds h' s' val' longs' k C' ∧ C'.length ≤ 1 ∧
      s' true = s true ∧ (∀ x ∈ s true, val' x = val x) := by
  simp only [Edo.count_movesD] at e
  obtain ⟨⟨C1, o2⟩, e1, e⟩ := bind_eq_ok.1 e
  obtain ⟨⟨D3, o3⟩, e2, e⟩ := bind_eq_ok.1 e
  simp only [pure_eq, Res.ok.injEq, Prod.mk.injEq] at e
  obtain ⟨rfl, rfl⟩ := e
  obtain ⟨C1', B1, q1, I1, _⟩ := Edo.combine_spec C B I
  have hC1 : C1' = C1 := by
    have e1' := e1
    simp only [Edo.combine_adjacentD, q1, bind_ok, pure_eq, Res.ok.injEq, Prod.mk.injEq] at e1'
    exact e1'.1
  subst hC1
  obtain ⟨h1, s1, val1, longs1, k1, H1, t1, v1⟩ := H.combine debug e1
  obtain ⟨h3, s3, val3, longs3, C3, k3, H3, l3, t3, v3⟩ := Holds.loop debug _ _ _ _ _ _ _ _ _ _ H1 I1 e2
  refine ⟨h3, s3, val3, longs3, C3, ?_, H3, l3, by rw [t3, t1], ?_⟩
  · have hd : (if debug = true then Heap.display false (ascii "original") h else pure []) =
        .ok (if debug = true then Edo.display C (ascii "original") else []) := by
      cases debug with
      | false => rfl
      | true => simp only [if_true]; exact H.display _
    have hc : (h1.links.hdr false).count.toNat = C1'.length := by rw [H1.rep.count, H1.length]; omega
    rw [count_moves, hd, bind_ok, k1, bind_ok]
    simp only
    rw [hc, k3, bind_ok]
    rfl
  · intro x hx
    rw [v3 x (by rw [t1]; exact hx), v1 x hx]

/-! ## editop -/

theorem number_go_nonneg : ∀ (l : List Sync) (n : Int) (cells : Nat → Int), 0 ≤ n → (∀ c, 0 ≤ cells c) →
    ∀ c, 0 ≤ number_matches.go l n cells c := by
  intro l
  induction l with
  | nil => intro n cells _ hc c; exact hc c
  | cons x l ih =>
    intro n cells hn hc c
    rw [number_matches.go]
    cases x.mtch with
    | some q =>
      refine ih _ _ (by omega) (fun r => ?_) c
      split
      · omega
      · exact hc r
    | none => exact ih _ _ hn hc c

theorem cells_nonneg {c d : List Nat} {y : Synclist2} (e : Sync.transpose_sync c d = .ok y) (q : Nat) : 0 ≤ y.cells q := by
  simp only [Sync.transpose_sync] at e
  obtain ⟨⟨l1, l2⟩, _, e⟩ := bind_eq_ok.1 e
  simp only [pure_eq, Res.ok.injEq] at e
  subst e
  exact number_go_nonneg _ _ _ (Int.le_refl 0) (fun _ => Int.le_refl 0) q

/-- editop.c:239-242 on the heap: the same data and output as the model on sequences.  At the end list 2 has at most one item. -/
theorem editop_heap (hdr : Bool → Hdr) (debug : Bool) (c d : List Nat) {D : Edo.Edodata} {out : List Nat}
    (e : Edo.editopD debug c d = .ok (D, out)) :
    ∃ h' s val longs k y, editop debug c d (Heap.start hdr) = .ok (D, h', out) ∧ R h' s [] val longs k ∧
      Sync.transpose_sync c d = .ok y ∧ (s true).map val = y.items1 ∧ (s false).length ≤ 1 ∧
      ∀ a ∈ s false, ∃ b, Is val longs a b := by
  obtain ⟨h1, s1, val1, k, y, e1, r1, q1, v1, v2, low⟩ := transpose_heap hdr c d
  obtain ⟨y', q, _, al, _⟩ := Sync.transpose_spec c d
  rw [q1] at q; cases q
  simp only [Edo.editopD, q1, bind_ok] at e
  obtain ⟨ti, e2, e⟩ := bind_eq_ok.1 e
  obtain ⟨⟨C, td⟩, e3, e⟩ := bind_eq_ok.1 e
  simp only at e
  rw [← v1] at e2
  have k2 := R.count_insertions (l := true) r1 e2
  have hw : ∀ a ∈ s1 false, (val1 a).substr.length = 1 ∧ ∀ c, (val1 a).mtch = some c → c < k := by
    intro a ha
    refine ⟨?_, low false a ha⟩
    have : val1 a ∈ y.items2 := by rw [← v2]; exact List.mem_map_of_mem ha
    simpa using al.width _ this
  have hcd := Edo.count_deletions_spec al y.cells y.items2 0 (fun _ h => h)
  rw [hcd] at e3
  simp only [Res.ok.injEq, Prod.mk.injEq] at e3
  obtain ⟨rfl, rfl⟩ := e3
  obtain ⟨n1, n2, n3⟩ := Edo.blocks_start q1
  obtain ⟨B, I⟩ := Edo.inv_start _ n1 n2 n3
  obtain ⟨h2, xs', k3, r2, f2⟩ := deletions_spec y.cells (cells_nonneg q1) h1.nextSync (s1 false) [] h1 s1 0 _ _ r1 rfl
    (r1.length_le false) hw (by rw [v2]; exact hcd)
  have H2 : Holds h2 (upd s1 false xs') val1 (Cells k y.cells) k (Edo.blocks y.cells y.items2) := ⟨r2, by rw [upd_same]; exact f2, n1⟩
  obtain ⟨h3, s3, val3, longs3, C3, k4, H3, l3, t3, v3⟩ := H2.moves I debug e
  have ht : s3 true = s1 true := by rw [t3]; simp [upd]
  refine ⟨h3, s3, val3, longs3, k, y, ?_, H3.rep, q1, ?_, by rw [H3.length]; exact l3, ?_⟩
  · have hf : (h1.links.hdr false).first = (s1 false).head? := r1.first
    simp only [Heap.editop, e1, bind_ok, k2, count_deletions, hf, k3]
    exact k4
  · rw [ht, ← v1]
    refine List.map_congr_left (fun x hx => v3 x (by simpa [upd] using hx))
  · intro a ha
    obtain ⟨b, _, hb⟩ := H3.mem ha
    exact ⟨b, hb⟩

end Ocr.Heap
