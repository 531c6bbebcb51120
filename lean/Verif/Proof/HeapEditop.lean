import Verif.Proof.HeapTranspose

/-! # editop.c on the heap: counting, discarding, combining -/

namespace Ocr.Heap
open Text Res Sync CList

variable {h : Heap} {s : Abs Bool} {ex : List Addr} {val : Addr → Sync} {longs : Addr → Option Int} {k : Nat} {a : Addr} {l : Bool}

/-- The object at address `a` is the block `b`. -/
def Is (val : Addr → Sync) (longs : Addr → Option Int) (a : Addr) (b : Edo.Block) : Prop :=
  (val a).mtch = some b.id ∧ (∃ sub, (val a).substr = [sub] ∧ sub.length = b.length) ∧ longs b.id = some (b.mtch : Int)

theorem Is.congr {val' : Addr → Sync} {longs' : Addr → Option Int} {b : Edo.Block} (i : Is val longs a b) (hv : val' a = val a)
    (hl : longs' b.id = longs b.id) : Is val' longs' a b := by
  unfold Is; rw [hv, hl]; exact i

theorem are_congr {val' : Addr → Sync} {longs' : Addr → Option Int} {xs : List Addr} {C : List Edo.Block}
    (i : List.Forall₂ (Is val longs) xs C) (hv : ∀ a ∈ xs, val' a = val a) (hl : ∀ b ∈ C, longs' b.id = longs b.id) :
    List.Forall₂ (Is val' longs') xs C := by
  induction i with
  | nil => exact .nil
  | cons h1 _ ih =>
    exact .cons (h1.congr (hv _ (by simp)) (hl _ (by simp))) (ih (fun a ha => hv a (by simp [ha])) (fun b hb => hl b (by simp [hb])))

theorem R.number (r : R h s ex val longs k) (ha : In s ex a) {b : Edo.Block} (i : Is val longs a b) :
    number h a = .ok (b.mtch : Int) := by
  simp [Heap.number, r.obj ha, i.1, getLong, r.long, i.2.2]

theorem R.block (r : R h s ex val longs k) (ha : In s ex a) {b : Edo.Block} (i : Is val longs a b) :
    ∃ sub, Heap.only h a = .ok sub ∧ sub.length = b.length ∧ (val a).substr = [sub] := by
  obtain ⟨sub, h1, h2⟩ := i.2.1
  exact ⟨sub, r.only ha h1, h2, h1⟩

/-! ## discard_sync -/

theorem R.discard_none {ys zs : List Addr} (r : R h s [] val longs k) (e : s l = ys ++ a :: zs) (hm : (val a).mtch = none) :
    ∃ h', discard_sync l a h = .ok h' ∧ R h' (upd s l (ys ++ zs)) [] val longs k := by
  obtain ⟨h1, e1, r1, _⟩ := r.remove e
  obtain ⟨h2, e2, r2, _⟩ := r1.destroy (e1 := []) (e2 := [])
  have ha : In (upd s l (ys ++ zs)) [a] a := Or.inr (by simp)
  refine ⟨h2, ?_, r2⟩
  rw [← e2]
  simp only [discard_sync, e1, bind_ok, r1.obj ha, hm, destroy_sync, whenSome]

theorem R.discard_some {ys zs : List Addr} (r : R h s [] val longs k) (e : s l = ys ++ a :: zs) {c : Nat} {v : Int}
    (hm : (val a).mtch = some c) (hc : longs c = some v) :
    ∃ h', discard_sync l a h = .ok h' ∧ R h' (upd s l (ys ++ zs)) [] val (fun x => if x = c then none else longs x) k := by
  obtain ⟨h1, e1, r1, _⟩ := r.remove e
  have ha : In (upd s l (ys ++ zs)) [a] a := Or.inr (by simp)
  have rl : R { h1 with long := fun x => if x = c then none else h1.long x } (upd s l (ys ++ zs)) [a] val
      (fun x => if x = c then none else longs x) k :=
    ⟨r1.inv, r1.nodup, r1.apart, r1.sync, r1.subs, r1.below, r1.dead, r1.same, by rw [r1.long], r1.cells⟩
  obtain ⟨h2, e2, r2, _⟩ := rl.destroy (e1 := []) (e2 := [])
  refine ⟨h2, ?_, r2⟩
  rw [← e2]
  simp [discard_sync, e1, Heap.obj, hm, destroy_sync, whenSome, freeSubs, freeLong, freeSync, r1.subs a ha, r1.sync a ha,
    r1.long, hc]

/-! ## count_insertions and count_deletions -/

theorem insertions_each (r : R h s ex val longs k) (text : List Nat) : ∀ (xs : List Addr) (t t' : Int), (∀ a ∈ xs, In s ex a) →
    Edo.count_insertions text (xs.map val) t = .ok t' → each (insertionStep text h) xs t = .ok t' := by
  intro xs
  induction xs with
  | nil => intro t t' _ e; simpa [Edo.count_insertions, each] using e
  | cons x xs ih =>
    intro t t' hx e
    simp only [List.map_cons, Edo.count_insertions] at e
    obtain ⟨sub, es, e⟩ := bind_eq_ok.1 e
    obtain ⟨t1, e1, e⟩ := bind_eq_ok.1 e
    have hi := hx x (by simp)
    have h1 : insertionStep text h x t = .ok t1 := by
      simp only [insertionStep, r.obj hi, bind_ok]
      split at e1
      · rename_i hm
        rw [if_pos hm, r.only_of hi es]
        exact e1
      · rename_i hm
        rw [if_neg hm]
        exact e1
    simp only [each, h1, bind_ok]
    exact ih t1 t' (fun a ha => hx a (by simp [ha])) e

theorem R.count_insertions (r : R h s ex val longs k) {text : List Nat} {t t' : Int}
    (e : Edo.count_insertions text ((s l).map val) t = .ok t') : count_insertions l text h t = .ok t' := by
  rw [Heap.count_insertions, r.walk l]
  exact insertions_each r text (s l) t t' (fun a ha => in_list ha) e

theorem deletions_spec (cells : Nat → Int) (hcells : ∀ c, 0 ≤ cells c) : ∀ (fl : Nat) (xs ys : List Addr) (h : Heap) (s : Abs Bool)
    (t t' : Int) (C : List Edo.Block), R h s [] val (Cells k cells) k → s false = ys ++ xs → xs.length ≤ fl →
    (∀ a ∈ xs, (val a).substr.length = 1 ∧ ∀ c, (val a).mtch = some c → c < k) →
    Edo.count_deletions cells (xs.map val) t = .ok (C, t') →
    ∃ h' xs', deletionLoop false fl xs.head? h t = .ok (h', t') ∧ R h' (upd s false (ys ++ xs')) [] val (Cells k cells) k ∧
      List.Forall₂ (Is val (Cells k cells)) xs' C := by
  intro fl
  induction fl with
  | zero =>
    intro xs ys h s t t' C r e hl _ hc
    have : xs = [] := by simpa using hl
    subst this
    simp only [List.map_nil, Edo.count_deletions, Res.ok.injEq, Prod.mk.injEq] at hc
    obtain ⟨rfl, rfl⟩ := hc
    exact ⟨h, [], rfl, by rw [upd_self e]; exact r, .nil⟩
  | succ fl ih =>
    intro xs ys h s t t' C r e hl hx hc
    cases xs with
    | nil =>
      simp only [List.map_nil, Edo.count_deletions, Res.ok.injEq, Prod.mk.injEq] at hc
      obtain ⟨rfl, rfl⟩ := hc
      exact ⟨h, [], rfl, by rw [upd_self e]; exact r, .nil⟩
    | cons x xs =>
      have hi : In s [] x := in_list (l := false) (by simp [e])
      simp only [List.map_cons, Edo.count_deletions] at hc
      obtain ⟨sub, es, hc⟩ := bind_eq_ok.1 hc
      simp only [List.head?_cons, deletionLoop, r.next e, r.obj hi, bind_ok]
      cases hm : (val x).mtch with
      | none =>
        rw [hm] at hc
        simp only at hc
        obtain ⟨h1, e1, r1⟩ := r.discard_none e hm
        simp only [if_true, r.only_of hi es, bind_ok, e1]
        obtain ⟨h2, xs', e2, r2, f2⟩ := ih xs ys h1 _ (t + sub.length) t' C r1 (upd_same _ _ _) (by simpa using hl)
          (fun a ha => hx a (by simp [ha])) hc
        rw [upd_upd] at r2
        exact ⟨h2, xs', e2, r2, f2⟩
      | some c =>
        rw [hm] at hc
        simp only at hc
        obtain ⟨⟨C', t1⟩, hc1, hc⟩ := bind_eq_ok.1 hc
        simp only [pure_eq, Res.ok.injEq, Prod.mk.injEq] at hc
        obtain ⟨rfl, rfl⟩ := hc
        simp only [reduceCtorEq, if_false]
        obtain ⟨h2, xs', e2, r2, f2⟩ := ih xs (ys ++ [x]) h s t t1 C' r (by simpa using e) (by simpa using hl)
          (fun a ha => hx a (by simp [ha])) hc1
        refine ⟨h2, x :: xs', e2, by simpa using r2, .cons ⟨hm, ⟨sub, ?_, rfl⟩, ?_⟩ f2⟩
        · obtain ⟨y, hy⟩ := List.length_eq_one_iff.1 (hx x (by simp)).1
          rw [hy]
          simp [Sync.Sync.only, hy, rd] at es
          rw [es]
        · have := (hx x (by simp)).2 c hm
          have h0 := hcells c
          simp only [Cells, this, if_true, Option.some.injEq]
          omega

/-! ## decrement_match -/

theorem decrementStep_long (limit : Int) (a : Addr) (t t' : Heap) (e : decrementStep limit a t = .ok t') :
    ∃ f, (id t' : Heap) = { id t with long := f } := by
  simp only [decrementStep] at e
  obtain ⟨o, _, e⟩ := bind_eq_ok.1 e
  obtain ⟨m, _, e⟩ := bind_eq_ok.1 e
  split at e
  · simp only [setLong] at e
    split at e
    · simp at e
    · split at e
      · simp at e
      · simp only [Res.ok.injEq] at e; exact ⟨_, e.symm⟩
  · simp only [pure_eq, Res.ok.injEq] at e; exact ⟨t.long, by rw [← e]; rfl⟩

theorem decrement_each (limit : Nat) : ∀ (xs : List Addr) (C : List Edo.Block) (h : Heap) (longs : Addr → Option Int),
    R h s ex val longs k → (∀ a ∈ xs, In s ex a) → List.Forall₂ (Is val longs) xs C → (C.map (·.id)).Nodup →
    ∃ h' longs', each (decrementStep limit) xs h = .ok h' ∧ R h' s ex val longs' k ∧
      List.Forall₂ (Is val longs') xs (Edo.decrement_match limit C) ∧ ∀ c, c ∉ C.map (·.id) → longs' c = longs c := by
  intro xs
  induction xs with
  | nil =>
    intro C h longs r _ f _
    cases f
    exact ⟨h, longs, rfl, r, .nil, fun _ _ => rfl⟩
  | cons x xs ih =>
    intro C h longs r hx f hn
    cases f with
    | cons i f =>
      rename_i b C
      have hi := hx x (by simp)
      simp only [List.map_cons, List.nodup_cons] at hn
      have hget : getLong h (some b.id) = .ok (b.mtch : Int) := by simp [getLong, r.long, i.2.2]
      by_cases hgt : b.mtch > limit
      · have hset : setLong h (some b.id) ((b.mtch : Int) - 1) =
            .ok { h with long := fun x => if x = b.id then some ((b.mtch : Int) - 1) else h.long x } := by
          simp [setLong, r.long, i.2.2]
        have r1 : R { h with long := fun x => if x = b.id then some ((b.mtch : Int) - 1) else h.long x } s ex val
            (fun x => if x = b.id then some ((b.mtch : Int) - 1) else longs x) k :=
          ⟨r.inv, r.nodup, r.apart, r.sync, r.subs, r.below, r.dead, r.same, by rw [r.long], r.cells⟩
        obtain ⟨h2, l2, e2, r2, f2, k2⟩ := ih C _ _ r1 (fun a ha => hx a (by simp [ha]))
          (are_congr f (fun _ _ => rfl) (fun b' hb' => by
            have : b'.id ≠ b.id := fun hh => hn.1 (hh ▸ List.mem_map_of_mem hb')
            simp [this])) hn.2
        refine ⟨h2, l2, ?_, r2, ?_, ?_⟩
        · have : (b.mtch : Int) > (limit : Int) := by exact_mod_cast hgt
          simp only [each, decrementStep, r.obj hi, i.1, hget, bind_ok, if_pos this, hset]
          exact e2
        · simp only [Edo.decrement_match, List.map_cons, if_pos hgt]
          refine .cons ⟨i.1, i.2.1, ?_⟩ f2
          have := k2 b.id hn.1
          simp only at this ⊢
          rw [this]
          simp only [if_true, Option.some.injEq]
          omega
        · intro c hc
          simp only [List.map_cons, List.mem_cons, not_or] at hc
          rw [k2 c hc.2]
          simp [hc.1]
      · obtain ⟨h2, l2, e2, r2, f2, k2⟩ := ih C h longs r (fun a ha => hx a (by simp [ha])) f hn.2
        refine ⟨h2, l2, ?_, r2, ?_, ?_⟩
        · have : ¬ (b.mtch : Int) > (limit : Int) := by intro hh; exact hgt (by exact_mod_cast hh)
          simp only [each, decrementStep, r.obj hi, i.1, hget, bind_ok, if_neg this, pure_eq]
          exact e2
        · simp only [Edo.decrement_match, List.map_cons, if_neg hgt]
          refine .cons (i.congr rfl (k2 b.id hn.1)) f2
        · intro c hc
          simp only [List.map_cons, List.mem_cons, not_or] at hc
          exact k2 c hc.2

theorem R.decrement (r : R h s ex val longs k) {C : List Edo.Block} (f : List.Forall₂ (Is val longs) (s l) C)
    (hn : (C.map (·.id)).Nodup) (limit : Nat) :
    ∃ h' longs', decrement_match l limit h = .ok h' ∧ R h' s ex val longs' k ∧
      List.Forall₂ (Is val longs') (s l) (Edo.decrement_match limit C) := by
  obtain ⟨h', longs', e, r', f', _⟩ := decrement_each limit (s l) C h longs r (fun a ha => in_list ha) f hn
  refine ⟨h', longs', ?_, r', f'⟩
  rw [Heap.decrement_match, r.walk_long l (heap := id) h rfl (decrementStep_long limit)]
  exact e

/-! ## combine_adjacent -/

/-- The list `false` is the list of blocks. -/
structure Holds (h : Heap) (s : Abs Bool) (val : Addr → Sync) (longs : Addr → Option Int) (k : Nat) (C : List Edo.Block) : Prop where
  rep   : R h s [] val longs k
  items : List.Forall₂ (Is val longs) (s false) C
  nodup : (C.map (·.id)).Nodup

theorem decrement_ids (m : Nat) (C : List Edo.Block) : (Edo.decrement_match m C).map (·.id) = C.map (·.id) := by
  simp only [Edo.decrement_match, List.map_map]
  refine List.map_congr_left (fun b _ => ?_)
  simp only [Function.comp]
  split <;> rfl

theorem forall₂_split {α β : Type} {S : α → β → Prop} : ∀ {ys xs : List α} {P Q : List β}, List.Forall₂ S (ys ++ xs) (P ++ Q) →
    ys.length = P.length → List.Forall₂ S ys P ∧ List.Forall₂ S xs Q
  | [], _, [], _, f, _ => ⟨.nil, f⟩
  | [], _, _ :: _, _, _, e => by simp at e
  | _ :: _, _, [], _, _, e => by simp at e
  | _ :: _, _, _ :: _, _, .cons h f, e => by
    obtain ⟨h1, h2⟩ := forall₂_split f (by simpa using e)
    exact ⟨.cons h h1, h2⟩

theorem forall₂_join {α β : Type} {S : α → β → Prop} {ys xs : List α} {P Q : List β} (f : List.Forall₂ S ys P) (g : List.Forall₂ S xs Q) :
    List.Forall₂ S (ys ++ xs) (P ++ Q) := by
  induction f with
  | nil => exact g
  | cons h _ ih => exact .cons h ih

theorem combine_spec : ∀ (fl g : Nat) (h : Heap) (s : Abs Bool) (val : Addr → Sync) (longs : Addr → Option Int) (ys zs : List Addr)
    (a : Addr) (P Q : List Edo.Block) (b : Edo.Block) (C : List Edo.Block), Holds h s val longs k (P ++ b :: Q) →
    s false = ys ++ a :: zs → ys.length = P.length → zs.length < fl → Edo.combineLoop g P b Q = .ok C →
    ∃ h' s' val' longs', combineLoop false fl (some a) h = .ok h' ∧ Holds h' s' val' longs' k C ∧ s' true = s true ∧
      (∀ x ∈ s true, val' x = val x) := by
  intro fl
  induction fl with
  | zero => intro g h s val longs ys zs a P Q b C _ _ _ hz; simp at hz
  | succ fl ih =>
    intro g h s val longs ys zs a P Q b C H e hlen hz hc
    have r := H.rep
    have hf := H.items
    rw [e] at hf
    have hi : In s [] a := in_list (l := false) (by simp [e])
    obtain ⟨fP, fb⟩ := forall₂_split hf hlen
    have hnd := (r.inv.rep false).nodup
    rw [e] at hnd
    have hna := (List.nodup_cons.1 (List.nodup_middle.1 hnd)).1
    obtain ⟨ib, fQ⟩ := List.forall₂_cons.1 fb
    cases fQ with
    | nil =>
      unfold Edo.combineLoop at hc
      simp only [Res.ok.injEq] at hc
      subst hc
      refine ⟨h, s, val, longs, ?_, H, rfl, fun _ _ => rfl⟩
      simp only [Heap.combineLoop, r.next e, List.head?_nil, bind_ok]
    | cons ix fQ =>
      rename_i x b' zs Q
      have hx : In s [] x := in_list (l := false) (by simp [e])
      unfold Edo.combineLoop at hc
      cases g with
      | zero => simp at hc
      | succ g =>
        simp only at hc
        simp only [Heap.combineLoop, r.next e, List.head?_cons, bind_ok, r.number hi ib, r.number hx ix]
        split at hc
        · rename_i hm
          have hm' : (b'.mtch : Int) = (b.mtch : Int) + 1 := by rw [hm]; push_cast; rfl
          obtain ⟨sub, es, hsl, hsub⟩ := r.block hi ib
          obtain ⟨sub', es', hsl', hsub'⟩ := r.block hx ix
          rw [if_pos hm', es, es']
          simp only [bind_ok]
          obtain ⟨h1, e1, r1, _⟩ := r.setSubstrs hi [{ sub with length := sub.length + sub'.length }] (by simp [hsub])
          generalize hv : put val a ⟨[{ sub with length := sub.length + sub'.length }], (val a).mtch⟩ = v1 at r1
          have v1a : v1 a = ⟨[{ sub with length := sub.length + sub'.length }], (val a).mtch⟩ := by rw [← hv, put_same]
          have v1o : ∀ y, y ≠ a → v1 y = val y := fun y hy => by rw [← hv, put_ne _ hy]
          have hxa : x ≠ a := by rintro rfl; exact hna (by simp)
          have hid := H.nodup
          simp only [List.map_append, List.map_cons] at hid
          have hbb : b.id ≠ b'.id := by
            intro hh
            have := (List.nodup_append.1 hid).2.1
            simp only [List.nodup_cons, List.mem_cons, not_or] at this
            exact this.1.1 hh
          obtain ⟨h2, e2, r2⟩ := r1.discard_some (l := false) (ys := ys ++ [a]) (a := x) (zs := zs) (by simp [e])
            (by rw [v1o x hxa]; exact ix.1) ix.2.2
          have sF : upd s false (ys ++ [a] ++ zs) false = ys ++ a :: zs := by rw [upd_same]; simp
          have sT : upd s false (ys ++ [a] ++ zs) true = s true := upd_ne _ _ (by simp)
          have hidP : ∀ c ∈ P, c.id ≠ b'.id := by
            intro c hcP hh
            exact (List.nodup_append.1 hid).2.2 c.id (List.mem_map_of_mem hcP) b'.id (by simp) hh
          have hidQ : ∀ c ∈ Q, c.id ≠ b'.id := by
            intro c hcQ hh
            have := (List.nodup_append.1 hid).2.1
            simp only [List.nodup_cons, List.mem_cons, not_or] at this
            exact this.2.1 (hh ▸ List.mem_map_of_mem hcQ)
          have f2 : List.Forall₂ (Is v1 (fun q => if q = b'.id then none else longs q)) (upd s false (ys ++ [a] ++ zs) false)
              (P ++ { b with length := b.length + b'.length } :: Q) := by
            rw [sF]
            refine forall₂_join (are_congr fP (fun y hy => v1o y (by rintro rfl; exact hna (by simp [hy])))
              (fun c hcP => by simp [hidP c hcP])) (.cons ⟨?_, ⟨_, by rw [v1a], ?_⟩, ?_⟩
                (are_congr fQ (fun y hy => v1o y (by rintro rfl; exact hna (by simp [hy]))) (fun c hcQ => by simp [hidQ c hcQ])))
            · rw [v1a]; exact ib.1
            · simp only [hsl, hsl']
            · simp only [if_neg hbb]; exact ib.2.2
          have hid2 : ((P ++ { b with length := b.length + b'.length } :: Q).map (·.id)).Nodup := by
            simp only [List.map_append, List.map_cons]
            refine hid.sublist ?_
            exact List.Sublist.append (List.Sublist.refl _) (List.Sublist.cons_cons _ (List.sublist_cons_self _ _))
          have hn2 : Heap.number h2 a = .ok (b.mtch : Int) :=
            r2.number (b := { b with length := b.length + b'.length }) (in_list (l := false) (by rw [sF]; simp))
              (List.forall₂_cons.1 (forall₂_split (by rw [sF] at f2; exact f2) hlen).2).1
          obtain ⟨h3, longs3, e3, r3, f3⟩ := r2.decrement (l := false) f2 hid2 b.mtch
          have hdec : Edo.decrement_match b.mtch (P ++ { b with length := b.length + b'.length } :: Q) =
              Edo.decrement_match b.mtch P ++ { b with length := b.length + b'.length } :: Edo.decrement_match b.mtch Q := by
            simp [Edo.decrement_match]
          rw [hdec] at f3
          have hid3 : ((Edo.decrement_match b.mtch P ++ { b with length := b.length + b'.length } ::
              Edo.decrement_match b.mtch Q).map (·.id)).Nodup := by
            rw [← hdec, decrement_ids]; exact hid2
          rw [e1]
          simp only [bind_ok, e2, hn2, e3]
          obtain ⟨h4, s4, v4, l4, e4, H4, t4, w4⟩ := ih g h3 _ v1 longs3 ys zs a _ _ _ C ⟨r3, f3, hid3⟩ sF
            (by simpa [Edo.decrement_match] using hlen) (by simp at hz; omega) hc
          refine ⟨h4, s4, v4, l4, e4, H4, by rw [t4, sT], ?_⟩
          intro y hy
          rw [w4 y (by rw [sT]; exact hy)]
          exact v1o y (by rintro rfl; exact r.inv.disj true false (by simp) y hy (by simp [e]))
        · rename_i hm
          have hm' : ¬ (b'.mtch : Int) = (b.mtch : Int) + 1 := by intro hh; apply hm; exact_mod_cast hh
          rw [if_neg hm']
          exact ih g h s val longs (ys ++ [a]) zs x (P ++ [b]) Q b' C (by simpa using H) (by simpa using e) (by simpa using hlen)
            (by simp at hz; omega) hc

/-! ## display -/

theorem display_each (r : R h s ex val longs k) : ∀ (xs : List Addr) (C : List Edo.Block) (out : List Nat), (∀ a ∈ xs, In s ex a) →
    List.Forall₂ (Is val longs) xs C → each (displayStep h) xs out = .ok (out ++
      C.flatMap (fun b => ascii " {" ++ fmtInt b.mtch ++ ascii ":" ++ fmtInt b.length ++ ascii "}")) := by
  intro xs
  induction xs with
  | nil => intro C out _ f; cases f; simp [each]
  | cons x xs ih =>
    intro C out hx f
    cases f with
    | cons i f =>
      have hi := hx x (by simp)
      obtain ⟨sub, es, hl, _⟩ := r.block hi i
      have hn := r.number hi i
      simp only [Heap.number, r.obj hi, bind_ok] at hn
      simp only [each, displayStep, r.obj hi, bind_ok, hn, es, pure_eq, hl]
      rw [ih _ _ (fun a ha => hx a (by simp [ha])) f]
      simp

theorem Holds.display {C : List Edo.Block} (H : Holds h s val longs k C) (label : List Nat) :
    display false label h = .ok (Edo.display C label) := by
  simp only [Heap.display]
  rw [H.rep.walk false, display_each H.rep (s false) C _ (fun a ha => in_list ha) H.items]
  simp [Edo.display]

theorem Holds.length {C : List Edo.Block} (H : Holds h s val longs k C) : (s false).length = C.length := H.items.length_eq

theorem Holds.combine {C C' : List Edo.Block} (H : Holds h s val longs k C) (debug : Bool) {out : List Nat}
    (e : Edo.combine_adjacentD debug C = .ok (C', out)) :
    ∃ h' s' val' longs', combine_adjacent debug false h = .ok (h', out) ∧ Holds h' s' val' longs' k C' ∧ s' true = s true ∧
      (∀ x ∈ s true, val' x = val x) := by
  simp only [Edo.combine_adjacentD] at e
  obtain ⟨C1, e1, e⟩ := bind_eq_ok.1 e
  simp only [pure_eq, Res.ok.injEq, Prod.mk.injEq] at e
  obtain ⟨rfl, rfl⟩ := e
  have key : ∃ h' s' val' longs', combineLoop false h.nextSync (h.links.hdr false).first h = .ok h' ∧ Holds h' s' val' longs' k C1 ∧
      s' true = s true ∧ (∀ x ∈ s true, val' x = val x) := by
    rw [H.rep.first]
    have hle := H.rep.length_le false
    cases C with
    | nil =>
      have hs : s false = [] := by have := H.length; simpa using this
      simp only [Edo.combine_adjacent, Res.ok.injEq] at e1
      subst e1
      refine ⟨h, s, val, longs, ?_, H, rfl, fun _ _ => rfl⟩
      rw [hs, List.head?_nil]
      unfold combineLoop
      rfl
    | cons b Q =>
      cases hs : s false with
      | nil => have := H.length; simp [hs] at this
      | cons a zs =>
        rw [hs] at hle
        exact combine_spec h.nextSync _ h s val longs [] zs a [] Q b C1 H hs rfl (Nat.lt_of_succ_le (by simpa using hle)) e1
  obtain ⟨h', s', val', longs', e2, H2, t2, w2⟩ := key
  refine ⟨h', s', val', longs', ?_, H2, t2, w2⟩
  simp only [Heap.combine_adjacent, e2, bind_ok]
  cases debug with
  | true => simp [H2.display]
  | false => simp

end Ocr.Heap
