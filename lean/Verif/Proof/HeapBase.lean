import Verif.Model.Heap
import Verif.Proof.CList
import Mathlib.Data.List.Nodup
import Mathlib.Data.List.Perm.Subperm

/-!
# The objects on the heap

`R h s ex val longs k`: the lists hold the objects with addresses `s true` and `s false`, the objects `ex` are in no list, nothing else is
allocated, and the contents of the objects are given by `val`.
-/

namespace Ocr.Heap
open Text Res Sync CList

/-- The object is in a list or among those in no list. -/
def In (s : Abs Bool) (ex : List Addr) (a : Addr) : Prop := (∃ l, a ∈ s l) ∨ a ∈ ex

structure R (h : Heap) (s : Abs Bool) (ex : List Addr) (val : Addr → Sync) (longs : Addr → Option Int) (k : Nat) : Prop where
  inv   : Inv h.links s
  nodup : ex.Nodup
  apart : ∀ a ∈ ex, ∀ l, a ∉ s l
  sync  : ∀ a, In s ex a → h.sync a = some ⟨a, (val a).mtch⟩
  subs  : ∀ a, In s ex a → h.subs a = some (val a).substr
  below : ∀ a, In s ex a → a < h.nextSync
  dead  : ∀ a, ¬ In s ex a → h.sync a = none ∧ h.subs a = none
  same  : h.nextSubs = h.nextSync
  long  : h.long = longs
  cells : h.nextLong = k

variable {h : Heap} {s : Abs Bool} {ex : List Addr} {val : Addr → Sync} {longs : Addr → Option Int} {k : Nat} {a : Addr} {l : Bool}

theorem in_list (ha : a ∈ s l) : In s ex a := Or.inl ⟨l, ha⟩

theorem R.obj (r : R h s ex val longs k) (ha : In s ex a) : obj h a = .ok ⟨a, (val a).mtch⟩ := by
  simp [Heap.obj, r.sync a ha]

theorem R.substrs (r : R h s ex val longs k) (ha : In s ex a) {n : Nat} (hn : (val a).substr.length = n) :
    substrs h n a = .ok (val a).substr := by
  simp [Heap.substrs, r.obj ha, r.subs a ha, hn]
  rw [← hn]; simp

theorem R.only (r : R h s ex val longs k) (ha : In s ex a) {sub : Substr} (hs : (val a).substr = [sub]) :
    only h a = .ok sub := by
  simp [Heap.only, r.substrs ha (n := 1) (by simp [hs]), hs, rd]

theorem R.next (r : R h s ex val longs k) {ys zs} (e : s l = ys ++ a :: zs) : next h a = .ok zs.head? := by
  have ha : In s ex a := in_list (l := l) (by simp [e])
  have hs := (r.inv.rep l).seg
  rw [e] at hs
  simp [Heap.next, r.obj ha, seg_mid hs]

theorem R.prev (r : R h s ex val longs k) {ys zs} (e : s l = ys ++ a :: zs) : prev h a = .ok ys.getLast? := by
  have ha : In s ex a := in_list (l := l) (by simp [e])
  have hs := (r.inv.rep l).seg
  rw [e] at hs
  simp [Heap.prev, r.obj ha, seg_mid hs]

theorem R.first (r : R h s ex val longs k) : (h.links.hdr l).first = (s l).head? := (r.inv.rep l).first

theorem R.live (r : R h s ex val longs k) (ha : In s ex a) : Heap.live h (some a) = true := by
  simp [Heap.live, r.sync a ha]

theorem R.live_opt (r : R h s ex val longs k) {p : Option Addr} (hp : ∀ a, p = some a → In s ex a) : Heap.live h p = true := by
  cases p with
  | none => rfl
  | some a => exact r.live (hp a rfl)

theorem R.length_le (r : R h s ex val longs k) (l : Bool) : (s l).length ≤ h.nextSync := by
  have h1 : (s l).Nodup := (r.inv.rep l).nodup
  have h2 : s l ⊆ List.range h.nextSync := by
    intro a ha
    exact List.mem_range.2 (r.below a (in_list ha))
  have := (List.subperm_of_subset h1 h2).length_le
  simpa using this

theorem R.count (r : R h s ex val longs k) : (h.links.hdr l).count = (s l).length := (r.inv.rep l).count

/-- Contents that agree on the objects allocated are as good. -/
theorem R.congr (r : R h s ex val longs k) {val' : Addr → Sync} (e : ∀ a, In s ex a → val' a = val a) : R h s ex val' longs k :=
  { r with
    sync := fun a ha => by rw [r.sync a ha, e a ha]
    subs := fun a ha => by rw [r.subs a ha, e a ha] }

/-! ## Creation, assignment, destruction -/

/-- The contents with one object changed. -/
def put (val : Addr → Sync) (a : Addr) (x : Sync) : Addr → Sync := fun b => if b = a then x else val b

@[simp] theorem put_same (x : Sync) : put val a x a = x := by simp [put]
theorem put_ne {b : Addr} (x : Sync) (hb : b ≠ a) : put val a x b = val b := by simp [put, hb]

theorem R.fresh (r : R h s ex val longs k) : ¬ In s ex h.nextSync := fun hi => Nat.lt_irrefl _ (r.below _ hi)

theorem R.create (r : R h s ex val longs k) (n : Nat) :
    R (create_sync n h).2 s (h.nextSync :: ex) (put val h.nextSync ⟨List.replicate n ⟨0, 0, 0⟩, none⟩) longs k := by
  have hf := r.fresh
  have hne : ∀ a, In s ex a → a ≠ h.nextSync := by rintro a ha rfl; exact hf ha
  have hin : ∀ a, In s (h.nextSync :: ex) a → a = h.nextSync ∨ In s ex a := by
    rintro a (ha | ha)
    · exact Or.inr (Or.inl ha)
    · rcases List.mem_cons.1 ha with rfl | ha
      · exact Or.inl rfl
      · exact Or.inr (Or.inr ha)
  refine ⟨⟨fun l => ?_, r.inv.disj⟩, ?_, ?_, ?_, ?_, ?_, ?_, ?_, ?_, ?_⟩
  · refine (r.inv.rep l).frame (fun a ha => ?_) rfl
    simp [create_sync, setCell, hne a (in_list ha)]
  · exact List.nodup_cons.2 ⟨fun hh => hf (Or.inr hh), r.nodup⟩
  · intro a ha l hl
    rcases List.mem_cons.1 ha with rfl | ha
    · exact hf (in_list hl)
    · exact r.apart a ha l hl
  · intro a ha
    rcases hin a ha with rfl | ha
    · simp [create_sync, r.same]
    · simp [create_sync, hne a ha, put_ne _ (hne a ha), r.sync a ha]
  · intro a ha
    rcases hin a ha with rfl | ha
    · simp [create_sync, r.same]
    · simp [create_sync, r.same, hne a ha, put_ne _ (hne a ha), r.subs a ha]
  · intro a ha
    rcases hin a ha with rfl | ha
    · simp [create_sync]
    · have := r.below a ha
      exact Nat.lt_succ_of_lt this
  · intro a ha
    have h1 : a ≠ h.nextSync := by rintro rfl; exact ha (Or.inr (by simp))
    have h2 : ¬ In s ex a := by
      rintro (hh | hh)
      · exact ha (Or.inl hh)
      · exact ha (Or.inr (by simp [hh]))
    simp [create_sync, r.same, h1, r.dead a h2]
  · simp [create_sync, r.same]
  · exact r.long
  · exact r.cells

theorem R.setSubstrs (r : R h s ex val longs k) (ha : In s ex a) (subs : List Substr) (hn : subs.length = (val a).substr.length) :
    ∃ h', setSubstrs h a subs = .ok h' ∧ R h' s ex (put val a ⟨subs, (val a).mtch⟩) longs k ∧ h'.nextSync = h.nextSync := by
  refine ⟨{ h with subs := fun p => if p = a then some subs else h.subs p }, ?_, ?_, rfl⟩
  · simp [Heap.setSubstrs, r.obj ha, r.subs a ha, hn]
  · refine ⟨r.inv, r.nodup, r.apart, ?_, ?_, r.below, ?_, r.same, r.long, r.cells⟩
    · intro b hb
      by_cases h1 : b = a
      · subst h1; simp [r.sync b hb]
      · simp [put_ne _ h1, r.sync b hb]
    · intro b hb
      by_cases h1 : b = a
      · subst h1; simp
      · simp [put_ne _ h1, r.subs b hb, h1]
    · intro b hb
      have h1 : b ≠ a := by rintro rfl; exact hb ha
      simp [h1, r.dead b hb]

theorem R.setMatch (r : R h s ex val longs k) (ha : In s ex a) (c : Option Addr) :
    ∃ h', setMatch h a c = .ok h' ∧ R h' s ex (put val a ⟨(val a).substr, c⟩) longs k ∧ h'.nextSync = h.nextSync := by
  refine ⟨{ h with sync := fun x => if x = a then some ⟨a, c⟩ else h.sync x }, ?_, ?_, rfl⟩
  · simp [Heap.setMatch, r.obj ha]
  · refine ⟨r.inv, r.nodup, r.apart, ?_, ?_, r.below, ?_, r.same, r.long, r.cells⟩
    · intro b hb
      by_cases h1 : b = a
      · subst h1; simp
      · simp [put_ne _ h1, r.sync b hb, h1]
    · intro b hb
      by_cases h1 : b = a
      · subst h1; simp [r.subs b hb]
      · simp [put_ne _ h1, r.subs b hb]
    · intro b hb
      have h1 : b ≠ a := by rintro rfl; exact hb ha
      simp [h1, r.dead b hb]

theorem R.destroy {e1 e2 : List Addr} (r : R h s (e1 ++ a :: e2) val longs k) :
    ∃ h', destroy_sync h a = .ok h' ∧ R h' s (e1 ++ e2) val longs k ∧ h'.nextSync = h.nextSync := by
  have ha : In s (e1 ++ a :: e2) a := Or.inr (by simp)
  have hsub : ∀ b, In s (e1 ++ e2) b → In s (e1 ++ a :: e2) b := by
    rintro b (hb | hb)
    · exact Or.inl hb
    · exact Or.inr (by simp at hb ⊢; tauto)
  have hnd : a ∉ e1 ++ e2 := by
    have := List.nodup_middle.1 r.nodup
    exact (List.nodup_cons.1 this).1
  have hne : ∀ b, In s (e1 ++ e2) b → b ≠ a := by
    rintro b hb rfl
    rcases hb with ⟨l, hb⟩ | hb
    · exact r.apart b (by simp) l hb
    · exact hnd hb
  refine ⟨{ h with
      subs := fun x => if x = a then none else h.subs x
      sync := fun x => if x = a then none else h.sync x }, ?_, ?_, rfl⟩
  · simp [destroy_sync, r.obj ha, freeSubs, r.subs a ha, freeSync, r.sync a ha]
  · refine ⟨r.inv, ?_, ?_, ?_, ?_, ?_, ?_, r.same, r.long, r.cells⟩
    · exact (List.nodup_cons.1 (List.nodup_middle.1 r.nodup)).2
    · intro b hb l; exact r.apart b (by simp at hb ⊢; tauto) l
    · intro b hb; simp [hne b hb, r.sync b (hsub b hb)]
    · intro b hb; simp [hne b hb, r.subs b (hsub b hb)]
    · intro b hb; exact r.below b (hsub b hb)
    · intro b hb
      by_cases h1 : b = a
      · simp [h1]
      · have : ¬ In s (e1 ++ a :: e2) b := by
          rintro (hh | hh)
          · exact hb (Or.inl hh)
          · refine hb (Or.inr ?_); simp [h1] at hh; simpa using hh
        simp [h1, r.dead b this]

/-! ## Lists -/

theorem in_insert {ys zs e1 e2 : List Addr} (e : s l = ys ++ zs) (b : Addr) :
    In (upd s l (ys ++ a :: zs)) (e1 ++ e2) b ↔ In s (e1 ++ a :: e2) b := by
  unfold In
  constructor
  · rintro (⟨j, hj⟩ | hb)
    · by_cases h1 : j = l
      · subst h1
        rw [upd_same] at hj
        by_cases h2 : b = a
        · subst h2; exact Or.inr (by simp)
        · refine Or.inl ⟨j, ?_⟩; rw [e]; simp [h2] at hj; simpa using hj
      · rw [upd_ne _ _ h1] at hj; exact Or.inl ⟨j, hj⟩
    · exact Or.inr (by simp at hb ⊢; tauto)
  · rintro (⟨j, hj⟩ | hb)
    · by_cases h1 : j = l
      · subst h1
        refine Or.inl ⟨j, ?_⟩
        rw [upd_same]; rw [e] at hj; simp at hj ⊢; tauto
      · exact Or.inl ⟨j, by rwa [upd_ne _ _ h1]⟩
    · by_cases h2 : b = a
      · subst h2; exact Or.inl ⟨l, by rw [upd_same]; simp⟩
      · refine Or.inr ?_; simp [h2] at hb; simpa using hb

theorem R.insert {e1 e2 ys zs : List Addr} (r : R h s (e1 ++ a :: e2) val longs k) (e : s l = ys ++ zs) :
    ∃ h', insert h l ys.getLast? a zs.head? = .ok h' ∧ R h' (upd s l (ys ++ a :: zs)) (e1 ++ e2) val longs k ∧
      h'.nextSync = h.nextSync := by
  have ha : In s (e1 ++ a :: e2) a := Or.inr (by simp)
  have h1 : Heap.live h ys.getLast? = true := r.live_opt (fun b hb => in_list (l := l) (by rw [e]; simp [List.mem_of_getLast? hb]))
  have h2 : Heap.live h zs.head? = true := r.live_opt (fun b hb => in_list (l := l) (by rw [e]; simp [List.mem_of_head? hb]))
  have hnd : a ∉ e1 ++ e2 := (List.nodup_cons.1 (List.nodup_middle.1 r.nodup)).1
  refine ⟨{ h with links := list_insert h.links l ys.getLast? a zs.head? }, ?_, ?_, rfl⟩
  · simp [Heap.insert, h1, h2, r.live ha]
  · refine ⟨r.inv.insert l ys zs a e (fun j => r.apart a (by simp) j), ?_, ?_, ?_, ?_, ?_, ?_, r.same, r.long, r.cells⟩
    · exact (List.nodup_cons.1 (List.nodup_middle.1 r.nodup)).2
    · intro b hb j hj
      have hba : b ≠ a := by rintro rfl; exact hnd hb
      have hb' : b ∈ e1 ++ a :: e2 := by simp at hb ⊢; tauto
      by_cases h3 : j = l
      · subst h3
        rw [upd_same] at hj
        refine r.apart b hb' j ?_
        rw [e]; simp [hba] at hj; simpa using hj
      · rw [upd_ne _ _ h3] at hj; exact r.apart b hb' j hj
    · intro b hb; exact r.sync b ((in_insert e b).1 hb)
    · intro b hb; exact r.subs b ((in_insert e b).1 hb)
    · intro b hb; exact r.below b ((in_insert e b).1 hb)
    · intro b hb; exact r.dead b (fun hh => hb ((in_insert e b).2 hh))

theorem R.insert_first {e1 e2 : List Addr} (r : R h s (e1 ++ a :: e2) val longs k) :
    ∃ h', insert_first h l a = .ok h' ∧ R h' (upd s l (a :: s l)) (e1 ++ e2) val longs k ∧ h'.nextSync = h.nextSync := by
  have := r.insert (l := l) (ys := []) (zs := s l) rfl
  simpa [Heap.insert_first, r.first] using this

theorem R.insert_before {e1 e2 ys zs : List Addr} {b : Addr} (r : R h s (e1 ++ a :: e2) val longs k) (e : s l = ys ++ b :: zs) :
    ∃ h', insert_before h l a b = .ok h' ∧ R h' (upd s l (ys ++ a :: b :: zs)) (e1 ++ e2) val longs k ∧ h'.nextSync = h.nextSync := by
  have := r.insert (l := l) (ys := ys) (zs := b :: zs) e
  simpa [Heap.insert_before, r.prev e] using this

theorem R.insert_after {e1 e2 ys zs : List Addr} {b : Addr} (r : R h s (e1 ++ a :: e2) val longs k) (e : s l = ys ++ b :: zs) :
    ∃ h', insert_after h l b a = .ok h' ∧ R h' (upd s l (ys ++ b :: a :: zs)) (e1 ++ e2) val longs k ∧ h'.nextSync = h.nextSync := by
  have := r.insert (l := l) (ys := ys ++ [b]) (zs := zs) (by simpa using e)
  simpa [Heap.insert_after, r.next e] using this

theorem R.remove {ys zs : List Addr} (r : R h s [] val longs k) (e : s l = ys ++ a :: zs) :
    ∃ h', remove h l a = .ok h' ∧ R h' (upd s l (ys ++ zs)) [a] val longs k ∧ h'.nextSync = h.nextSync := by
  have h1 : Heap.live h ys.getLast? = true := r.live_opt (fun b hb => in_list (l := l) (by rw [e]; simp [List.mem_of_getLast? hb]))
  have h2 : Heap.live h zs.head? = true := r.live_opt (fun b hb => in_list (l := l) (by rw [e]; simp [List.mem_of_head? hb]))
  have hnd := (r.inv.rep l).nodup
  rw [e] at hnd
  have hnd' := (List.nodup_cons.1 (List.nodup_middle.1 hnd)).1
  have hin : ∀ b, In (upd s l (ys ++ zs)) [a] b ↔ In s [] b := by
    intro b
    have e' : upd s l (ys ++ zs) l = ys ++ zs := upd_same _ _ _
    have := in_insert (s := upd s l (ys ++ zs)) (l := l) (a := a) (e1 := []) (e2 := []) e' b
    have e3 : upd (upd s l (ys ++ zs)) l (ys ++ a :: zs) = s := by
      funext j
      by_cases hj : j = l
      · subst hj; rw [upd_same, e]
      · rw [upd_ne _ _ hj, upd_ne _ _ hj]
    rw [e3] at this
    simpa using this.symm
  refine ⟨{ h with links := list_remove h.links l a }, ?_, ?_, rfl⟩
  · simp [Heap.remove, r.prev e, r.next e, h1, h2]
  · refine ⟨r.inv.remove l ys zs a e, by simp, ?_, ?_, ?_, ?_, ?_, r.same, r.long, r.cells⟩
    · intro b hb j hj
      rw [List.mem_singleton] at hb
      subst hb
      by_cases h3 : j = l
      · subst h3; rw [upd_same] at hj; exact hnd' hj
      · rw [upd_ne _ _ h3] at hj
        exact r.inv.disj j l h3 b hj (by rw [e]; simp)
    · intro b hb; exact r.sync b ((hin b).1 hb)
    · intro b hb; exact r.subs b ((hin b).1 hb)
    · intro b hb; exact r.below b ((hin b).1 hb)
    · intro b hb; exact r.dead b (fun hh => hb ((hin b).2 hh))

/-! ## Loops over a list -/

/-- The body done for the items in turn. -/
def each {σ : Type} (step : Addr → σ → Res σ) : List Addr → σ → Res σ
  | [], t => .ok t
  | a :: xs, t => do
    let t ← step a t
    each step xs t

theorem walk_each {σ : Type} {heap : σ → Heap} {step : Addr → σ → Res σ} (P : σ → Prop) {c : Addr → Cell}
    (hP : ∀ t, P t → (heap t).links.cell = c) : ∀ (xs : List Addr) (p : Option Addr) (n : Nat) (t : σ),
    Seg c p xs none → xs.length ≤ n → P t →
    (∀ a ∈ xs, ∀ t t', P t → step a t = .ok t' → P t' ∧ ∃ o, (heap t').sync a = some o) →
    walk heap step n xs.head? t = each step xs t
  | [], _, n, t, _, _, _, _ => by cases n <;> rfl
  | a :: xs, p, 0, t, _, hn, _, _ => by simp at hn
  | a :: xs, p, n + 1, t, hs, hn, ht, hstep => by
    simp only [List.head?_cons, walk, each]
    cases hst : step a t with
    | ok t' =>
      obtain ⟨ht', o, ho⟩ := hstep a (by simp) t t' ht hst
      have hc : ((heap t').links.cell a).next = xs.head? := by rw [hP t' ht', hs.1]; simp
      have hn' : Heap.next (heap t') a = .ok xs.head? := by simp [Heap.next, Heap.obj, ho, hc]
      simp only [bind_ok, hn']
      exact walk_each P hP xs _ n t' hs.2 (by simpa using hn) ht' (fun b hb => hstep b (by simp [hb]))
    | err m => rfl
    | ub => rfl
    | fuel => rfl

/-- A loop that does not change the heap. -/
theorem R.walk {σ : Type} (r : R h s ex val longs k) (l : Bool) (step : Addr → σ → Res σ) (t : σ) :
    Heap.walk (fun _ => h) step h.nextSync (h.links.hdr l).first t = each step (s l) t := by
  rw [r.first]
  refine walk_each (fun _ => True) (c := h.links.cell) (fun _ _ => rfl) (s l) none _ t (r.inv.rep l).seg (r.length_le l) trivial ?_
  intro a ha t t' _ _
  exact ⟨trivial, _, r.sync a (in_list ha)⟩

/-- A loop that changes only the `long` objects. -/
theorem R.walk_long {σ : Type} (r : R h s ex val longs k) (l : Bool) {heap : σ → Heap} {step : Addr → σ → Res σ} (t : σ)
    (h0 : heap t = h) (hstep : ∀ a t t', step a t = .ok t' → ∃ f, heap t' = { heap t with long := f }) :
    Heap.walk heap step h.nextSync (h.links.hdr l).first t = each step (s l) t := by
  rw [r.first]
  refine walk_each (fun t => (heap t).links = h.links ∧ (heap t).sync = h.sync) (c := h.links.cell) (fun t ht => by rw [ht.1])
    (s l) none _ t (r.inv.rep l).seg (r.length_le l) (by simp [h0]) ?_
  intro a ha t t' ht hst
  obtain ⟨f, hf⟩ := hstep a t t' hst
  rw [hf]
  exact ⟨ht, _, by rw [ht.2]; exact r.sync a (in_list ha)⟩

end Ocr.Heap
