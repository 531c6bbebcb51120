import Verif.Proof.HeapBase

/-! # sync.c on the heap and on sequences -/

namespace Ocr.Heap
open Text Res Sync CList

variable {h : Heap} {s : Abs Bool} {ex : List Addr} {val : Addr → Sync} {longs : Addr → Option Int} {k : Nat} {a : Addr} {l : Bool}

theorem R.new (r : R h s ex val longs k) (n : Nat) : ∃ h', create_sync n h = (h.nextSync, h') ∧
    R h' s (h.nextSync :: ex) (put val h.nextSync ⟨List.replicate n ⟨0, 0, 0⟩, none⟩) longs k ∧ h'.nextSync = h.nextSync + 1 :=
  ⟨_, rfl, r.create n, rfl⟩

theorem R.newLong (r : R h s ex val longs k) : ∃ h', newLong h = (k, h') ∧
    R h' s ex val (fun x => if x = k then some 0 else longs x) (k + 1) ∧ h'.nextSync = h.nextSync := by
  refine ⟨(Heap.newLong h).2, by rw [← r.cells]; rfl, ?_, rfl⟩
  exact ⟨r.inv, r.nodup, r.apart, r.sync, r.subs, r.below, r.dead, r.same, by rw [← r.cells, ← r.long]; rfl, by rw [← r.cells]; rfl⟩

theorem R.valid (r : R h s ex val longs k) (ha : In s ex a) {n : Nat} (hn : (val a).substr.length = n) :
    valid_sync n h a = .ok (Sync.valid_sync (val a)) := by
  simp [Heap.valid_sync, r.substrs ha hn, Sync.valid_sync]

/-- The three parts of sync.c:152-168. -/
def leftPart (x : Sync) (start : List Int) : Sync :=
  ⟨List.zipWith (fun (s : Substr) st => ⟨s.start, st - 1, st - s.start⟩) x.substr start, none⟩

def rightPart (x : Sync) (start : List Int) (length : Int) : Sync :=
  ⟨List.zipWith (fun (s : Substr) st => ⟨st + length - 1 + 1, s.stop, s.stop - (st + length - 1)⟩) x.substr start, none⟩

def midPart (start : List Int) (length : Int) (c : Nat) : Sync := ⟨start.map (fun st => ⟨st, st + length - 1, length⟩), some c⟩

theorem seq_save_match {ys zs : List Sync} {x : Sync} {start : List Int} (hs : start.length = x.substr.length) (length : Int) (c : Nat) :
    Sync.save_match (ys ++ x :: zs) ys.length start length c = .ok (ys ++
      ((if Sync.valid_sync (leftPart x start) then [leftPart x start] else []) ++ midPart start length c ::
        ((if Sync.valid_sync (rightPart x start length) then [rightPart x start length] else []) ++ zs))) := by
  simp [Sync.save_match, hs, leftPart, rightPart, midPart]
  rfl

theorem upd_upd (s : Abs Bool) (l : Bool) (xs ys : List Addr) : upd (upd s l xs) l ys = upd s l ys := by
  funext j; simp only [upd]; split <;> rfl

theorem upd_self (e : s l = xs) : upd s l xs = s := by
  funext j; simp only [upd]; split
  · rename_i hj; rw [hj, e]
  · rfl

theorem R.save_match {ys zs : List Addr} (r : R h s [] val longs k) (e : s l = ys ++ a :: zs) {n : Nat} {start : List Int}
    (hn : (val a).substr.length = n) (hs : start.length = n) (length : Int) (c : Nat) :
    ∃ h' lf rt val', Heap.save_match l n a start length c h = .ok h' ∧
      R h' (upd s l (ys ++ (lf ++ a :: (rt ++ zs)))) [] val' longs k ∧
      (∀ b, In s [] b → b ≠ a → val' b = val b) ∧ val' a = midPart start length c ∧
      lf.map val' = (if Sync.valid_sync (leftPart (val a) start) then [leftPart (val a) start] else []) ∧
      rt.map val' = (if Sync.valid_sync (rightPart (val a) start length) then [rightPart (val a) start length] else []) := by
  obtain ⟨h1, e1, r1, n1⟩ := r.new n
  obtain ⟨h2, e2, r2, n2⟩ := r1.new n
  have hin : ∀ b, In s [] b → b ≠ h.nextSync ∧ b ≠ h1.nextSync := by
    intro b hb
    have := r.below b hb
    exact ⟨Nat.ne_of_lt this, Nat.ne_of_lt (by rw [n1]; exact Nat.lt_succ_of_lt this)⟩
  have hlr : h1.nextSync ≠ h.nextSync := by omega
  have ha : In s [] a := in_list (l := l) (by simp [e])
  have hne := hin a ha
  generalize hv2 : put (put val h.nextSync ⟨List.replicate n ⟨0, 0, 0⟩, none⟩) h1.nextSync ⟨List.replicate n ⟨0, 0, 0⟩, none⟩ = v2 at r2
  have v2a : v2 a = val a := by rw [← hv2, put_ne _ hne.2, put_ne _ hne.1]
  have v2l : v2 h.nextSync = ⟨List.replicate n ⟨0, 0, 0⟩, none⟩ := by rw [← hv2, put_ne _ (Ne.symm hlr), put_same]
  have v2r : v2 h1.nextSync = ⟨List.replicate n ⟨0, 0, 0⟩, none⟩ := by rw [← hv2, put_same]
  have inl : In s [h1.nextSync, h.nextSync] h.nextSync := Or.inr (by simp)
  have inr : In s [h1.nextSync, h.nextSync] h1.nextSync := Or.inr (by simp)
  have ina : In s [h1.nextSync, h.nextSync] a := in_list (l := l) (by simp [e])
  have e3 : Heap.substrs h2 n a = .ok (val a).substr := by
    have := r2.substrs ina (n := n) (by rw [v2a, hn])
    rw [this, v2a]
  obtain ⟨h4, e4, r4, _⟩ := r2.setSubstrs inl (leftPart (val a) start).substr (by simp [leftPart, v2l, hn, hs])
  generalize hv4 : put v2 h.nextSync ⟨(leftPart (val a) start).substr, (v2 h.nextSync).mtch⟩ = v4 at r4
  have v4r : v4 h1.nextSync = v2 h1.nextSync := by rw [← hv4, put_ne _ hlr]
  obtain ⟨h5, e5, r5, _⟩ := r4.setSubstrs inr (rightPart (val a) start length).substr (by simp [rightPart, v4r, v2r, hn, hs])
  generalize hv5 : put v4 h1.nextSync ⟨(rightPart (val a) start length).substr, (v4 h1.nextSync).mtch⟩ = v5 at r5
  have v5a : v5 a = val a := by rw [← hv5, put_ne _ hne.2, ← hv4, put_ne _ hne.1, v2a]
  obtain ⟨h6, e6, r6, _⟩ := r5.setSubstrs ina (midPart start length c).substr (by simp [midPart, v5a, hn, hs])
  generalize hv6 : put v5 a ⟨(midPart start length c).substr, (v5 a).mtch⟩ = v6 at r6
  obtain ⟨h7, e7, r7, _⟩ := r6.setMatch ina (some c)
  generalize hv7 : put v6 a ⟨(v6 a).substr, some c⟩ = v7 at r7
  have v7a : v7 a = midPart start length c := by rw [← hv7, put_same, ← hv6, put_same]; rfl
  have v7l : v7 h.nextSync = leftPart (val a) start := by
    rw [← hv7, put_ne _ (Ne.symm hne.1), ← hv6, put_ne _ (Ne.symm hne.1), ← hv5, put_ne _ (Ne.symm hlr), ← hv4, put_same, v2l]; rfl
  have v7r : v7 h1.nextSync = rightPart (val a) start length := by
    rw [← hv7, put_ne _ (Ne.symm hne.2), ← hv6, put_ne _ (Ne.symm hne.2), ← hv5, put_same, v4r, v2r]; rfl
  have v7o : ∀ b, In s [] b → b ≠ a → v7 b = val b := by
    intro b hb hba
    obtain ⟨p1, p2⟩ := hin b hb
    rw [← hv7, put_ne _ hba, ← hv6, put_ne _ hba, ← hv5, put_ne _ p2, ← hv4, put_ne _ p1, ← hv2, put_ne _ p2, put_ne _ p1]
  have e8 := r7.valid inl (n := n) (by rw [v7l]; simp [leftPart, hn, hs])
  rw [v7l] at e8
  -- the left part
  have L : ∃ h9 lf, (if Sync.valid_sync (leftPart (val a) start) = true then Heap.insert_before h7 l h.nextSync a
        else destroy_sync h7 h.nextSync) = .ok h9 ∧ R h9 (upd s l (ys ++ (lf ++ a :: zs))) [h1.nextSync] v7 longs k ∧
        lf.map v7 = (if Sync.valid_sync (leftPart (val a) start) then [leftPart (val a) start] else []) := by
    split
    · obtain ⟨h9, e9, r9, _⟩ := r7.insert_before (e1 := [h1.nextSync]) (e2 := []) e
      exact ⟨h9, [h.nextSync], e9, by simpa using r9, by simp [v7l]⟩
    · obtain ⟨h9, e9, r9, _⟩ := r7.destroy (e1 := [h1.nextSync]) (e2 := [])
      refine ⟨h9, [], e9, ?_, by simp⟩
      rw [upd_self (by simpa using e)]; exact r9
  obtain ⟨h9, lf, e9, r9, m9⟩ := L
  have e10 := r9.valid (a := h1.nextSync) (Or.inr (by simp)) (n := n) (by rw [v7r]; simp [rightPart, hn, hs])
  rw [v7r] at e10
  have Q : ∃ h11 rt, (if Sync.valid_sync (rightPart (val a) start length) = true then Heap.insert_after h9 l a h1.nextSync
        else destroy_sync h9 h1.nextSync) = .ok h11 ∧ R h11 (upd s l (ys ++ (lf ++ a :: (rt ++ zs)))) [] v7 longs k ∧
        rt.map v7 = (if Sync.valid_sync (rightPart (val a) start length) then [rightPart (val a) start length] else []) := by
    split
    · obtain ⟨h11, e11, r11, _⟩ := r9.insert_after (l := l) (e1 := []) (e2 := []) (ys := ys ++ lf) (b := a) (zs := zs)
        (by rw [upd_same]; simp)
      refine ⟨h11, [h1.nextSync], e11, ?_, by simp [v7r]⟩
      rw [upd_upd] at r11; simpa using r11
    · obtain ⟨h11, e11, r11, _⟩ := r9.destroy (e1 := []) (e2 := [])
      exact ⟨h11, [], e11, r11, by simp⟩
  obtain ⟨h11, rt, e11, r11, m11⟩ := Q
  refine ⟨h11, lf, rt, v7, ?_, r11, v7o, v7a, m9, m11⟩
  have e4' : Heap.setSubstrs h2 h.nextSync (List.zipWith (fun (s : Substr) st => ⟨s.start, st - 1, st - s.start⟩) (val a).substr start) = .ok h4 := e4
  have e5' : Heap.setSubstrs h4 h1.nextSync (List.zipWith (fun (s : Substr) st => ⟨st + length - 1 + 1, s.stop, s.stop - (st + length - 1)⟩)
    (val a).substr start) = .ok h5 := e5
  have e6' : Heap.setSubstrs h5 a (start.map (fun st => ⟨st, st + length - 1, length⟩)) = .ok h6 := e6
  simp only [Heap.save_match, e1, e2, e3, bind_ok, hs, ne_eq, not_true_eq_false, if_false, e4', e5', e6', e7, e8, e9, e10, e11]

/-! ## number_matches -/

theorem numberStep_long (a : Addr) (t t' : Heap × Int) (e : numberStep a t = .ok t') : ∃ f, t'.1 = { t.1 with long := f } := by
  simp only [numberStep] at e
  obtain ⟨o, _, e⟩ := bind_eq_ok.1 e
  split at e
  · obtain ⟨h', e1, e⟩ := bind_eq_ok.1 e
    simp only [pure_eq, Res.ok.injEq] at e
    subst e
    simp only [setLong] at e1
    split at e1
    · simp at e1
    · split at e1
      · simp at e1
      · simp only [Res.ok.injEq] at e1; exact ⟨_, e1.symm⟩
  · simp only [pure_eq, Res.ok.injEq] at e; exact ⟨t.1.long, by rw [← e]⟩

/-- The `long` objects numbered below `k` hold `cells`, the others are not allocated. -/
def Cells (k : Nat) (cells : Nat → Int) : Addr → Option Int := fun c => if c < k then some (cells c) else none

theorem R.setLong {cells : Nat → Int} (r : R h s ex val (Cells k cells) k) {c : Nat} (hc : c < k) (v : Int) :
    ∃ h', setLong h (some c) v = .ok h' ∧ R h' s ex val (Cells k (fun q => if q = c then v else cells q)) k ∧
      h'.nextSync = h.nextSync := by
  refine ⟨{ h with long := fun x => if x = c then some v else h.long x }, ?_, ?_, rfl⟩
  · simp [Heap.setLong, r.long, Cells, hc]
  · refine ⟨r.inv, r.nodup, r.apart, r.sync, r.subs, r.below, r.dead, r.same, ?_, r.cells⟩
    funext x
    simp only [r.long, Cells]
    by_cases hx : x = c
    · subst hx; simp [hc]
    · simp [hx]

theorem number_each (xs : List Addr) : ∀ (h : Heap) (i : Int) (cells : Nat → Int), R h s ex val (Cells k cells) k →
    (∀ a ∈ xs, In s ex a ∧ ∀ c, (val a).mtch = some c → c < k) →
    ∃ h' i', each numberStep xs (h, i) = .ok (h', i') ∧
      R h' s ex val (Cells k (Sync.number_matches.go (xs.map val) i cells)) k := by
  induction xs with
  | nil => intro h i cells r _; exact ⟨h, i, rfl, r⟩
  | cons a xs ih =>
    intro h i cells r hx
    obtain ⟨ha, hc⟩ := hx a (by simp)
    simp only [each, numberStep, r.obj ha, bind_ok, List.map_cons, Sync.number_matches.go]
    cases hm : (val a).mtch with
    | none =>
      simp only [Option.isSome_none, Bool.false_eq_true, if_false, pure_eq, bind_ok]
      exact ih h i cells r (fun b hb => hx b (by simp [hb]))
    | some c =>
      obtain ⟨h1, e1, r1, _⟩ := r.setLong (hc c hm) (i + 1)
      simp only [Option.isSome_some, if_true, e1, pure_eq, bind_ok]
      exact ih h1 (i + 1) _ r1 (fun b hb => hx b (by simp [hb]))

theorem R.number_matches {cells : Nat → Int} (r : R h s ex val (Cells k cells) k) (hc : ∀ a ∈ s l, ∀ c, (val a).mtch = some c → c < k) :
    ∃ h', number_matches l h = .ok h' ∧ R h' s ex val (Cells k (Sync.number_matches ((s l).map val) cells)) k := by
  obtain ⟨h', i', e1, r1⟩ := number_each (s l) h 0 cells r (fun a ha => ⟨in_list ha, hc a ha⟩)
  refine ⟨h', ?_, r1⟩
  simp only [Heap.number_matches]
  rw [r.walk_long l (heap := Prod.fst) (step := numberStep) (h, 0) rfl numberStep_long, e1]
  rfl

/-! ## initialize_synclist -/

/-- `list_initialize` makes an empty list (list.c:36-42). -/
theorem R.list_initialize {l : Bool} (r : R h s [] val longs k) (e : s l = []) :
    R { h with links := list_initialize h.links l } s [] val longs k := by
  refine ⟨⟨fun j => ?_, r.inv.disj⟩, r.nodup, r.apart, r.sync, r.subs, r.below, r.dead, r.same, r.long, r.cells⟩
  by_cases hj : j = l
  · subst hj; rw [e]
    exact ⟨trivial, by simp, by simp [CList.list_initialize, setHdr], by simp [CList.list_initialize, setHdr],
      by simp [CList.list_initialize, setHdr], by simp [CList.list_initialize, setHdr]⟩
  · exact (r.inv.rep j).frame (fun _ _ => rfl) (by simp [CList.list_initialize, setHdr, hj])

theorem R.initialize {l : Bool} (r0 : R { h with links := CList.list_initialize h.links l } s [] val longs k) (e : s l = [])
    (counts : List Nat) :
    ∃ h' xs val', initialize_synclist l counts h = .ok h' ∧ R h' (upd s l xs) [] val' longs k ∧
      xs.map val' = Sync.initialize_synclist counts ∧ (∀ b, In s [] b → val' b = val b) := by
  obtain ⟨h1, e1, r1, n1⟩ := r0.new counts.length
  have ina : In s [h.nextSync] h.nextSync := Or.inr (by simp)
  obtain ⟨h2, e2, r2, n2⟩ := r1.setSubstrs ina (counts.map (fun (c : Nat) => (⟨0, (c : Int) - 1, (c : Int)⟩ : Substr)))
    (by simp)
  generalize hv : put _ h.nextSync _ = v2 at r2
  have v2a : v2 h.nextSync = ⟨counts.map (fun (c : Nat) => (⟨0, (c : Int) - 1, (c : Int)⟩ : Substr)), none⟩ := by
    rw [← hv, put_same]; simp
  have v2o : ∀ b, In s [] b → v2 b = val b := by
    intro b hb
    have := r0.below b hb
    have hne : b ≠ h.nextSync := Nat.ne_of_lt this
    rw [← hv, put_ne _ hne, put_ne _ hne]
  have e3 := r2.valid ina (n := counts.length) (by rw [v2a]; simp)
  rw [v2a] at e3
  simp only [Heap.initialize_synclist, Sync.initialize_synclist]
  simp only [e1, e2, e3, bind_ok]
  split
  · obtain ⟨h4, e4, r4, _⟩ := r2.insert_first (l := l) (e1 := []) (e2 := [])
    exact ⟨h4, [h.nextSync], v2, e4, by simpa [e] using r4, by simp [v2a], v2o⟩
  · obtain ⟨h4, e4, r4, _⟩ := r2.destroy (e1 := []) (e2 := [])
    refine ⟨h4, [], v2, e4, ?_, by simp, v2o⟩
    rw [upd_self e]; exact r4

end Ocr.Heap
