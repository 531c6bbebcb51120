import Verif.Proof.HeapRecursive
import Verif.Proof.Transpose

/-! # transpose_sync on the heap -/

namespace Ocr.Heap
open Text Res Sync CList

variable {h : Heap} {s : Abs Bool} {ex : List Addr} {val : Addr → Sync} {longs : Addr → Option Int} {k : Nat} {a : Addr} {l : Bool}

theorem R.only_of (r : R h s ex val longs k) (ha : In s ex a) {sub : Substr} (hs : (val a).only = .ok sub) : Heap.only h a = .ok sub := by
  cases hx : (val a).substr with
  | nil => simp [Sync.Sync.only, hx, rd] at hs
  | cons x xs =>
    have : x = sub := by simpa [Sync.Sync.only, hx, rd] using hs
    simp [Heap.only, Heap.substrs, r.obj ha, r.subs a ha, hx, rd, this]

/-- `save_match` for the item at a position. -/
theorem R.save_at (r : R h s [] val longs k) {pos : Nat} (hp : (s l)[pos]? = some a) {start : List Int} {length : Int} {c : Nat}
    {L : List Sync} (e : Sync.save_match ((s l).map val) pos start length c = .ok L) :
    ∃ h' xs val', Heap.save_match l start.length a start length c h = .ok h' ∧ R h' (upd s l xs) [] val' longs k ∧ xs.map val' = L ∧
      (∀ j, j ≠ l → ∀ b ∈ s j, val' b = val b) ∧
      (∀ b ∈ xs, ∀ q, (val' b).mtch = some q → q = c ∨ ∃ b' ∈ s l, (val b').mtch = some q) := by
  obtain ⟨hlt, hget⟩ := List.getElem?_eq_some_iff.1 hp
  have hsl : s l = (s l).take pos ++ a :: (s l).drop (pos + 1) := by
    rw [← hget, ← List.drop_eq_getElem_cons hlt, List.take_append_drop]
  generalize hys : (s l).take pos = ys at hsl
  generalize (s l).drop (pos + 1) = zs at hsl
  have hpos : ys.length = pos := by rw [← hys, List.length_take]; omega
  have hget2 : ((s l).map val)[pos]? = some (val a) := by simp [hp]
  have hlen : start.length = (val a).substr.length := by
    by_contra hne
    simp only [Sync.save_match, hget2] at e
    rw [if_pos hne] at e
    simp at e
  obtain ⟨h', lf, rt, v, e1, r1, ho, va, ml, mr⟩ := r.save_match hsl hlen.symm rfl length c
  have hnd := (r.inv.rep l).nodup
  rw [hsl] at hnd
  have hna := (List.nodup_cons.1 (List.nodup_middle.1 hnd)).1
  have hnot : ∀ b ∈ ys ++ zs, b ≠ a := by rintro b hb rfl; exact hna hb
  have hin : ∀ b ∈ ys ++ zs, In s [] b := fun b hb => in_list (l := l) (by rw [hsl]; simp at hb ⊢; tauto)
  have hyv : ys.map v = ys.map val := List.map_congr_left (fun b hb => ho b (hin b (by simp [hb])) (hnot b (by simp [hb])))
  have hzv : zs.map v = zs.map val := List.map_congr_left (fun b hb => ho b (hin b (by simp [hb])) (hnot b (by simp [hb])))
  refine ⟨h', _, v, e1, r1, ?_, ?_, ?_⟩
  · have h3 := seq_save_match (ys := ys.map val) (zs := zs.map val) (x := val a) hlen length c
    rw [List.length_map, hpos] at h3
    rw [hsl, List.map_append, List.map_cons, h3, Res.ok.injEq] at e
    rw [← e]
    simp only [List.map_append, List.map_cons, hyv, hzv, va, ml, mr]
  · intro j hj b hb
    refine ho b (in_list hb) ?_
    rintro rfl
    exact r.inv.disj j l hj b hb (by rw [hsl]; simp)
  · intro b hb q hq
    have h1 : v b ∈ (ys ++ (lf ++ a :: (rt ++ zs))).map v := List.mem_map_of_mem hb
    simp only [List.map_append, List.map_cons, hyv, hzv, va, ml, mr, List.mem_append, List.mem_cons] at h1
    rcases h1 with h1 | h1 | h1 | h1 | h1
    · obtain ⟨b', hb', h2⟩ := List.mem_map.1 h1
      exact Or.inr ⟨b', by rw [hsl]; simp [hb'], by rw [h2]; exact hq⟩
    · split at h1
      · rw [List.mem_singleton] at h1; rw [h1] at hq; simp [leftPart] at hq
      · simp at h1
    · rw [h1] at hq; simp [midPart] at hq; exact Or.inl hq.symm
    · split at h1
      · rw [List.mem_singleton] at h1; rw [h1] at hq; simp [rightPart] at hq
      · simp at h1
    · obtain ⟨b', hb', h2⟩ := List.mem_map.1 h1
      exact Or.inr ⟨b', by rw [hsl]; simp [hb'], by rw [h2]; exact hq⟩

/-- The variables of the search on the heap and on sequences. -/
def Same (s : Abs Bool) (p : TBest) (q : Sync.TBest) : Prop :=
  p.length = q.length ∧ p.starts = q.starts ∧
    ((p.items = none ∧ q.items = none) ∨
      ∃ a1 a2 i1 i2, p.items = some (a1, a2) ∧ q.items = some (i1, i2) ∧ (s true)[i1]? = some a1 ∧ (s false)[i2]? = some a2)

theorem inner_spec (r : R h s [] val longs k) (c d : List Nat) (sub1 : Substr) {a1 : Addr} {i1 : Nat} (h1 : (s true)[i1]? = some a1) :
    ∀ (xs ys : List Addr) (p : TBest) (q q' : Sync.TBest), s false = ys ++ xs → Same s p q →
    transInner c d sub1 i1 (xs.map val) ys.length q = .ok q' → ∃ p', each (innerStep c d h sub1 a1) xs p = .ok p' ∧ Same s p' q' := by
  intro xs
  induction xs with
  | nil =>
    intro ys p q q' _ hpq e
    simp only [List.map_nil, transInner, Res.ok.injEq] at e
    exact ⟨p, rfl, e ▸ hpq⟩
  | cons x xs ih =>
    intro ys p q q' hs hpq e
    simp only [List.map_cons, transInner] at e
    obtain ⟨sub2, es, e⟩ := bind_eq_ok.1 e
    have hx : In s [] x := in_list (l := false) (by simp [hs])
    have hpos : (s false)[ys.length]? = some x := by simp [hs]
    simp only [each, innerStep, r.obj hx, r.only_of hx es, bind_ok]
    obtain ⟨hq1, hq2, hq3⟩ := hpq
    rw [hq1, hq2]
    split at e
    · rename_i hc
      rw [if_pos hc]
      obtain ⟨⟨nl, st⟩, el, e⟩ := bind_eq_ok.1 e
      rw [el]
      simp only [bind_ok] at e ⊢
      split at e
      · rename_i hn
        rw [if_pos hn]
        simp only [pure_eq, bind_ok]
        exact ih (ys ++ [x]) _ _ _ (by simp [hs]) ⟨rfl, rfl, Or.inr ⟨a1, x, i1, ys.length, rfl, rfl, h1, hpos⟩⟩ (by simpa using e)
      · rename_i hn
        rw [if_neg hn]
        simp only [pure_eq, bind_ok]
        exact ih (ys ++ [x]) _ ⟨q.length, st, q.items⟩ _ (by simp [hs]) ⟨rfl, rfl, hq3⟩ (by simpa using e)
    · rename_i hc
      rw [if_neg hc]
      simp only [pure_eq, bind_ok]
      exact ih (ys ++ [x]) _ _ _ (by simp [hs]) ⟨hq1, hq2, hq3⟩ (by simpa using e)

theorem outer_spec (r : R h s [] val longs k) (c d : List Nat) :
    ∀ (xs ys : List Addr) (p : TBest) (q q' : Sync.TBest), s true = ys ++ xs → Same s p q →
    transOuter c d ((s false).map val) (xs.map val) ys.length q = .ok q' →
    ∃ p', each (outerStep c d false h) xs p = .ok p' ∧ Same s p' q' := by
  intro xs
  induction xs with
  | nil =>
    intro ys p q q' _ hpq e
    simp only [List.map_nil, transOuter, Res.ok.injEq] at e
    exact ⟨p, rfl, e ▸ hpq⟩
  | cons x xs ih =>
    intro ys p q q' hs hpq e
    simp only [List.map_cons, transOuter] at e
    obtain ⟨sub1, es, e⟩ := bind_eq_ok.1 e
    have hx : In s [] x := in_list (l := true) (by simp [hs])
    have hpos : (s true)[ys.length]? = some x := by simp [hs]
    simp only [each, outerStep, r.obj hx, r.only_of hx es, bind_ok]
    have hpq' := hpq
    obtain ⟨hq1, hq2, hq3⟩ := hpq'
    rw [hq1]
    split at e
    · rename_i hc
      rw [if_pos hc]
      obtain ⟨q1, el, e⟩ := bind_eq_ok.1 e
      obtain ⟨p1, ep, hp1⟩ := inner_spec r c d sub1 hpos (s false) [] p q q1 rfl hpq el
      rw [r.walk false, ep]
      simp only [bind_ok]
      exact ih (ys ++ [x]) _ _ _ (by simp [hs]) hp1 (by simpa using e)
    · rename_i hc
      rw [if_neg hc]
      simp only [pure_eq, bind_ok]
      exact ih (ys ++ [x]) _ _ _ (by simp [hs]) hpq (by simpa using e)

/-- All match cells are numbered below `k`. -/
def Low (s : Abs Bool) (val : Addr → Sync) (k : Nat) : Prop := ∀ l, ∀ b ∈ s l, ∀ c, (val b).mtch = some c → c < k

theorem trans_spec (c d : List Nat) : ∀ (fl : Nat) (h : Heap) (s : Abs Bool) (val : Addr → Sync) (k : Nat) (res : List Sync × List Sync),
    R h s [] val (Cells k (fun _ => 0)) k → Low s val k →
    Sync.transLoop c d fl ((s true).map val) ((s false).map val) k = .ok res →
    ∃ h' s' val' k', transLoop c d true false fl h = .ok h' ∧ R h' s' [] val' (Cells k' (fun _ => 0)) k' ∧ Low s' val' k' ∧
      res = ((s' true).map val', (s' false).map val') := by
  intro fl
  induction fl with
  | zero =>
    intro h s val k res r low e
    unfold Sync.transLoop at e
    unfold transLoop
    obtain ⟨q, eq, e⟩ := bind_eq_ok.1 e
    obtain ⟨p, ep, hp⟩ := outer_spec r c d (s true) [] ⟨0, none, none⟩ ⟨0, none, none⟩ q rfl ⟨rfl, rfl, Or.inl ⟨rfl, rfl⟩⟩ eq
    rw [r.walk true, ep]
    simp only [bind_ok]
    rw [hp.1]
    split at e
    · rename_i h0
      rw [if_pos h0]
      simp only [pure_eq, Res.ok.injEq] at e
      exact ⟨h, s, val, k, rfl, r, low, e.symm⟩
    · exfalso
      split at e
      · obtain ⟨_, _, e⟩ := bind_eq_ok.1 e
        obtain ⟨_, _, e⟩ := bind_eq_ok.1 e
        simp at e
      · simp at e
  | succ fl ih =>
    intro h s val k res r low e
    unfold Sync.transLoop at e
    unfold transLoop
    obtain ⟨q, eq, e⟩ := bind_eq_ok.1 e
    obtain ⟨p, ep, hp⟩ := outer_spec r c d (s true) [] ⟨0, none, none⟩ ⟨0, none, none⟩ q rfl ⟨rfl, rfl, Or.inl ⟨rfl, rfl⟩⟩ eq
    rw [r.walk true, ep]
    simp only [bind_ok]
    obtain ⟨hp1, hp2, hp3⟩ := hp
    rw [hp1, hp2]
    split at e
    · rename_i h0
      rw [if_pos h0]
      simp only [pure_eq, Res.ok.injEq] at e
      exact ⟨h, s, val, k, rfl, r, low, e.symm⟩
    · rename_i h0
      rw [if_neg h0]
      split at e
      · rename_i start1 start2 i1 i2 hst hit
        rcases hp3 with ⟨_, h2⟩ | ⟨a1, a2, j1, j2, g1, g2, g3, g4⟩
        · rw [h2] at hit; simp at hit
        · rw [hit] at g2
          simp only [Option.some.injEq, Prod.mk.injEq] at g2
          obtain ⟨rfl, rfl⟩ := g2
          rw [hst, g1]
          simp only
          obtain ⟨L1, eL1, e⟩ := bind_eq_ok.1 e
          obtain ⟨L2, eL2, e⟩ := bind_eq_ok.1 e
          obtain ⟨h1, e1, r1, _⟩ := r.newLong
          rw [cells_succ] at r1
          obtain ⟨h2, xs, v2, e2, r2, m2, o2, c2⟩ := r1.save_at g3 eL1
          have hfalse : upd s true xs false = s false := upd_ne _ _ (by simp)
          have hmap : (upd s true xs false).map v2 = (s false).map val := by
            rw [hfalse]; exact List.map_congr_left (fun b hb => o2 false (by simp) b hb)
          obtain ⟨h3, ys, v3, e3, r3, m3, o3, c3⟩ := r2.save_at (l := false) (by rw [hfalse]; exact g4) (by rw [hmap]; exact eL2)
          have e2' : Heap.save_match true 1 a1 [start1] q.length k h1 = .ok h2 := e2
          have e3' : Heap.save_match false 1 a2 [start2] q.length k h2 = .ok h3 := e3
          rw [e1]
          simp only [e2', e3', bind_ok]
          have s1 : upd (upd s true xs) false ys true = xs := by rw [upd_ne _ _ (by simp), upd_same]
          have s2 : upd (upd s true xs) false ys false = ys := upd_same _ _ _
          have hx3 : xs.map v3 = L1 := by
            rw [← m2]
            exact List.map_congr_left (fun b hb => o3 true (by simp) b (by rw [upd_same]; exact hb))
          have hlow : Low (upd (upd s true xs) false ys) v3 (k + 1) := by
            have hxs : ∀ b ∈ xs, ∀ c, (v2 b).mtch = some c → c < k + 1 := by
              intro b hb c hc
              rcases c2 b hb c hc with rfl | ⟨b', hb', hc'⟩
              · exact Nat.lt_succ_self _
              · exact Nat.lt_succ_of_lt (low _ b' hb' c hc')
            intro j b hb c hc
            cases j with
            | true =>
              rw [s1] at hb
              rw [o3 true (by simp) b (by rw [upd_same]; exact hb)] at hc
              exact hxs b hb c hc
            | false =>
              rw [s2] at hb
              rcases c3 b hb c hc with rfl | ⟨b', hb', hc'⟩
              · exact Nat.lt_succ_self _
              · rw [hfalse] at hb'
                rw [o2 false (by simp) b' hb'] at hc'
                exact Nat.lt_succ_of_lt (low _ b' hb' c hc')
          exact ih h3 _ v3 (k + 1) res r3 hlow (by rw [s1, s2, hx3, m3]; exact e)
      · simp at e

/-! ## Uninitialized headers -/

/-- The heap with list `false` empty. -/
def tidy (h : Heap) : Heap := { h with links := list_initialize h.links false }

theorem create_tidy (n : Nat) (h : Heap) : create_sync n (tidy h) = ((create_sync n h).1, tidy (create_sync n h).2) := rfl

theorem setSubstrs_tidy (h : Heap) (a : Addr) (x : List Substr) {g : Heap} (e : setSubstrs (tidy h) a x = .ok g) :
    ∃ h', setSubstrs h a x = .ok h' ∧ g = tidy h' := by
  simp only [setSubstrs] at e ⊢
  rw [show obj (tidy h) a = obj h a from rfl] at e
  obtain ⟨o, eo, e⟩ := bind_eq_ok.1 e
  rw [eo]
  simp only [bind_ok]
  rw [show (tidy h).subs = h.subs from rfl] at e
  split at e
  · simp at e
  · split at e
    · rename_i old hb hle
      simp only [Res.ok.injEq] at e
      rw [if_pos hle]
      exact ⟨_, rfl, e.symm⟩
    · simp at e

theorem insert_tidy (m : Mem Bool) (r1 : Option Addr) (x : Addr) (r2 : Option Addr) :
    list_insert (list_initialize m false) true r1 x r2 = list_initialize (list_insert m true r1 x r2) false := by
  have hT : ∀ m : Mem Bool, free_array (list_initialize m false) true = list_initialize (free_array m true) false := by
    intro m
    simp only [free_array]
    rw [show (list_initialize m false).hdr true = m.hdr true from rfl]
    split
    · simp only [list_initialize, setHdr, Mem.mk.injEq, true_and]
      funext j; cases j <;> rfl
    · rfl
  have hS : ∀ (m : Mem Bool) (H : Hdr), setHdr (list_initialize m false) true H = list_initialize (setHdr m true H) false := by
    intro m H
    simp only [list_initialize, setHdr, Mem.mk.injEq, true_and]
    funext j; cases j <;> rfl
  have hC : ∀ (m : Mem Bool) (a : Addr) (c : Cell), setCell (list_initialize m false) a c = list_initialize (setCell m a c) false :=
    fun _ _ _ => rfl
  have hL : ∀ m : Mem Bool, (list_initialize m false).cell = m.cell := fun _ => rfl
  have hH : ∀ m : Mem Bool, (list_initialize m false).hdr true = m.hdr true := fun _ => rfl
  simp only [list_insert, hC, hL]
  cases r1 <;> cases r2 <;> simp only [hC, hL, hS, hH, hT]

theorem init_tidy (counts : List Nat) (h : Heap) {h' : Heap} (e : initialize_synclist true counts (tidy h) = .ok h') :
    ∃ h1, initialize_synclist true counts h = .ok h1 ∧ tidy h1 = h' := by
  have h0 : ({ tidy h with links := list_initialize (tidy h).links true } : Heap) =
      tidy { h with links := list_initialize h.links true } := by
    simp only [tidy, list_initialize, setHdr, Heap.mk.injEq, Mem.mk.injEq, true_and, and_true]
    funext j; cases j <;> rfl
  simp only [initialize_synclist] at e ⊢
  rw [h0] at e
  generalize ({ h with links := list_initialize h.links true } : Heap) = g at e ⊢
  rw [create_tidy] at e
  generalize create_sync counts.length g = ag at e ⊢
  obtain ⟨a, g1⟩ := ag
  simp only at e ⊢
  obtain ⟨g2', hs, e⟩ := bind_eq_ok.1 e
  obtain ⟨g2, hs2, rfl⟩ := setSubstrs_tidy _ _ _ hs
  · rw [hs2]
    simp only [bind_ok] at e ⊢
    rw [show valid_sync counts.length (tidy g2) a = valid_sync counts.length g2 a from rfl] at e
    obtain ⟨b, eb, e⟩ := bind_eq_ok.1 e
    rw [eb]
    simp only [bind_ok]
    cases b with
    | true =>
      simp only [if_true] at e ⊢
      simp only [insert_first, insert] at e ⊢
      rw [show (tidy g2).links.hdr true = g2.links.hdr true from rfl] at e
      rw [show live (tidy g2) = live g2 from rfl] at e
      split at e
      · rename_i hl
        rw [if_pos hl]
        refine ⟨_, rfl, ?_⟩
        simp only [Res.ok.injEq] at e
        rw [← e]
        simp only [tidy, insert_tidy]
      · simp at e
    | false =>
      simp only [Bool.false_eq_true, if_false, destroy_sync] at e ⊢
      rw [show obj (tidy g2) a = obj g2 a from rfl] at e
      obtain ⟨o, eo, e⟩ := bind_eq_ok.1 e
      rw [eo]
      simp only [bind_ok]
      obtain ⟨g3, e3, e⟩ := bind_eq_ok.1 e
      simp only [freeSubs] at e3 ⊢
      rw [show (tidy g2).subs = g2.subs from rfl] at e3
      split at e3
      · simp at e3
      · simp only [bind_ok]
        simp only [Res.ok.injEq] at e3
        subst e3
        simp only [freeSync] at e ⊢
        rw [show (tidy g2).sync = g2.sync from rfl] at e
        split at e
        · simp at e
        · refine ⟨_, rfl, ?_⟩
          simp only [Res.ok.injEq] at e
          rw [← e]; rfl

/-- The headers of the lists need not be initialized. -/
theorem transpose_heap (hdr : Bool → Hdr) (c d : List Nat) :
    ∃ h' s val k y, transpose_sync true false c d (Heap.start hdr) = .ok h' ∧ R h' s [] val (Cells k y.cells) k ∧
      Sync.transpose_sync c d = .ok y ∧ (s true).map val = y.items1 ∧ (s false).map val = y.items2 ∧ Low s val k := by
  obtain ⟨y, ey, _⟩ := transpose_spec c d
  have r0 : R { tidy (Heap.start hdr) with links := list_initialize (tidy (Heap.start hdr)).links true } (fun _ => []) []
      (fun _ => ⟨[], none⟩) (Cells 0 (fun _ => 0)) 0 := by
    have := start_rep (fun _ => ⟨none, none, none, 0⟩) (fun _ => rfl)
    have he : ({ tidy (Heap.start hdr) with links := list_initialize (tidy (Heap.start hdr)).links true } : Heap) =
        Heap.start (fun _ => ⟨none, none, none, 0⟩) := by
      simp only [tidy, Heap.start, list_initialize, setHdr, Heap.mk.injEq, Mem.mk.injEq, true_and, and_true]
      funext j; cases j <;> rfl
    rw [he]; exact this
  obtain ⟨g1, xs, v1, e1, r1, m1, _⟩ := r0.initialize (l := true) rfl [c.length]
  obtain ⟨h1, e1', rfl⟩ := init_tidy _ _ e1
  obtain ⟨h2, ys, v2, e2, r2, m2, o2⟩ := R.initialize (h := h1) (l := false) r1 (by rw [upd_ne _ _ (by simp)]) [d.length]
  have s1 : upd (upd (fun _ => []) true xs) false ys true = xs := by rw [upd_ne _ _ (by simp), upd_same]
  have s2 : upd (upd (fun _ => []) true xs) false ys false = ys := upd_same _ _ _
  have m1' : xs.map v2 = Sync.initialize_synclist [c.length] := by
    rw [← m1]
    exact List.map_congr_left (fun b hb => o2 b (in_list (l := true) (by rw [upd_same]; exact hb)))
  have hnone : ∀ n, ∀ x ∈ Sync.initialize_synclist [n], x.mtch = none := by
    intro n x hx
    simp only [Sync.initialize_synclist] at hx
    split at hx
    · rw [List.mem_singleton] at hx; rw [hx]
    · simp at hx
  have low : Low (upd (upd (fun _ => []) true xs) false ys) v2 0 := by
    intro j b hb q hq
    exfalso
    cases j with
    | true =>
      rw [s1] at hb
      have := hnone c.length (v2 b) (by rw [← m1']; exact List.mem_map_of_mem hb)
      rw [this] at hq; simp at hq
    | false =>
      rw [s2] at hb
      have := hnone d.length (v2 b) (by rw [← m2]; exact List.mem_map_of_mem hb)
      rw [this] at hq; simp at hq
  have ey' := ey
  simp only [Sync.transpose_sync] at ey'
  obtain ⟨⟨L1, L2⟩, eL, ey'⟩ := bind_eq_ok.1 ey'
  obtain ⟨h3, s3, v3, k3, e3, r3, low3, eL3⟩ := trans_spec c d c.length h2 _ v2 0 (L1, L2) r2 low (by rw [s1, s2, m1', m2]; exact eL)
  obtain ⟨h4, e4, r4⟩ := r3.number_matches (l := true) (low3 true)
  simp only [Prod.mk.injEq] at eL3
  simp only [pure_eq, Res.ok.injEq] at ey'
  refine ⟨h4, s3, v3, k3, y, ?_, ?_, ey, ?_, ?_, low3⟩
  · simp only [Heap.transpose_sync, e1', bind_ok, e2, e3, e4]
  · rw [← ey', eL3.1]; exact r4
  · rw [← ey', eL3.1]
  · rw [← ey', eL3.2]

end Ocr.Heap
