import Verif.Proof.HeapSync
import Verif.Proof.Synchronize

/-! # recursive_sync and synchronize on the heap -/

namespace Ocr.Sync
open Text Res

/-- sync.c:203-215 within an item that has no empty region. -/
theorem match_step {text0 : List Nat} {more : List (List Nat)} {pre post : List Sync} {sync : Sync} {next : Nat}
    (h : SInv (text0 :: more) (pre ++ sync :: post) next) {sub0 : Substr} {subs : List Substr} (hsub : sync.substr = sub0 :: subs)
    (hany : ¬ sync.substr.any (fun s => s.length = 0) = true) :
    ∃ r, matchTexts text0 (more.zip subs) [sub0.start] sub0.length = .ok r ∧
      ∀ start len, r = some (start, len) → MI (fun j => (text0 :: more).getD j []) sync.sub (text0 :: more).length start len := by
  have hwid := h.al.width sync (by simp)
  have hs0 : sync.sub 0 = sub0 := by simp [Sync.sub, hsub]
  have hnz : ∀ t, t < (text0 :: more).length → 0 < (sync.sub t).length := by
    intro t ht
    have b := item_bounds h.al ht
    have : (sync.sub t).length ≠ 0 := by
      intro e
      apply hany
      rw [List.any_eq_true]
      refine ⟨sync.sub t, ?_, by simpa using e⟩
      have ht' : t < sync.substr.length := by omega
      simp [Sync.sub, ht']
    omega
  have hzip : more.zip subs = (List.range' 1 more.length).map (fun j => ((text0 :: more).getD j [], sync.sub j)) := by
    have hl : subs.length = more.length := by rw [hsub] at hwid; simpa using hwid
    apply List.ext_getElem
    · simp [hl]
    · intro i h1 h2
      simp at h1 h2
      have g1 : i < more.length := by omega
      have g2 : i < subs.length := by omega
      simp [Nat.add_comm 1 i, Sync.sub, hsub, g1, g2]
  have b0 := item_bounds h.al (t := 0) (by simp)
  have hn0 := hnz 0 (by simp)
  have hMI : MI (fun j => (text0 :: more).getD j []) sync.sub 1 [sub0.start] sub0.length := by
    rw [hs0] at b0 hn0
    refine ⟨rfl, le_refl _, hn0, ?_, ?_, ?_, ?_⟩
    · intro j hj
      have : j = 0 := by omega
      subst this
      rw [hs0]
      simp only [List.getD_cons_zero]
      omega
    · intro j h1 h2; omega
    · intro hall
      have := (hall 0 (by omega)).1
      rw [hs0] at this
      simp only [List.getD_cons_zero] at this
      omega
    · intro hall
      have := (hall 0 (by omega)).1
      rw [hs0] at this
      simp only [List.getD_cons_zero] at this
      omega
  obtain ⟨r, e, hr⟩ := matchTexts_spec (T := fun j => (text0 :: more).getD j []) (S := sync.sub) (N := (text0 :: more).length)
    (by
      intro j hj
      have b := item_bounds h.al hj
      have : (text0 :: more).getD j [] = (text0 :: more)[j] := by
        rw [List.getD_eq_getElem?_getD, List.getElem?_eq_getElem hj]; rfl
      rw [this]
      exact ⟨b.1, b.2.2.2⟩) more.length 1 [sub0.start] sub0.length (by simp; omega) hMI
  simp only [List.getD_cons_zero] at e
  rw [← hzip] at e
  exact ⟨r, e, hr⟩

end Ocr.Sync

namespace Ocr.Heap
open Text Res Sync CList

variable {h : Heap} {s : Abs Bool} {ex : List Addr} {val : Addr → Sync} {longs : Addr → Option Int} {k : Nat} {a : Addr} {l : Bool}

theorem cells_succ (k : Nat) : (fun x => if x = k then some 0 else Cells k (fun _ => 0) x) = Cells (k + 1) (fun _ => 0) := by
  funext x
  simp only [Cells]
  by_cases hx : x = k
  · simp [hx]
  · by_cases h2 : x < k
    · simp [hx, h2, Nat.lt_succ_of_lt h2]
    · have : ¬ x < k + 1 := by omega
      simp [hx, h2, this]

theorem opt_length (x : Sync) : opt x = [] ∨ opt x = [x] := by
  unfold opt; split
  · exact Or.inr rfl
  · exact Or.inl rfl

theorem recursive_spec (l : Bool) {texts : List (List Nat)} (hN : 2 ≤ texts.length) : ∀ (fl : Nat) (h : Heap) (s : Abs Bool)
    (val : Addr → Sync) (k : Nat) (a : Addr) (ys zs : List Addr), R h s [] val (Cells k (fun _ => 0)) k → s l = ys ++ a :: zs →
    SInv texts ((s l).map val) k → (val a).mtch = none → ((val a).sub 0).length < fl →
    ∃ h' new val' k', recursive_sync l texts fl a h = .ok h' ∧ R h' (upd s l (ys ++ (new ++ zs))) [] val' (Cells k' (fun _ => 0)) k' ∧
      Sync.recursive_sync texts fl ys.length ((s l).map val) k = .ok ((ys ++ (new ++ zs)).map val', k') ∧
      (∀ b ∈ ys ++ zs, val' b = val b) ∧ SInv texts ((ys ++ (new ++ zs)).map val') k' := by
  intro fl
  induction fl with
  | zero =>
    intro h s val k a ys zs r e f hm hf
    rw [e, List.map_append, List.map_cons] at f
    have := item_bounds f.al (t := 0) (by omega)
    omega
  | succ fl ih =>
    intro h s val k a ys zs r e f hmn hf
    have ha : In s [] a := in_list (l := l) (by simp [e])
    have hnd := (r.inv.rep l).nodup
    rw [e] at hnd
    have hna := (List.nodup_cons.1 (List.nodup_middle.1 hnd)).1
    have hnot : ∀ b ∈ ys ++ zs, b ≠ a := by rintro b hb rfl; exact hna hb
    have f' := f
    rw [e, List.map_append, List.map_cons] at f'
    have hwid : (val a).substr.length = texts.length := f'.al.width (val a) (by simp)
    have hget : ((s l).map val)[ys.length]? = some (val a) := by rw [e]; simp
    have stay : ∃ h' new val' k', Res.ok h = .ok h' ∧ R h' (upd s l (ys ++ (new ++ zs))) [] val' (Cells k' (fun _ => 0)) k' ∧
        Res.ok ((s l).map val, k) = .ok ((ys ++ (new ++ zs)).map val', k') ∧
        (∀ b ∈ ys ++ zs, val' b = val b) ∧ SInv texts ((ys ++ (new ++ zs)).map val') k' := by
      refine ⟨h, [a], val, k, rfl, ?_, by simp [e], fun _ _ => rfl, by simpa using f'⟩
      rw [upd_self (by simpa using e)]; exact r
    obtain ⟨text0, more, rfl⟩ : ∃ x y, texts = x :: y := by
      cases texts with
      | nil => simp at hN
      | cons x y => exact ⟨x, y, rfl⟩
    unfold Sync.recursive_sync
    simp only [Heap.recursive_sync]
    rw [hget, r.substrs ha hwid]
    simp only [bind_ok]
    by_cases hz : (val a).substr.any (fun s => s.length = 0) = true
    · rw [if_pos hz, if_pos hz]
      exact stay
    · rw [if_neg hz, if_neg hz]
      obtain ⟨sub0, subs, hsub⟩ : ∃ x y, (val a).substr = x :: y := by
        cases hc : (val a).substr with
        | nil => simp [hc] at hwid
        | cons x y => exact ⟨x, y, rfl⟩
      obtain ⟨m, em, hm⟩ := match_step f' hsub hz
      rw [hsub]
      simp only
      rw [em]
      simp only [bind_ok]
      cases m with
      | none => exact stay
      | some m =>
        obtain ⟨start, len⟩ := m
        simp only
        have hm := hm start len rfl
        have hs : start.length = (text0 :: more).length := hm.len
        obtain ⟨length, hlength⟩ : ∃ n : Nat, len = n := ⟨len.toNat, by have := hm.pos; omega⟩
        subst hlength
        obtain ⟨hinv, hl, hrt, lt1, lt2⟩ := split_inv hN f' hmn hm
        obtain ⟨h1, e1, r1, _⟩ := r.newLong
        rw [cells_succ] at r1
        obtain ⟨h2, lf, rt, v2, e2, r2, ho, va, ml, mr⟩ := r1.save_match e hwid hs length k
        have ml : lf.map v2 = opt (leftOf (val a) start) := ml
        have mr : rt.map v2 = opt (rightOf (val a) start length) := mr
        have hys : ys.map v2 = ys.map val := List.map_congr_left (fun b hb => ho b (in_list (l := l) (by rw [e]; simp [hb]))
          (hnot b (by simp [hb])))
        have hzs : zs.map v2 = zs.map val := List.map_congr_left (fun b hb => ho b (in_list (l := l) (by rw [e]; simp [hb]))
          (hnot b (by simp [hb])))
        have hsm : Sync.save_match ((s l).map val) ys.length start length k = .ok ((ys ++ (lf ++ a :: (rt ++ zs))).map v2) := by
          have h3 := seq_save_match (ys := ys.map val) (zs := zs.map val) (x := val a) (hs.trans hwid.symm) length k
          rw [e, List.map_append, List.map_cons]
          rw [List.length_map] at h3
          rw [h3]
          simp only [List.map_append, List.map_cons, hys, hzs, va, ml, mr]
          rfl
        rw [hsm, e1]
        simp only [bind_ok, e2]
        have hi2 : SInv (text0 :: more) ((ys ++ (lf ++ a :: (rt ++ zs))).map v2) (k + 1) := by
          simp only [List.map_append, List.map_cons, hys, hzs, va, ml, mr]
          have hmid : midPart start length k = midOf start length k := rfl
          rw [hmid]
          simpa using hinv
        have vm : (v2 a).mtch = some k := by rw [va]; rfl
        have fi : ∀ (xs : List Addr) (v : Addr → Sync) (ws : List Addr), ((xs ++ a :: ws).map v |>.filterMap (·.mtch)).Nodup → (v a).mtch = some k →
            ((xs ++ a :: ws).map v).findIdx (fun x => x.mtch = some k) = xs.length := by
          intro xs v ws hn hv
          rw [List.map_append, List.map_cons] at hn ⊢
          rw [findIdx_mid hv hn, List.length_map]
        have esplit : ys ++ (lf ++ a :: (rt ++ zs)) = (ys ++ lf) ++ a :: (rt ++ zs) := by simp
        have fi2 := fi (ys ++ lf) v2 (rt ++ zs) (by rw [← esplit]; exact hi2.nd) vm
        rw [← esplit] at fi2
        rw [fi2]
        have ep : Heap.prev h2 a = .ok (ys ++ lf).getLast? := r2.prev (l := l) (by rw [upd_same]; exact esplit)
        rw [ep]
        simp only [bind_ok]
        -- the left part
        have left : ∃ h3 newL v3 k3, whenSome (ys ++ lf).getLast? (Heap.recursive_sync l (text0 :: more) fl) h2 = .ok h3 ∧
            R h3 (upd s l (ys ++ (newL ++ a :: (rt ++ zs)))) [] v3 (Cells k3 (fun _ => 0)) k3 ∧
            (if (ys ++ lf).length > 0 then Sync.recursive_sync (text0 :: more) fl ((ys ++ lf).length - 1)
              ((ys ++ (lf ++ a :: (rt ++ zs))).map v2) (k + 1) else pure ((ys ++ (lf ++ a :: (rt ++ zs))).map v2, k + 1)) =
              .ok ((ys ++ (newL ++ a :: (rt ++ zs))).map v3, k3) ∧
            (∀ b ∈ ys ++ a :: (rt ++ zs), v3 b = v2 b) ∧
            SInv (text0 :: more) ((ys ++ (newL ++ a :: (rt ++ zs))).map v3) k3 := by
          rcases opt_length (leftOf (val a) start) with hlo | hlo
          · have hy := hl hlo
            rw [hlo] at ml
            have hlf : lf = [] := by simpa using ml
            have hy' : ys = [] := by simpa using hy
            subst hy' hlf
            refine ⟨h2, [], v2, k + 1, rfl, by simpa using r2, by simp, fun _ _ => rfl, by simpa using hi2⟩
          · rw [hlo] at ml
            obtain ⟨p, hp⟩ : ∃ p, lf = [p] := by
              have := congrArg List.length ml
              exact List.length_eq_one_iff.1 (by simpa using this)
            subst hp
            have hvp : v2 p = leftOf (val a) start := by simpa using ml
            obtain ⟨h3, newL, v3, k3, i1, i2, i3, i4, i5⟩ := ih h2 _ v2 (k + 1) p ys (a :: (rt ++ zs)) r2 (by rw [upd_same]; simp)
              (by rw [upd_same]; exact hi2) (by rw [hvp]; rfl) (by rw [hvp]; omega)
            rw [upd_same] at i3
            rw [upd_upd] at i2
            refine ⟨h3, newL, v3, k3, by simpa [whenSome] using i1, i2, ?_, i4, i5⟩
            rw [if_pos (by simp)]
            simpa using i3
        obtain ⟨h3, newL, v3, k3, l1, l2, l3, l4, l5⟩ := left
        rw [l3, l1]
        simp only [bind_ok]
        have esplit3 : ys ++ (newL ++ a :: (rt ++ zs)) = (ys ++ newL) ++ a :: (rt ++ zs) := by simp
        have vm3 : (v3 a).mtch = some k := by rw [l4 a (by simp)]; exact vm
        have fi3 := fi (ys ++ newL) v3 (rt ++ zs) (by rw [← esplit3]; exact l5.nd) vm3
        rw [← esplit3] at fi3
        rw [fi3]
        have en : Heap.next h3 a = .ok (rt ++ zs).head? := l2.next (l := l) (by rw [upd_same]; exact esplit3)
        rw [en]
        simp only [bind_ok]
        rcases opt_length (rightOf (val a) start length) with hro | hro
        · have hz' := hrt hro
          rw [hro] at mr
          have hrt' : rt = [] := by simpa using mr
          have hz'' : zs = [] := by simpa using hz'
          subst hrt' hz''
          rw [if_neg (by simp; omega)]
          refine ⟨h3, newL ++ [a], v3, k3, rfl, by simpa using l2, by simp, ?_, by simpa using l5⟩
          intro b hb
          rw [l4 b (by simp at hb ⊢; exact Or.inl hb)]
          exact ho b (in_list (l := l) (by rw [e]; simp at hb; simp [hb])) (hnot b hb)
        · rw [hro] at mr
          obtain ⟨p, hp⟩ : ∃ p, rt = [p] := by
            have := congrArg List.length mr
            exact List.length_eq_one_iff.1 (by simpa using this)
          subst hp
          have hvp : v2 p = rightOf (val a) start length := by simpa using mr
          have hvp3 : v3 p = rightOf (val a) start length := by rw [l4 p (by simp), hvp]
          obtain ⟨h4, newR, v4, k4, i1, i2, i3, i4, i5⟩ := ih h3 _ v3 k3 p (ys ++ (newL ++ [a])) zs l2 (by rw [upd_same]; simp)
            (by rw [upd_same]; exact l5) (by rw [hvp3]; rfl) (by rw [hvp3]; omega)
          rw [upd_same] at i3
          rw [upd_upd] at i2
          rw [if_pos (by simp; omega)]
          refine ⟨h4, newL ++ a :: newR, v4, k4, by simpa [whenSome] using i1, by simpa using i2, ?_, ?_, by simpa using i5⟩
          · simpa [Nat.add_assoc] using i3
          · intro b hb
            rw [i4 b (by simp at hb ⊢; tauto), l4 b (by simp at hb ⊢; tauto)]
            exact ho b (in_list (l := l) (by rw [e]; simp at hb ⊢; tauto)) (hnot b hb)

/-! ## synchronize -/

theorem start_rep (hdr : Bool → Hdr) (h1 : ∀ j, hdr j = ⟨none, none, none, 0⟩) :
    R (Heap.start hdr) (fun _ => []) [] (fun _ => ⟨[], none⟩) (Cells 0 (fun _ => 0)) 0 := by
  refine ⟨inv_init _ (by simpa [Heap.start] using h1), by simp, by simp, ?_, ?_, ?_, fun _ _ => ⟨rfl, rfl⟩, rfl, ?_, rfl⟩
  · rintro a (⟨j, hj⟩ | hj) <;> simp at hj
  · rintro a (⟨j, hj⟩ | hj) <;> simp at hj
  · rintro a (⟨j, hj⟩ | hj) <;> simp at hj
  · funext x; simp [Heap.start, Cells]

theorem synchronize_heap (l : Bool) {h : Heap} {val : Addr → Sync}
    (r0 : R { h with links := list_initialize h.links l } (fun _ => []) [] val (Cells 0 (fun _ => 0)) 0)
    (texts : List (List Nat)) (hN : 2 ≤ texts.length) (hM : texts.length ≤ 16) :
    ∃ h' xs val' k y, synchronize l texts h = .ok h' ∧ R h' (upd (fun _ => []) l xs) [] val' (Cells k y.cells) k ∧
      Sync.synchronize texts = .ok y ∧ xs.map val' = y.items ∧ ∀ b ∈ xs, ∀ c, (val' b).mtch = some c → c < k := by
  obtain ⟨h1, xs, v1, e1, r1, m1, _⟩ := r0.initialize rfl (texts.map List.length)
  have hlen : ¬ (texts.length < MIN_STREAMS ∨ texts.length > MAX_STREAMS) := by simp only [MIN_STREAMS, MAX_STREAMS]; omega
  simp only [Heap.synchronize, Sync.synchronize]
  rw [if_neg hlen, if_neg hlen, e1]
  simp only [bind_ok]
  rw [r1.first, upd_same]
  have hinit := initial_alignment texts
  rw [← m1] at hinit ⊢
  have sub : ∃ h2 ys v2 k, whenSome xs.head? (Heap.recursive_sync l texts ((texts.headD []).length + 1)) h1 = .ok h2 ∧
      R h2 (upd (fun _ => []) l ys) [] v2 (Cells k (fun _ => 0)) k ∧
      (if xs.map v1 ≠ [] then Sync.recursive_sync texts ((texts.headD []).length + 1) 0 (xs.map v1) 0 else pure (xs.map v1, 0)) =
        .ok (ys.map v2, k) ∧ ∀ b ∈ ys, ∀ c, (v2 b).mtch = some c → c < k := by
    cases xs with
    | nil => exact ⟨h1, [], v1, 0, rfl, r1, rfl, by simp⟩
    | cons a xs =>
      have hx : xs = [] ∧ v1 a = ⟨(texts.map List.length).map (fun (c : Nat) => (⟨0, (c : Int) - 1, (c : Int)⟩ : Substr)), none⟩ := by
        simp only [Sync.initialize_synclist] at m1
        split at m1
        · simp only [List.map_cons, List.cons.injEq, List.map_eq_nil_iff] at m1
          exact ⟨m1.2, m1.1⟩
        · simp at m1
      obtain ⟨rfl, hv⟩ := hx
      have hS : SInv texts ((upd (fun _ => []) l [a] l).map v1) 0 := by
        rw [upd_same]
        refine ⟨hinit, by simp [hv], by simp [hv], by simp⟩
      have b := item_bounds (pre := []) (post := []) (s := v1 a) (by simpa using hinit) (t := 0) (by omega)
      have hhead : (texts.headD []).length = (texts[0]'(by omega)).length := by
        cases texts with
        | nil => simp at hN
        | cons x y => rfl
      obtain ⟨h2, new, v2, k, e2, r2, e3, _, f2⟩ := recursive_spec l hN ((texts.headD []).length + 1) h1 _ v1 0 a [] [] r1
        (by rw [upd_same]; rfl) hS (by rw [hv]) (by rw [hhead]; push_cast; omega)
      rw [upd_upd] at r2
      rw [upd_same] at e3
      refine ⟨h2, new, v2, k, by simpa [whenSome] using e2, by simpa using r2, by simpa using e3, ?_⟩
      intro b hb c hc
      exact f2.lt c (List.mem_filterMap.2 ⟨v2 b, by simp; exact ⟨b, hb, rfl⟩, hc⟩)
  obtain ⟨h2, ys, v2, k, e2, r2, e3, low⟩ := sub
  rw [e2, e3]
  simp only [bind_ok]
  obtain ⟨h3, e4, r3⟩ := r2.number_matches (l := l) (by rw [upd_same]; exact low)
  rw [upd_same] at r3
  exact ⟨h3, ys, v2, k, _, e4, r3, rfl, rfl, low⟩

end Ocr.Heap
