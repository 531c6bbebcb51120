import Verif.Model.Paths
import Verif.Proof.HeapTranspose

/-!
# The paths of fastukk_sync on a heap: refinement of the model over lists
-/

namespace Ocr.Paths
open Text Res Sync CList

/-- The lists are `s`, and the objects of the lists are those that are allocated, with contents `pv` and `dv`. -/
structure PR (P : PHeap) (s : Abs Bool) (pv : Addr → PathObj) (dv : Addr → Int) : Prop where
  inv   : Inv P.links s
  path  : ∀ a, P.path a = if a ∈ s true then some (pv a) else none
  diag  : ∀ a, P.diag a = if a ∈ s false then some (dv a) else none
  below : ∀ l, ∀ a ∈ s l, a < P.next

variable {P : PHeap} {s : Abs Bool} {pv : Addr → PathObj} {dv : Addr → Int} {x : Addr} {l : Bool}

def putP (pv : Addr → PathObj) (a : Addr) (o : PathObj) : Addr → PathObj := fun b => if b = a then o else pv b
def putD (dv : Addr → Int) (a : Addr) (v : Int) : Addr → Int := fun b => if b = a then v else dv b

theorem PR.pobj (r : PR P s pv dv) (hx : x ∈ s true) : pobj P x = .ok (pv x) := by
  simp [Paths.pobj, r.path, hx]

theorem PR.live (r : PR P s pv dv) (hx : x ∈ s l) : Paths.live P l (some x) = true := by
  cases l <;> simp [Paths.live, r.path, r.diag, hx]

theorem PR.live_opt (r : PR P s pv dv) {p : Option Addr} (hp : ∀ a, p = some a → a ∈ s l) : Paths.live P l p = true := by
  cases p with
  | none => rfl
  | some a => exact r.live (hp a rfl)

theorem PR.fresh (r : PR P s pv dv) (l : Bool) : P.next ∉ s l := fun h => Nat.lt_irrefl _ (r.below l _ h)

theorem PR.cell (r : PR P s pv dv) {ys zs : List Addr} (e : s l = ys ++ x :: zs) : P.links.cell x = ⟨ys.getLast?, zs.head?⟩ := by
  have hs := (r.inv.rep l).seg
  rw [e] at hs
  exact seg_mid hs

theorem inv_setCell {m : Mem Bool} {s : Abs Bool} (h : Inv m s) {a : Addr} (ha : ∀ l, a ∉ s l) (c : Cell) : Inv (setCell m a c) s := by
  refine ⟨fun l => (h.rep l).frame (fun b hb => ?_) rfl, h.disj⟩
  have : b ≠ a := by rintro rfl; exact ha l hb
  simp [setCell, this]

/-- The contents of the links do not depend on the rest. -/
theorem PR.numbers (r : PR P s pv dv) (mn mx : Int) : PR { P with min_k := mn, max_k := mx } s pv dv := ⟨r.inv, r.path, r.diag, r.below⟩

/-- A new diagonal is put at one of the ends, after the path `x` has been changed. -/
theorem PR.addDiag (r : PR P s pv dv) (hx : x ∈ s true) {ys zs : List Addr} (e : s false = ys ++ zs) (i : Int) (o : PathObj) :
    ∃ P', (setPath (newDiag i P).2 x o >>= fun h => insert h false ys.getLast? P.next zs.head?) = .ok P' ∧
      PR P' (upd s false (ys ++ P.next :: zs)) (putP pv x o) (putD dv P.next i) ∧ P'.arr = P.arr ∧ P'.nextArr = P.nextArr ∧
      P'.min_k = P.min_k ∧ P'.max_k = P.max_k := by
  have hf := r.fresh
  have hne : ∀ l, ∀ a ∈ s l, a ≠ P.next := by rintro l a ha rfl; exact hf l ha
  refine ⟨{ P with
      links := list_insert (setCell P.links P.next ⟨none, none⟩) false ys.getLast? P.next zs.head?
      path := fun y => if y = x then some o else P.path y
      diag := fun y => if y = P.next then some i else P.diag y
      next := P.next + 1 }, ?_, ?_, rfl, rfl, rfl, rfl⟩
  · have hp : Paths.pobj (newDiag i P).2 x = .ok (pv x) := by
      have := r.pobj hx
      simpa [Paths.pobj, newDiag] using this
    simp only [setPath, hp, bind_ok, pure_eq]
    have h1 : ∀ p : Option Addr, (∀ a, p = some a → a ∈ s false) →
        Paths.live { (newDiag i P).2 with path := fun y => if y = x then some o else (newDiag i P).2.path y } false p = true := by
      intro p hp
      cases p with
      | none => rfl
      | some a =>
        have := hp a rfl
        simp [Paths.live, newDiag, hne false a this, r.diag, this]
    have h2 : Paths.live { (newDiag i P).2 with path := fun y => if y = x then some o else (newDiag i P).2.path y } false (some P.next) = true := by
      simp [Paths.live, newDiag]
    rw [Paths.insert, if_pos ⟨h1 _ (fun a ha => by rw [e]; simp [List.mem_of_getLast? ha]), h2,
      h1 _ (fun a ha => by rw [e]; simp [List.mem_of_head? ha])⟩]
    rfl
  · refine ⟨(inv_setCell r.inv hf _).insert false ys zs P.next e hf, ?_, ?_, ?_⟩
    · intro a
      have ht : upd s false (ys ++ P.next :: zs) true = s true := by simp [upd]
      simp only [ht, putP]
      by_cases ha : a = x
      · simp [ha, hx]
      · simp [ha, r.path]
    · intro a
      simp only [upd_same, putD]
      by_cases ha : a = P.next
      · simp [ha]
      · have : a ∈ ys ++ P.next :: zs ↔ a ∈ s false := by rw [e]; simp [ha]
        simp only [ha, if_false, r.diag, this]
    · intro l a ha
      cases l with
      | false =>
        rw [upd_same] at ha
        have : a = P.next ∨ a ∈ s false := by rw [e]; simp at ha ⊢; tauto
        rcases this with rfl | h
        · exact Nat.lt_succ_self _
        · exact Nat.lt_succ_of_lt (r.below false a h)
      | true =>
        simp only [upd, Bool.true_eq_false, if_false] at ha
        exact Nat.lt_succ_of_lt (r.below true a ha)

/-! ## initial_f -/

/-- The path at address `x` is `Q`; its array is that numbered `c + p`. -/
def Is (c : Nat) (P : PHeap) (pv : Addr → PathObj) (x : Addr) (Q : Path) : Prop :=
  pv x = ⟨Q.p, Q.start_k, Q.stop_k, some (c + Q.p.toNat)⟩ ∧ P.arr (c + Q.p.toNat) = some Q.f

def Before (c : Nat) (P : PHeap) (s : Abs Bool) (pv : Addr → PathObj) (x : Option Addr) (Q : Option Path) : Prop :=
  (x = none ∧ Q = none) ∨ ∃ y q, x = some y ∧ Q = some q ∧ y ∈ s true ∧ Is c P pv y q

theorem initialLoop_eq (r : PR P s pv dv) {c : Nat} {Q : Path} (hx : x ∈ s true) (i : Is c P pv x Q) (k : Int) :
    ∀ (n : Nat) (j res : Int) (pk : Option Int), initialLoop P k x n j res pk = Sync.initialLoop k Q n j res pk := by
  intro n
  induction n with
  | zero => intro j res pk; rfl
  | succ n ih =>
    intro j res pk
    simp only [initialLoop, Sync.initialLoop, r.pobj hx, bind_ok, i.1, getArr, i.2, ih]

theorem initial_f_eq (r : PR P s pv dv) {c : Nat} {p : Option Addr} {Q : Option Path} (hb : Before c P s pv p Q) (k : Int) :
    initial_f P k p = Sync.initial_f k Q := by
  rcases hb with ⟨rfl, rfl⟩ | ⟨y, q, rfl, rfl, hy, i⟩
  · rfl
  · simp only [initial_f, Sync.initial_f, r.pobj hy, bind_ok]
    simp only [initialLoop_eq r hy i, i.1]

/-! ## compute_f -/

/-- The state while the cells of path `x` are computed. -/
structure Lev (P : PHeap) (s : Abs Bool) (pv : Addr → PathObj) (dv : Addr → Int) (ys : List Addr) (x : Addr) (p : Int) (S : FState) : Prop where
  rep   : PR P s pv dv
  paths : s true = ys ++ [x]
  obj   : pv x = ⟨p, S.start_k, S.stop_k, none⟩
  diags : (s false).map dv = S.diags
  mn    : P.min_k = S.min_k
  mx    : P.max_k = S.max_k

/-- What is not changed while the cells of path `x` are computed. -/
structure Kept (P P' : PHeap) (s s' : Abs Bool) (pv pv' : Addr → PathObj) (x : Addr) : Prop where
  paths : s' true = s true
  objs  : ∀ y, y ≠ x → pv' y = pv y
  arr   : P'.arr = P.arr
  nextArr : P'.nextArr = P.nextArr

theorem Kept.trans {P P' P'' : PHeap} {s s' s'' : Abs Bool} {pv pv' pv'' : Addr → PathObj} (h : Kept P P' s s' pv pv' x)
    (h' : Kept P' P'' s' s'' pv' pv'' x) : Kept P P'' s s'' pv pv'' x :=
  ⟨h'.paths.trans h.paths, fun y hy => (h'.objs y hy).trans (h.objs y hy), h'.arr.trans h.arr, h'.nextArr.trans h.nextArr⟩

theorem Kept.before {P' : PHeap} {s' : Abs Bool} {pv' : Addr → PathObj} {c : Nat} {y : Option Addr} {Q : Option Path}
    (h : Kept P P' s s' pv pv' x) (hy : y ≠ some x) (hb : Before c P s pv y Q) : Before c P' s' pv' y Q := by
  rcases hb with hb | ⟨z, q, rfl, rfl, hz, i⟩
  · exact Or.inl hb
  · refine Or.inr ⟨z, q, rfl, rfl, by rw [h.paths]; exact hz, ?_, by rw [h.arr]; exact i.2⟩
    rw [h.objs z (by rintro rfl; exact hy rfl)]
    exact i.1

theorem compute_spec {a b : List Nat} {c : Nat} {ys : List Addr} {p : Int} {S S' : FState} {Q : Option Path} {k : Int}
    (L : Lev P s pv dv ys x p S) (hb : Before c P s pv ys.getLast? Q) (e : Sync.compute_f a b p Q k S = .ok S') :
    ∃ P' s' pv' dv', compute_f a b k x P = .ok P' ∧ Lev P' s' pv' dv' ys x p S' ∧ Kept P P' s s' pv pv' x := by
  have hx : x ∈ s true := by rw [L.paths]; simp
  simp only [Sync.compute_f] at e
  obtain ⟨⟨i0, pk⟩, e1, e⟩ := bind_eq_ok.1 e
  obtain ⟨i, e2, e⟩ := bind_eq_ok.1 e
  have hcell := L.rep.cell (l := true) (ys := ys) (zs := []) L.paths
  simp only [compute_f, L.rep.pobj hx, bind_ok, hcell, initial_f_eq L.rep hb, e1, e2]
  rw [L.mn, L.mx, L.obj]
  simp only at e ⊢
  generalize hmn : (if (1 - (p + max (a.length : Int) (b.length - k) - i) + ((b.length : Int) - a.length)) / 2 > (if i = a.length then k + 1 else S.min_k)
    then (1 - (p + max (a.length : Int) (b.length - k) - i) + ((b.length : Int) - a.length)) / 2 else (if i = a.length then k + 1 else S.min_k)) = mn at e ⊢
  generalize hmx : (if ((p + max (a.length : Int) (b.length - k) - i) + ((b.length : Int) - a.length)) / 2 < (if i + k = b.length then k - 1 else S.max_k)
    then ((p + max (a.length : Int) (b.length - k) - i) + ((b.length : Int) - a.length)) / 2 else (if i + k = b.length then k - 1 else S.max_k)) = mx at e ⊢
  have r' := L.rep.numbers mn mx
  have hcount : ((newDiag i { P with min_k := mn, max_k := mx }).2.links.hdr false).count = (s false).length := (L.rep.inv.rep false).count
  have hlast : ((newDiag i { P with min_k := mn, max_k := mx }).2.links.hdr false).last = (s false).getLast? := (L.rep.inv.rep false).last
  have hfirst : ((newDiag i { P with min_k := mn, max_k := mx }).2.links.hdr false).first = (s false).head? := (L.rep.inv.rep false).first
  have hnil : S.diags = [] ↔ (s false).length = 0 := by rw [← L.diags]; simp
  have hfst : (newDiag i { P with min_k := mn, max_k := mx }).1 = P.next := rfl
  have hdv : ∀ z ∈ s false, putD dv P.next i z = dv z := by
    intro z hz
    have : z ≠ P.next := by rintro rfl; exact L.rep.fresh false hz
    simp [putD, this]
  have hfin : ∀ (us vs : List Addr) (o : PathObj) (hd : S'.diags = us.map dv ++ i :: vs.map dv), s false = us ++ vs →
      o = ⟨p, S'.start_k, S'.stop_k, none⟩ → mn = S'.min_k → mx = S'.max_k →
      ∃ P' s' pv' dv', (setPath (newDiag i { P with min_k := mn, max_k := mx }).2 x o >>= fun h => insert h false us.getLast? P.next vs.head?) = .ok P' ∧
        Lev P' s' pv' dv' ys x p S' ∧ Kept P P' s s' pv pv' x := by
    intro us vs o hd hs ho h1 h2
    obtain ⟨P', q1, q2, q3, q4, q5, q6⟩ := r'.addDiag hx hs i o
    refine ⟨P', _, _, _, q1, ⟨q2, by simp [upd, L.paths], by simp [putP, ho], ?_, by rw [q5]; exact h1, by rw [q6]; exact h2⟩,
      ⟨by simp [upd], ?_, q3, q4⟩⟩
    · rw [upd_same, hd, List.map_append, List.map_cons]
      rw [List.map_congr_left (fun z hz => hdv z (by rw [hs]; simp [hz])), List.map_congr_left (fun z hz => hdv z (by rw [hs]; simp [hz]))]
      simp [putD]
    · intro y hy; simp [putP, hy]
  have hswap : ∀ (o : PathObj), (setPath (newDiag i { P with min_k := mn, max_k := mx }).2 x o >>= fun h => insert_last h false P.next) =
      (setPath (newDiag i { P with min_k := mn, max_k := mx }).2 x o >>= fun h => insert h false (s false).getLast? P.next none) := by
    intro o
    simp only [setPath, pure_eq]
    cases hh : Paths.pobj (newDiag i { P with min_k := mn, max_k := mx }).2 x with
    | ok _ => simp only [bind_ok, insert_last, hlast]
    | err _ => rfl
    | ub => rfl
    | fuel => rfl
  have hswap2 : ∀ (o : PathObj), (setPath (newDiag i { P with min_k := mn, max_k := mx }).2 x o >>= fun h => insert_first h false P.next) =
      (setPath (newDiag i { P with min_k := mn, max_k := mx }).2 x o >>= fun h => insert h false none P.next (s false).head?) := by
    intro o
    simp only [setPath, pure_eq]
    cases hh : Paths.pobj (newDiag i { P with min_k := mn, max_k := mx }).2 x with
    | ok _ => simp only [bind_ok, insert_first, hfirst]
    | err _ => rfl
    | ub => rfl
    | fuel => rfl
  rw [hcount, hfst, hswap, hswap2, hswap]
  split at e
  · rename_i h0
    rw [if_pos (by exact_mod_cast hnil.1 h0)]
    simp only [pure_eq, Res.ok.injEq] at e
    subst e
    have hs : s false = [] := by simpa using hnil.1 h0
    have := hfin (s false) [] ⟨p, k, k, none⟩ (by simp [hs]) (by simp) rfl rfl rfl
    exact this
  · rename_i h0
    rw [if_neg (by intro hh; exact h0 (hnil.2 (by exact_mod_cast hh)))]
    split at e
    · rename_i h1
      rw [if_pos h1]
      simp only [pure_eq, Res.ok.injEq] at e
      subst e
      exact hfin [] (s false) ⟨p, k, S.stop_k, none⟩ (by simp [L.diags]) (by simp) rfl rfl rfl
    · rename_i h1
      rw [if_neg h1]
      simp only [pure_eq, Res.ok.injEq] at e
      subst e
      exact hfin (s false) [] ⟨p, S.start_k, k, none⟩ (by simp [L.diags]) (by simp) rfl rfl rfl

/-! ## A level -/

theorem last_ne {ys : List Addr} (hx : x ∉ ys) : ys.getLast? ≠ some x := fun h => hx (List.mem_of_getLast? h)

theorem Lev.notin {ys : List Addr} {p : Int} {S : FState} (L : Lev P s pv dv ys x p S) : x ∉ ys := by
  have := (L.rep.inv.rep true).nodup
  rw [L.paths] at this
  exact fun h => (List.nodup_append.1 this).2.2 x h x (by simp) rfl

theorem down_spec {a b : List Nat} {c : Nat} {p : Int} {Q : Option Path} {ys : List Addr} : ∀ (fl : Nat) (k : Int) (S S' : FState) (P : PHeap)
    (s : Abs Bool) (pv : Addr → PathObj) (dv : Addr → Int), Lev P s pv dv ys x p S → Before c P s pv ys.getLast? Q →
    Sync.downLoop a b p Q fl k S = .ok S' →
    ∃ P' s' pv' dv', downLoop a b p x fl k P = .ok P' ∧ Lev P' s' pv' dv' ys x p S' ∧ Kept P P' s s' pv pv' x := by
  intro fl
  induction fl with
  | zero =>
    intro k S S' P s pv dv L hb e
    rw [Sync.downLoop.eq_def] at e
    rw [downLoop.eq_def]
    simp only at e ⊢
    rw [L.mn]
    split at e
    · simp at e
    · rename_i h0
      rw [if_neg h0]
      simp only [Res.ok.injEq] at e
      subst e
      exact ⟨P, s, pv, dv, rfl, L, rfl, fun _ _ => rfl, rfl, rfl⟩
  | succ fl ih =>
    intro k S S' P s pv dv L hb e
    rw [Sync.downLoop.eq_def] at e
    rw [downLoop.eq_def]
    simp only at e ⊢
    rw [L.mn]
    split at e
    · rename_i h0
      rw [if_pos h0]
      obtain ⟨S1, e1, e⟩ := bind_eq_ok.1 e
      obtain ⟨P1, s1, pv1, dv1, q1, L1, K1⟩ := compute_spec L hb e1
      obtain ⟨P2, s2, pv2, dv2, q2, L2, K2⟩ := ih _ _ _ _ _ _ _ L1 (K1.before (last_ne L.notin) hb) e
      exact ⟨P2, s2, pv2, dv2, by rw [q1, bind_ok]; exact q2, L2, K1.trans K2⟩
    · rename_i h0
      rw [if_neg h0]
      simp only [Res.ok.injEq] at e
      subst e
      exact ⟨P, s, pv, dv, rfl, L, rfl, fun _ _ => rfl, rfl, rfl⟩

theorem up_spec {a b : List Nat} {c : Nat} {p : Int} {Q : Option Path} {ys : List Addr} : ∀ (fl : Nat) (k : Int) (S S' : FState) (P : PHeap)
    (s : Abs Bool) (pv : Addr → PathObj) (dv : Addr → Int), Lev P s pv dv ys x p S → Before c P s pv ys.getLast? Q →
    Sync.upLoop a b p Q fl k S = .ok S' →
    ∃ P' s' pv' dv', upLoop a b p x fl k P = .ok P' ∧ Lev P' s' pv' dv' ys x p S' ∧ Kept P P' s s' pv pv' x := by
  intro fl
  induction fl with
  | zero =>
    intro k S S' P s pv dv L hb e
    rw [Sync.upLoop.eq_def] at e
    rw [upLoop.eq_def]
    simp only at e ⊢
    rw [L.mx]
    split at e
    · simp at e
    · rename_i h0
      rw [if_neg h0]
      simp only [Res.ok.injEq] at e
      subst e
      exact ⟨P, s, pv, dv, rfl, L, rfl, fun _ _ => rfl, rfl, rfl⟩
  | succ fl ih =>
    intro k S S' P s pv dv L hb e
    rw [Sync.upLoop.eq_def] at e
    rw [upLoop.eq_def]
    simp only at e ⊢
    rw [L.mx]
    split at e
    · rename_i h0
      rw [if_pos h0]
      obtain ⟨S1, e1, e⟩ := bind_eq_ok.1 e
      obtain ⟨P1, s1, pv1, dv1, q1, L1, K1⟩ := compute_spec L hb e1
      obtain ⟨P2, s2, pv2, dv2, q2, L2, K2⟩ := ih _ _ _ _ _ _ _ L1 (K1.before (last_ne L.notin) hb) e
      exact ⟨P2, s2, pv2, dv2, by rw [q1, bind_ok]; exact q2, L2, K1.trans K2⟩
    · rename_i h0
      rw [if_neg h0]
      simp only [Res.ok.injEq] at e
      subst e
      exact ⟨P, s, pv, dv, rfl, L, rfl, fun _ _ => rfl, rfl, rfl⟩

theorem level_spec {a b : List Nat} {c : Nat} {p : Nat} {Q : Option Path} {ys : List Addr} {mn mx : Int} {S' : FState}
    (L : Lev P s pv dv ys x p ⟨mn, mx, 0, 0, []⟩) (hb : Before c P s pv ys.getLast? Q)
    (e : Sync.computeLevel a b p Q mn mx = .ok S') :
    ∃ P' s' pv' dv', computeLevel a b p x P = .ok P' ∧ Lev P' s' pv' dv' ys x p S' ∧ Kept P P' s s' pv pv' x := by
  simp only [Sync.computeLevel] at e
  simp only [computeLevel]
  split at e
  · rename_i h0
    rw [if_pos h0]
    obtain ⟨S1, e1, e⟩ := bind_eq_ok.1 e
    obtain ⟨P1, s1, pv1, dv1, q1, L1, K1⟩ := down_spec _ _ _ _ _ _ _ _ L hb e1
    obtain ⟨P2, s2, pv2, dv2, q2, L2, K2⟩ := up_spec _ _ _ _ _ _ _ _ L1 (K1.before (last_ne L.notin) hb) e
    exact ⟨P2, s2, pv2, dv2, by rw [q1, bind_ok]; exact q2, L2, K1.trans K2⟩
  · rename_i h0
    rw [if_neg h0]
    obtain ⟨S1, e1, e⟩ := bind_eq_ok.1 e
    obtain ⟨P1, s1, pv1, dv1, q1, L1, K1⟩ := up_spec _ _ _ _ _ _ _ _ L hb e1
    obtain ⟨P2, s2, pv2, dv2, q2, L2, K2⟩ := down_spec _ _ _ _ _ _ _ _ L1 (K1.before (last_ne L.notin) hb) e
    exact ⟨P2, s2, pv2, dv2, by rw [q1, bind_ok]; exact q2, L2, K1.trans K2⟩

/-! ## The diagonals are moved into the array -/

def putA (arr : Addr → Option (List Int)) (q : Addr) (v : List Int) : Addr → Option (List Int) := fun y => if y = q then some v else arr y

theorem collect_spec {q : Addr} : ∀ (zs : List Addr) (done : List Int) (P : PHeap) (s : Abs Bool), PR P s pv dv → x ∈ s true →
    (pv x).f = some q → s false = zs → P.arr q = some (done ++ List.replicate zs.length 0) →
    ∃ P', collectLoop x zs.length done.length P = .ok P' ∧ PR P' (upd s false []) pv dv ∧ P'.arr = putA P.arr q (done ++ zs.map dv) ∧
      P'.nextArr = P.nextArr ∧ P'.min_k = P.min_k ∧ P'.max_k = P.max_k := by
  intro zs
  induction zs with
  | nil =>
    intro done P s r hx hf hs ha
    refine ⟨P, ?_, ?_, ?_, rfl, rfl, rfl⟩
    · rw [collectLoop.eq_def]; simp only; rw [(r.inv.rep false).first, hs]; rfl
    · rw [Heap.upd_self hs]; exact r
    · funext y
      simp only [putA]
      split
      · rename_i hy; rw [hy, ha]; simp
      · rfl
  | cons d zs ih =>
    intro done P s r hx hf hs ha
    have hcell := r.cell (l := false) (ys := []) (zs := zs) (by rw [hs]; rfl)
    have hd : d ∈ s false := by rw [hs]; simp
    have hnd := (r.inv.rep false).nodup
    rw [hs] at hnd
    have hnd' := List.nodup_cons.1 hnd
    have hxd : d ∉ s true := r.inv.disj false true (by decide) d hd
    have h1 : remove P false d = .ok { P with links := list_remove P.links false d } := by
      rw [remove, if_pos]
      rw [hcell]
      exact ⟨r.live hd, rfl, r.live_opt (fun a ha => by rw [hs]; simp [List.mem_of_head? ha])⟩
    let P1 : PHeap := { P with
      links := list_remove P.links false d
      arr := putA P.arr q ((done ++ [dv d]) ++ List.replicate zs.length 0)
      diag := fun y => if y = d then none else P.diag y }
    have r1 : PR P1 (upd s false zs) pv dv := by
      refine ⟨r.inv.remove false [] zs d (by rw [hs]; rfl), ?_, ?_, ?_⟩
      · intro a; simp only [P1, r.path, upd, Bool.true_eq_false, if_false]
      · intro a
        simp only [P1, upd_same, r.diag, hs]
        by_cases had : a = d
        · simp [had, hnd'.1]
        · simp [had]
      · intro l a hl
        cases l with
        | false => rw [upd_same] at hl; exact r.below false a (by rw [hs]; simp [hl])
        | true => simp only [upd, Bool.true_eq_false, if_false] at hl; exact r.below true a hl
    obtain ⟨P2, q1, r2, q3, q4, q5, q6⟩ := ih (done ++ [dv d]) P1 (upd s false zs) r1 (by simpa [upd] using hx) hf (upd_same _ _ _)
      (by simp [P1, putA])
    refine ⟨P2, ?_, by rw [Heap.upd_upd] at r2; exact r2, ?_, q4, q5, q6⟩
    · rw [List.length_cons, collectLoop.eq_def]
      simp only
      rw [(r.inv.rep false).first, hs]
      simp only [List.head?_cons]
      rw [h1, bind_ok]
      have hp : Paths.pobj { P with links := list_remove P.links false d } x = .ok (pv x) := by
        have := r.pobj hx; simpa [Paths.pobj] using this
      have hg : getDiag { P with links := list_remove P.links false d } d = .ok (dv d) := by
        simp [getDiag, r.diag, hd]
      have hlen : done.length < (done ++ List.replicate (d :: zs).length (0 : Int)).length := by simp
      have hset : (done ++ List.replicate (d :: zs).length (0 : Int)).set done.length (dv d) =
          (done ++ [dv d]) ++ List.replicate zs.length 0 := by
        rw [List.set_append_right _ _ (Nat.le_refl _)]
        simp [List.replicate_succ]
      have hw : setArr { P with links := list_remove P.links false d } (some q) done.length (dv d) =
          .ok { P with links := list_remove P.links false d, arr := putA P.arr q ((done ++ [dv d]) ++ List.replicate zs.length 0) } := by
        simp only [setArr, ha, wr, if_pos hlen, hset, bind_ok, pure_eq]
        rfl
      have hfr : freeDiag { P with links := list_remove P.links false d, arr := putA P.arr q ((done ++ [dv d]) ++ List.replicate zs.length 0) } d =
          .ok P1 := by
        have : P.diag d = some (dv d) := by rw [r.diag, if_pos hd]
        simp only [freeDiag, this]
        rfl
      rw [hp, bind_ok, hg, bind_ok, hf, hw, bind_ok, hfr, bind_ok]
      rw [show done.length + 1 = (done ++ [dv d]).length by simp]
      exact q1
    · rw [q3]
      funext y
      simp only [putA, P1]
      split <;> simp

/-! ## compute_pathlist -/

def Levels : List Path → Prop
  | [] => True
  | Q :: r => Q.p = r.length ∧ Levels r

/-- The list of paths; the arrays allocated are those of the paths. -/
structure Chain (c : Nat) (P : PHeap) (s : Abs Bool) (pv : Addr → PathObj) (dv : Addr → Int) (paths : List Path) : Prop where
  rep    : PR P s pv dv
  diags  : s false = []
  items  : List.Forall₂ (Is c P pv) (s true).reverse paths
  levels : Levels paths
  room   : c + paths.length ≤ P.nextArr
  freed  : ∀ q, ¬ (c ≤ q ∧ q < c + paths.length) → P.arr q = none

theorem levels_lt {Q : Path} : ∀ {paths : List Path}, Levels paths → Q ∈ paths → Q.p.toNat < paths.length
  | [], _, h => by simp at h
  | R :: r, h, hq => by
    rcases List.mem_cons.1 hq with rfl | hq
    · rw [h.1]; simp
    · have := levels_lt h.2 hq
      simp; omega

theorem forall₂_imp_mem {α β : Type} {S T : α → β → Prop} {xs : List α} {ys : List β} (f : List.Forall₂ S xs ys)
    (g : ∀ x ∈ xs, ∀ y ∈ ys, S x y → T x y) : List.Forall₂ T xs ys := by
  induction f with
  | nil => exact .nil
  | cons h _ ih => exact .cons (g _ (by simp) _ (by simp) h) (ih (fun x hx y hy => g x (by simp [hx]) y (by simp [hy])))

theorem Chain.before {c : Nat} {paths : List Path} (C : Chain c P s pv dv paths) : Before c P s pv (s true).getLast? paths.head? := by
  have f := C.items
  rw [← List.head?_reverse]
  cases f' : (s true).reverse with
  | nil => rw [f'] at f; cases f; exact Or.inl ⟨rfl, rfl⟩
  | cons y ys =>
    rw [f'] at f
    cases f with
    | cons h _ => exact Or.inr ⟨y, _, rfl, rfl, by rw [← List.mem_reverse, f']; simp, h⟩

theorem PR.addPath (r : PR P s pv dv) (o : PathObj) :
    ∃ P', (setPath (newPath P).2 P.next o >>= fun h => insert_last h true P.next) = .ok P' ∧
      PR P' (upd s true (s true ++ [P.next])) (putP pv P.next o) dv ∧ P'.arr = P.arr ∧ P'.nextArr = P.nextArr ∧
      P'.min_k = P.min_k ∧ P'.max_k = P.max_k := by
  have hf := r.fresh
  have hne : ∀ l, ∀ a ∈ s l, a ≠ P.next := by rintro l a ha rfl; exact hf l ha
  refine ⟨{ P with
      links := list_insert (setCell P.links P.next ⟨none, none⟩) true (s true).getLast? P.next none
      path := fun y => if y = P.next then some o else P.path y
      next := P.next + 1 }, ?_, ?_, rfl, rfl, rfl, rfl⟩
  · have hp : Paths.pobj (newPath P).2 P.next = .ok ⟨0, 0, 0, none⟩ := by simp [Paths.pobj, newPath]
    simp only [setPath, hp, bind_ok, pure_eq, insert_last]
    have hl : ((newPath P).2.links.hdr true).last = (s true).getLast? := (r.inv.rep true).last
    rw [hl]
    have h1 : Paths.live { (newPath P).2 with path := fun y => if y = P.next then some o else (newPath P).2.path y } true (s true).getLast? = true := by
      cases hh : (s true).getLast? with
      | none => rfl
      | some a =>
        have := List.mem_of_getLast? hh
        simp [Paths.live, newPath, hne true a this, r.path, this]
    have h2 : Paths.live { (newPath P).2 with path := fun y => if y = P.next then some o else (newPath P).2.path y } true (some P.next) = true := by
      simp [Paths.live]
    rw [Paths.insert, if_pos ⟨h1, h2, rfl⟩]
    simp only [newPath, Res.ok.injEq, PHeap.mk.injEq, true_and, and_true]
    funext y
    split <;> rfl
  · refine ⟨(inv_setCell r.inv hf _).insert true (s true) [] P.next (by simp) hf, ?_, ?_, ?_⟩
    · intro a
      simp only [upd_same, putP]
      by_cases ha : a = P.next
      · simp [ha]
      · simp [ha, r.path]
    · intro a
      simp only [upd, Bool.false_eq_true, if_false, r.diag]
    · intro l a ha
      cases l with
      | true =>
        rw [upd_same] at ha
        rcases List.mem_append.1 ha with h | h
        · exact Nat.lt_succ_of_lt (r.below true a h)
        · rw [List.mem_singleton.1 h]; exact Nat.lt_succ_self _
      | false =>
        simp only [upd, Bool.false_eq_true, if_false] at ha
        exact Nat.lt_succ_of_lt (r.below false a ha)

theorem path_spec {a b : List Nat} {c : Nat} : ∀ (fl : Nat) (P : PHeap) (s : Abs Bool) (pv : Addr → PathObj) (dv : Addr → Int)
    (paths paths' : List Path), Chain c P s pv dv paths → P.nextArr = c + paths.length →
    Sync.pathLoop a b fl paths.length P.min_k P.max_k paths = .ok paths' →
    ∃ P' s' pv' dv', pathLoop a b fl paths.length P = .ok P' ∧ Chain c P' s' pv' dv' paths' := by
  intro fl
  induction fl with
  | zero =>
    intro P s pv dv paths paths' C hn e
    rw [Sync.pathLoop.eq_def] at e
    rw [pathLoop.eq_def]
    simp only at e ⊢
    split at e
    · simp at e
    · rename_i h0
      rw [if_neg h0]
      simp only [Res.ok.injEq] at e
      subst e
      exact ⟨P, s, pv, dv, rfl, C⟩
  | succ fl ih =>
    intro P s pv dv paths paths' C hn e
    rw [Sync.pathLoop.eq_def] at e
    rw [pathLoop.eq_def]
    simp only at e ⊢
    split at e
    · rename_i h0
      rw [if_pos h0]
      obtain ⟨S, e1, e⟩ := bind_eq_ok.1 e
      obtain ⟨P1, q1, r1, a1, n1, mn1, mx1⟩ := C.rep.addPath ⟨paths.length, 0, 0, none⟩
      have hfr := C.rep.fresh true
      have L1 : Lev P1 (upd s true (s true ++ [P.next])) (putP pv P.next ⟨paths.length, 0, 0, none⟩) dv (s true) P.next
          (paths.length : Int) ⟨P.min_k, P.max_k, 0, 0, []⟩ :=
        ⟨r1, upd_same _ _ _, by simp [putP], by simp [upd, C.diags], mn1, mx1⟩
      have hb1 : Before c P1 (upd s true (s true ++ [P.next])) (putP pv P.next ⟨paths.length, 0, 0, none⟩) (s true).getLast? paths.head? := by
        rcases C.before with h | ⟨y, Q, h1, h2, h3, h4⟩
        · exact Or.inl h
        · refine Or.inr ⟨y, Q, h1, h2, by rw [upd_same]; simp [h3], ?_, by rw [a1]; exact h4.2⟩
          have : y ≠ P.next := by rintro rfl; exact hfr h3
          simp only [putP, this, if_false]
          exact h4.1
      obtain ⟨P2, s2, pv2, dv2, q2, L2, K2⟩ := level_spec L1 hb1 e1
      have hx2 : P.next ∈ s2 true := by rw [L2.paths]; simp
      have hc2 : (P2.links.hdr false).count = (s2 false).length := (L2.rep.inv.rep false).count
      have na2 : P2.nextArr = c + paths.length := by rw [K2.nextArr, n1, hn]
      -- the array
      let o3 : PathObj := ⟨paths.length, S.start_k, S.stop_k, some (c + paths.length)⟩
      let P3 : PHeap := { P2 with
        arr := putA P2.arr (c + paths.length) (List.replicate (s2 false).length 0)
        nextArr := c + paths.length + 1
        path := fun y => if y = P.next then some o3 else P2.path y }
      have r3 : PR P3 s2 (putP pv2 P.next o3) dv2 := by
        refine ⟨L2.rep.inv, ?_, L2.rep.diag, L2.rep.below⟩
        intro y
        simp only [P3, putP]
        by_cases hy : y = P.next
        · simp [hy, hx2]
        · simp [hy, L2.rep.path]
      obtain ⟨P4, q4, r4, a4, n4, mn4, mx4⟩ := collect_spec (x := P.next) (q := c + paths.length) (s2 false) [] P3 s2 r3 hx2
        (by simp [putP, o3]) rfl (by simp [P3, putA])
      have hcol : collect P.next P2 = .ok P4 := by
        have hnew : newArr (s2 false).length P2 = (c + paths.length, { P2 with arr := putA P2.arr (c + paths.length) (List.replicate (s2 false).length 0), nextArr := c + paths.length + 1 }) := by
          simp only [newArr, na2]; rfl
        have hpo : Paths.pobj { P2 with arr := putA P2.arr (c + paths.length) (List.replicate (s2 false).length 0), nextArr := c + paths.length + 1 } P.next = .ok ⟨paths.length, S.start_k, S.stop_k, none⟩ := by
          have := L2.rep.pobj hx2
          rw [L2.obj] at this
          simpa [Paths.pobj] using this
        simp only [collect, hc2, Int.toNat_natCast, hnew, hpo, bind_ok, setPath, pure_eq]
        exact q4
      have hs4 : upd s2 false [] true = s true ++ [P.next] := by
        rw [show upd s2 false [] true = s2 true by simp [upd], L2.paths]
      have C4 : Chain c P4 (upd s2 false []) (putP pv2 P.next o3) dv2 (⟨paths.length, S.start_k, S.stop_k, S.diags⟩ :: paths) := by
        refine ⟨r4, upd_same _ _ _, ?_, ⟨rfl, C.levels⟩, ?_, ?_⟩
        · rw [hs4, List.reverse_append]
          refine .cons ?_ ?_
          · refine ⟨by simp [putP, o3], ?_⟩
            rw [a4]
            simp [putA, L2.diags]
          · refine forall₂_imp_mem C.items (fun y hy Q hQ i => ?_)
            have hyn : y ≠ P.next := by rintro rfl; exact hfr (by simpa using hy)
            have hlt := levels_lt C.levels hQ
            refine ⟨?_, ?_⟩
            · simp only [putP, hyn, if_false]
              rw [K2.objs y hyn]
              simp only [putP, hyn, if_false]
              exact i.1
            · rw [a4]
              have : ¬ (c + Q.p.toNat = c + paths.length) := by omega
              simp only [putA, this, if_false, P3]
              rw [K2.arr, a1]
              exact i.2
        · rw [n4]; simp only [P3, List.length_cons]; omega
        · intro y hy
          simp only [List.length_cons] at hy
          rw [a4]
          have h1 : ¬ (y = c + paths.length) := by omega
          simp only [putA, h1, if_false, P3]
          rw [K2.arr, a1]
          exact C.freed y (by omega)
      have hmn : P4.min_k = S.min_k := by rw [mn4]; exact L2.mn
      have hmx : P4.max_k = S.max_k := by rw [mx4]; exact L2.mx
      obtain ⟨P5, s5, pv5, dv5, q5, C5⟩ := ih P4 _ _ _ _ paths' C4 (by rw [n4]; simp only [P3, List.length_cons]; omega)
        (by rw [hmn, hmx, List.length_cons]; exact e)
      refine ⟨P5, s5, pv5, dv5, ?_, C5⟩
      have hp0 : Paths.pobj (newPath P).2 P.next = .ok ⟨0, 0, 0, none⟩ := by simp [Paths.pobj, newPath]
      have hfst : (newPath P).1 = P.next := rfl
      rw [hfst, hp0, bind_ok]
      obtain ⟨P0, q0, q1⟩ := bind_eq_ok.1 q1
      rw [q0, bind_ok, q1, bind_ok, q2, bind_ok, hcol, bind_ok]
      exact q5
    · rename_i h0
      rw [if_neg h0]
      simp only [Res.ok.injEq] at e
      subst e
      exact ⟨P, s, pv, dv, rfl, C⟩

/-! ## obtain_matches -/

theorem Chain.pop {c : Nat} {Q : Path} {rest : List Path} (C : Chain c P s pv dv (Q :: rest)) :
    ∃ y ys, s true = ys ++ [y] ∧ Is c P pv y Q ∧ List.Forall₂ (Is c P pv) ys.reverse rest := by
  have f := C.items
  generalize hr : (s true).reverse = xs at f
  cases f with
  | @cons y _ ys _ h f =>
    refine ⟨y, ys.reverse, ?_, h, by rw [List.reverse_reverse]; exact f⟩
    have := congrArg List.reverse hr
    simpa using this

/-- Removing the last path and freeing it with its array. -/
theorem Chain.drop {c : Nat} {Q : Path} {rest : List Path} {y : Addr} {ys : List Addr} (C : Chain c P s pv dv (Q :: rest))
    (hs : s true = ys ++ [y]) (hy : Is c P pv y Q) (f : List.Forall₂ (Is c P pv) ys.reverse rest) :
    ∃ P', (remove P true y >>= fun P => freeArr P (pv y).f >>= fun P => freePath P y) = .ok P' ∧
      Chain c P' (upd s true ys) pv dv rest ∧ P'.next = P.next := by
  have r := C.rep
  have hcell := r.cell (l := true) (ys := ys) (zs := []) hs
  have hmem : y ∈ s true := by rw [hs]; simp
  have hnd := (r.inv.rep true).nodup
  rw [hs] at hnd
  have hyn : y ∉ ys := fun h => (List.nodup_append.1 hnd).2.2 y h y (by simp) rfl
  have h1 : remove P true y = .ok { P with links := list_remove P.links true y } := by
    rw [remove, if_pos]
    rw [hcell]
    exact ⟨r.live hmem, r.live_opt (fun a ha => by rw [hs]; simp [List.mem_of_getLast? ha]), rfl⟩
  have hlev := C.levels
  have hp : Q.p.toNat = rest.length := by rw [hlev.1]; simp
  refine ⟨{ P with
      links := list_remove P.links true y
      arr := fun q => if q = c + Q.p.toNat then none else P.arr q
      path := fun a => if a = y then none else P.path a }, ?_, ⟨⟨?_, ?_, ?_, ?_⟩, ?_, ?_, hlev.2, ?_, ?_⟩, rfl⟩
  · rw [h1, bind_ok]
    have hfa : freeArr { P with links := list_remove P.links true y } (pv y).f = .ok { P with
        links := list_remove P.links true y
        arr := fun q => if q = c + Q.p.toNat then none else P.arr q } := by
      rw [hy.1]
      simp only [freeArr, hy.2]
    rw [hfa, bind_ok]
    have hpy : P.path y = some (pv y) := by rw [r.path, if_pos hmem]
    simp only [freePath, hpy]
  · exact r.inv.remove true ys [] y hs |> fun h => by simpa using h
  · intro a
    simp only [upd_same, r.path, hs]
    by_cases ha : a = y
    · simp [ha, hyn]
    · simp [ha]
  · intro a; simp only [r.diag, upd, Bool.false_eq_true, if_false]
  · intro l a hl
    cases l with
    | true => rw [upd_same] at hl; exact r.below true a (by rw [hs]; simp [hl])
    | false => simp only [upd, Bool.false_eq_true, if_false] at hl; exact r.below false a hl
  · simp [upd, C.diags]
  · rw [upd_same]
    refine forall₂_imp_mem f (fun z hz R hR i => ⟨i.1, ?_⟩)
    have hlt := levels_lt hlev.2 hR
    have : ¬ (c + R.p.toNat = c + Q.p.toNat) := by omega
    simp only [this, if_false]
    exact i.2
  · have := C.room
    simp only [List.length_cons] at this
    show c + rest.length ≤ P.nextArr
    omega
  · intro q hq
    show (if q = c + Q.p.toNat then none else P.arr q) = none
    split
    · rfl
    · exact C.freed q (by simp only [List.length_cons]; omega)

theorem obtain_spec {l : Bool} {c : Nat} : ∀ (paths : List Path) (fl : Nat) (k : Option Int) (P : PHeap) (s : Abs Bool) (h : Heap.Heap)
    (t : Abs Bool) (val : Addr → Sync.Sync) (n : Nat) (L : List Sync.Sync), Chain c P s pv dv paths → paths.length ≤ fl →
    Heap.R h t [] val (Heap.Cells n (fun _ => 0)) n → (∀ b ∈ t l, ∀ q, (val b).mtch = some q → q < n) →
    Sync.obtain_matches paths k n ((t l).map val) = .ok L →
    ∃ P' s' h' xs val' m, obtain_matches l fl k P h = .ok (P', h') ∧ Chain c P' s' pv dv [] ∧
      Heap.R h' (upd t l xs) [] val' (Heap.Cells m (fun _ => 0)) m ∧ xs.map val' = L ∧
      (∀ b ∈ xs, ∀ q, (val' b).mtch = some q → q < m) ∧ (∀ j, j ≠ l → ∀ b ∈ t j, val' b = val b) := by
  intro paths
  induction paths with
  | nil =>
    intro fl k P s h t val n L C hfl r low e
    have hs : s true = [] := by
      have := C.items
      cases hh : (s true).reverse with
      | nil => simpa using hh
      | cons => rw [hh] at this; cases this
    rw [Sync.obtain_matches.eq_def] at e
    simp only [Res.ok.injEq] at e
    refine ⟨P, s, h, t l, val, n, ?_, C, by rw [Heap.upd_self rfl]; exact r, e, low, fun _ _ _ _ => rfl⟩
    rw [obtain_matches.eq_def]
    simp only
    rw [(C.rep.inv.rep true).last, hs]
    rfl
  | cons Q rest ih =>
    intro fl k P s h t val n L C hfl r low e
    cases k with
    | none => rw [Sync.obtain_matches.eq_def] at e; simp at e
    | some k =>
      cases fl with
      | zero => simp at hfl
      | succ fl =>
        obtain ⟨y, ys, hs, hy, f⟩ := C.pop
        have hmem : y ∈ s true := by rw [hs]; simp
        have hcell := C.rep.cell (l := true) (ys := ys) (zs := []) hs
        have hb : Before c P s pv ys.getLast? rest.head? := by
          rw [← List.head?_reverse]
          cases f' : ys.reverse with
          | nil => rw [f'] at f; cases f; exact Or.inl ⟨rfl, rfl⟩
          | cons z zs =>
            rw [f'] at f
            cases f with
            | cons i _ => exact Or.inr ⟨z, _, rfl, rfl, by rw [hs]; simp [← List.mem_reverse (as := ys), f'], i⟩
        rw [Sync.obtain_matches.eq_def] at e
        simp only at e
        obtain ⟨v, e1, e⟩ := bind_eq_ok.1 e
        obtain ⟨⟨st, pk⟩, e2, e⟩ := bind_eq_ok.1 e
        simp only at e
        obtain ⟨P1, q1, C1, n1⟩ := C.drop hs hy f
        obtain ⟨P2, q2, q1⟩ := bind_eq_ok.1 q1
        obtain ⟨P3, q3, q1⟩ := bind_eq_ok.1 q1
        have hpre : ∀ {h0 : Heap.Heap},
            ((if v > st then do
                let sync ← Edo.nonNull (h.links.hdr l).first
                let (c, h) := Heap.newLong h
                Heap.save_match l 2 sync [st, st + k] (v - st) c h
              else pure h) : Res Heap.Heap) = .ok h0 →
            obtain_matches l (fl + 1) (some k) P h = obtain_matches l fl pk P1 h0 := by
          intro h0 hh
          rw [obtain_matches.eq_def]
          simp only
          rw [(C.rep.inv.rep true).last, hs]
          simp only [List.getLast?_append, List.getLast?_singleton, Option.some_or]
          rw [C.rep.pobj hmem, bind_ok]
          have hga : getArr P (pv y).f = .ok Q.f := by rw [hy.1]; simp only [getArr, hy.2]
          have hst : (pv y).start_k = Q.start_k := by rw [hy.1]
          have hin : initial_f P k (P.links.cell y).prev = .ok (st, pk) := by
            rw [hcell, initial_f_eq C.rep hb k]; exact e2
          rw [hga, bind_ok, hst, e1, bind_ok, hin, bind_ok]
          simp only
          rw [hh, bind_ok, q2, bind_ok, q3, bind_ok, q1, bind_ok]
        by_cases hgt : v > st
        · rw [if_pos hgt] at e
          obtain ⟨L1, e3, e⟩ := bind_eq_ok.1 e
          obtain ⟨a, ha⟩ : ∃ a, (t l)[0]? = some a := by
            cases hh : (t l)[0]? with
            | some a => exact ⟨a, rfl⟩
            | none =>
              simp only [Sync.save_match, List.getElem?_map, hh] at e3
              simp at e3
          obtain ⟨h1, w1, r1, _⟩ := r.newLong
          rw [Heap.cells_succ] at r1
          obtain ⟨h2, xs, val', w2, r2, m2, o2, low2⟩ := r1.save_at ha e3
          obtain ⟨P', s', h', xs', val'', m, u1, C', r', m', low', o'⟩ := ih fl pk P1 _ h2 (upd t l xs) val' (n + 1) L C1
            (by simpa using hfl) r2
            (by
              rw [upd_same]
              intro b hb q hq
              rcases low2 b hb q hq with h | ⟨b', hb', h⟩
              · omega
              · exact Nat.lt_succ_of_lt (low b' hb' q h))
            (by rw [upd_same, m2]; exact e)
          refine ⟨P', s', h', xs', val'', m, ?_, C', by rw [Heap.upd_upd] at r'; exact r', m', low', ?_⟩
          · rw [hpre (h0 := h2)]
            · exact u1
            · rw [if_pos hgt, (r.inv.rep l).first]
              have : (t l).head? = some a := by rw [← ha, List.head?_eq_getElem?]
              rw [this, show Edo.nonNull (some a) = .ok a from rfl, bind_ok, w1]
              exact w2
          · intro j hj b hb
            rw [o' j hj b (by simpa [upd, hj] using hb)]
            exact o2 j hj b hb
        · rw [if_neg hgt] at e
          obtain ⟨P', s', h', xs', val'', m, u1, rst⟩ := ih fl pk P1 _ h t val n L C1 (by simpa using hfl) r low e
          refine ⟨P', s', h', xs', val'', m, ?_, rst⟩
          rw [hpre (h0 := h)]
          · exact u1
          · rw [if_neg hgt]; rfl

theorem Chain.count {c : Nat} {paths : List Path} (C : Chain c P s pv dv paths) : paths.length ≤ P.next := by
  rw [← C.items.length_eq, List.length_reverse]
  have h1 : (s true) ⊆ List.range P.next := fun a ha => List.mem_range.2 (C.rep.below true a ha)
  have := ((C.rep.inv.rep true).nodup.subperm h1).length_le
  simpa using this

/-! ## fastukk_sync -/

theorem nil_any {α β : Type} {S T : α → β → Prop} {xs : List α} (f : List.Forall₂ S xs []) : List.Forall₂ T xs [] := by
  cases f; exact .nil

theorem fastukk_heap {l : Bool} {h : Heap.Heap} {val : Addr → Sync.Sync} (C : Chain P.nextArr P s pv dv [])
    (r0 : Heap.R { h with links := CList.list_initialize h.links l } t [] val (Heap.Cells 0 (fun _ => 0)) 0) (ht : t l = [])
    (text0 text1 : List Ch) :
    ∃ P' s' pv' dv' h' xs val' m y, fastukk_sync l text0 text1 P h = .ok (P', h') ∧ Chain P'.nextArr P' s' pv' dv' [] ∧
      Heap.R h' (upd t l xs) [] val' (Heap.Cells m y.cells) m ∧ Sync.fastukk_sync text0 text1 = .ok y ∧ xs.map val' = y.items ∧
      (∀ b ∈ xs, ∀ q, (val' b).mtch = some q → q < m) ∧ (∀ j, j ≠ l → ∀ b ∈ t j, val' b = val b) := by
  obtain ⟨y, hy, _⟩ := fastukk_spec text0 text1
  have hy' := hy
  simp only [Sync.fastukk_sync] at hy
  obtain ⟨paths, e1, hy⟩ := bind_eq_ok.1 hy
  obtain ⟨L, e2, hy⟩ := bind_eq_ok.1 hy
  simp only [pure_eq, Res.ok.injEq] at hy
  obtain ⟨h1, xs1, val1, w1, r1, m1, o1⟩ := r0.initialize ht [text0.length, text1.length]
  simp only [Sync.compute_pathlist] at e1
  have C0 : Chain P.nextArr { P with min_k := -((text0.map Ch.value).length : Int), max_k := (text1.map Ch.value).length } s pv dv [] :=
    ⟨⟨C.rep.inv, C.rep.path, C.rep.diag, C.rep.below⟩, C.diags, nil_any C.items, trivial, Nat.le_refl _, C.freed⟩
  obtain ⟨P2, s2, pv2, dv2, q2, C2⟩ := path_spec _ _ _ _ _ [] paths C0 rfl e1
  obtain ⟨P3, s3, h3, xs3, val3, m3, u3, C3, r3, mm3, low3, o3⟩ := obtain_spec (l := l) paths P2.next
    (some (((text1.map Ch.value).length : Int) - (text0.map Ch.value).length)) P2 s2 h1 (upd t l xs1) val1 0 L C2 C2.count r1
    (by
      rw [upd_same]
      intro b hb q hq
      have : val1 b ∈ Sync.initialize_synclist [text0.length, text1.length] := by rw [← m1]; exact List.mem_map_of_mem hb
      have hm : ∀ x ∈ Sync.initialize_synclist [text0.length, text1.length], x.mtch = none := by
        intro x hx
        simp only [Sync.initialize_synclist] at hx
        split at hx <;> simp at hx
        rw [hx]
      rw [hm _ this] at hq
      simp at hq)
    (by rw [upd_same, m1]; exact e2)
  obtain ⟨h4, w4, r4⟩ := r3.number_matches (l := l) (by rw [upd_same]; exact low3)
  rw [upd_same, mm3] at r4
  refine ⟨P3, s3, pv2, dv2, h4, xs3, val3, m3, y, ?_, ?_, ?_, hy', ?_, low3, ?_⟩
  · simp only [fastukk_sync, w1, bind_ok, compute_pathlist]
    rw [show pathLoop _ _ _ 0 _ = .ok P2 from q2, bind_ok, u3, bind_ok]
    simp only [w4, bind_ok, pure_eq]
  · refine ⟨C3.rep, C3.diags, nil_any C3.items, trivial, Nat.le_refl _, fun q _ => C3.freed q (by simp)⟩
  · rw [Heap.upd_upd] at r4
    rw [← hy]
    exact r4
  · rw [mm3, ← hy]
  · intro j hj b hb
    rw [o3 j hj b (by simpa [upd, hj] using hb)]
    exact o1 b (Heap.in_list hb)

end Ocr.Paths
