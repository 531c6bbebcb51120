import Verif.Proof.TextHeapRead
import Verif.Proof.Word

/-!
# find_words on a heap
-/

namespace Ocr.TextHeap
open Text Res CList

variable {h h' : THeap} {as bs ys zs start : List Addr} {cv : Addr → Ch} {wv : Addr → Option Addr} {a : Addr} {l : Bool} {prop : Nat → Word.WB}

def vals (cv : Addr → Ch) (zs : List Addr) : List Nat := zs.map (fun a => (cv a).value)

@[simp] theorem vals_nil : vals cv [] = [] := rfl
@[simp] theorem vals_cons : vals cv (a :: zs) = (cv a).value :: vals cv zs := rfl

theorem TR.next_suffix (r : TR h as cv bs wv) (e : a :: zs <:+ as) : TextHeap.nextOf h true a = .ok zs.head? := by
  obtain ⟨ys, rfl⟩ := e
  exact r.nextOf (l := true) (ys := ys) rfl

theorem TR.char_suffix (r : TR h as cv bs wv) (e : a :: zs <:+ as) : TextHeap.getChar h a = .ok (cv a) :=
  r.getChar (e.subset (by simp))

/-! ## find_next_boundary -/

theorem skipLoop_eq (r : TR h as cv bs wv) : ∀ (zs : List Addr) (fuel : Nat), zs.length ≤ fuel → zs <:+ as →
    ∃ zs', skipLoop h prop fuel zs.head? = .ok zs'.head? ∧ zs' <:+ zs ∧
      vals cv zs' = (vals cv zs).dropWhile (fun v => Word.ExtendOrFormat (prop v)) := by
  intro zs
  induction zs with
  | nil => intro fuel _ _; exact ⟨[], by simp [skipLoop], List.suffix_refl _, rfl⟩
  | cons a zs ih =>
    intro fuel hf e
    obtain ⟨fuel, rfl⟩ : ∃ f, fuel = f + 1 := ⟨fuel - 1, by simp at hf; omega⟩
    simp only [List.head?_cons, skipLoop, char_property, r.char_suffix e, bind_ok, pure_eq, vals_cons, List.dropWhile_cons]
    by_cases hx : Word.ExtendOrFormat (prop (cv a).value) = true
    · obtain ⟨zs', e1, e2, e3⟩ := ih fuel (by simp at hf; omega) ((List.suffix_cons a zs).trans e)
      exact ⟨zs', by simp only [hx, if_true, r.next_suffix e, bind_ok, e1], e2.trans (List.suffix_cons a zs), by simp only [hx, if_true, e3]⟩
    · exact ⟨a :: zs, by simp [hx], List.suffix_refl _, by simp [hx]⟩

/-- The pointer `cur` stands for the values `vs`. -/
def At (cv : Addr → Ch) (start : List Addr) : Cur → List Nat → Prop
  | .null, vs => vs = []
  | .dummy, vs => vs = 0 :: vals cv start
  | .at a, vs => ∃ zs, a :: zs <:+ start ∧ vs = vals cv (a :: zs)

theorem At.of (e : zs <:+ start) : At cv start (.of zs.head?) (vals cv zs) := by
  cases zs with
  | nil => rfl
  | cons a zs => exact ⟨zs, e, rfl⟩

theorem At.next (r : TR h as cv bs wv) (hs : start <:+ as) {cur : Cur} {vs : List Nat} (at_ : At cv start cur vs) (hn : cur ≠ .null) :
    ∃ n x, cur.next h start.head? = .ok n.head? ∧ n <:+ start ∧ vs = x :: vals cv n := by
  cases cur with
  | null => exact absurd rfl hn
  | dummy => exact ⟨start, 0, rfl, List.suffix_refl _, at_⟩
  | «at» a =>
    obtain ⟨zs, e, rfl⟩ := at_
    exact ⟨zs, (cv a).value, r.next_suffix (e.trans hs), (List.suffix_cons a zs).trans e, rfl⟩

theorem char_property_eq (r : TR h as cv bs wv) (hs : start <:+ as) (e : zs <:+ start) :
    char_property h prop (.of zs.head?) = .ok (Word.char_property prop (vals cv zs)) := by
  cases zs with
  | nil => rfl
  | cons a zs => simp [Cur.of, char_property, r.char_suffix (e.trans hs), Word.char_property]

theorem skip_to_next_eq (r : TR h as cv bs wv) (hs : start <:+ as) {cur : Cur} {vs : List Nat} (at_ : At cv start cur vs) :
    ∃ zs, skip_to_next h prop start.head? cur = .ok zs.head? ∧ zs <:+ start ∧ vals cv zs = Word.skip_to_next prop vs := by
  unfold skip_to_next
  by_cases hn : cur = .null
  · subst hn
    exact ⟨[], by simp, List.nil_suffix, by rw [show vs = [] from at_]; rfl⟩
  · obtain ⟨n, x, e1, e2, rfl⟩ := at_.next r hs hn
    have hl := (e2.trans hs).length_le
    have hl' := r.len
    obtain ⟨zs, e3, e4, e5⟩ := skipLoop_eq (prop := prop) r n h.next (by omega) (e2.trans hs)
    exact ⟨zs, by simp only [hn, if_false, e1, bind_ok, e3], e4.trans e2, e5⟩

theorem skip_twice_eq (r : TR h as cv bs wv) (hs : start <:+ as) {cur : Cur} {vs : List Nat} (at_ : At cv start cur vs) :
    ∃ zs, skip_twice h prop start.head? cur = .ok zs.head? ∧ zs <:+ start ∧ vals cv zs = Word.skip_twice prop vs := by
  obtain ⟨y, e1, e2, e3⟩ := skip_to_next_eq (prop := prop) r hs at_
  obtain ⟨z, f1, f2, f3⟩ := skip_to_next_eq (prop := prop) r hs (At.of (cv := cv) e2)
  exact ⟨z, by simp only [skip_twice, e1, bind_ok, f1], f2, by rw [f3, e3, Word.skip_twice]⟩

theorem endLoop_eq (r : TR h as cv bs wv) (hs : start <:+ as) : ∀ (fuel : Nat) (cur : Cur) (vs : List Nat), vs.length ≤ fuel + 1 →
    At cv start cur vs → cur ≠ .null →
    ∃ c, endLoop h prop start.head? fuel cur = .ok c ∧ At cv start c (Word.skip_to_end_of_extend prop vs) ∧ (c = .dummy → cur = .dummy) := by
  intro fuel
  induction fuel with
  | zero =>
    intro cur vs hl at_ hn
    obtain ⟨n, x, e1, e2, rfl⟩ := at_.next r hs hn
    cases n with
    | nil => exact ⟨cur, by rw [endLoop.eq_def]; simp [e1], by simpa [Word.skip_to_end_of_extend] using at_, fun h => h⟩
    | cons b n => simp at hl
  | succ fuel ih =>
    intro cur vs hl at_ hn
    obtain ⟨n, x, e1, e2, rfl⟩ := at_.next r hs hn
    cases n with
    | nil => exact ⟨cur, by rw [endLoop.eq_def]; simp [e1], by simpa [Word.skip_to_end_of_extend] using at_, fun h => h⟩
    | cons b n =>
      rw [endLoop.eq_def]
      simp only [e1, bind_ok, List.head?_cons, char_property, r.char_suffix (e2.trans hs), pure_eq, vals_cons, Word.skip_to_end_of_extend]
      by_cases hx : Word.ExtendOrFormat (prop (cv b).value) = true
      · simp only [hx, if_true]
        obtain ⟨c, f1, f2, f3⟩ := ih (.at b) (vals cv (b :: n)) (by simp at hl ⊢; omega) ⟨n, e2, rfl⟩ (by simp)
        exact ⟨c, f1, f2, fun h => by cases f3 h⟩
      · simp only [hx]
        exact ⟨cur, rfl, at_, fun h => h⟩

/-- One pass through the loop. -/
theorem boundary_step (r : TR h as cv bs wv) (hs : start <:+ as) {cur : Cur} {vs : List Nat} (at_ : At cv start cur vs) :
    (cur = .null ∧ vs = []) ∨
    (∃ x, cur.next h start.head? = .ok none ∧ vs = [x] ∧ (cur = .dummy → start = [])) ∨
    ∃ (b : Addr) (x y : Nat) (rest : List Nat) (c1 c2 c3 : List Addr), cur.next h start.head? = .ok (some b) ∧ vs = x :: y :: rest ∧ c1 <:+ start ∧
      skip_to_next h prop start.head? cur = .ok c1.head? ∧ vals cv c1 = Word.skip_to_next prop vs ∧
      char_property h prop (.of c1.head?) = .ok (Word.char_property prop (vals cv c1)) ∧
      skip_to_next h prop start.head? (.of c1.head?) = .ok c2.head? ∧
      char_property h prop (.of c2.head?) = .ok (Word.char_property prop (Word.skip_to_next prop (vals cv c1))) ∧
      skip_twice h prop start.head? (.of c1.head?) = .ok c3.head? ∧
      char_property h prop (.of c3.head?) = .ok (Word.char_property prop (Word.skip_twice prop (vals cv c1))) := by
  by_cases hn : cur = .null
  · subst hn; exact Or.inl ⟨rfl, at_⟩
  · refine Or.inr ?_
    obtain ⟨n, x, e1, e2, rfl⟩ := at_.next r hs hn
    cases n with
    | nil =>
      refine Or.inl ⟨x, e1, rfl, ?_⟩
      rintro rfl
      cases start with
      | nil => rfl
      | cons => simp [At] at at_
    | cons b n =>
      refine Or.inr ?_
      obtain ⟨c1, f1, f2, f3⟩ := skip_to_next_eq (prop := prop) r hs at_
      have a1 := At.of (cv := cv) f2
      obtain ⟨c2, g1, g2, g3⟩ := skip_to_next_eq (prop := prop) r hs a1
      obtain ⟨c3, k1, k2, k3⟩ := skip_twice_eq (prop := prop) r hs a1
      exact ⟨b, x, (cv b).value, vals cv n, c1, c2, c3, e1, rfl, f2, f1, f3, char_property_eq r hs f2, g1,
        by rw [← g3]; exact char_property_eq r hs g2, k1, by rw [← k3]; exact char_property_eq r hs k2⟩

theorem boundaryLoop_sim (r : TR h as cv bs wv) (hs : start <:+ as) : ∀ (fuel : Nat) (cur : Cur) (vs : List Nat) (left : Word.WB),
    At cv start cur vs → Sim (fun c ws => At cv start c ws ∧ (c = .dummy → start = []))
      (boundaryLoop h prop start.head? fuel cur left) (Word.boundaryLoop prop fuel vs left) := by
  intro fuel
  induction fuel with
  | zero =>
    intro cur vs left at_
    rcases boundary_step (prop := prop) r hs at_ with ⟨rfl, rfl⟩ | ⟨x, e1, rfl, hd⟩ |
      ⟨b, x, y, rest, c1, c2, c3, e1, rfl, f2, f1, f3, p1, g1, p2, k1, p3⟩
    · unfold boundaryLoop Word.boundaryLoop boundaryStep
      simp only [Cur.next, bind_ub]
      exact Sim.ub
    · unfold boundaryLoop Word.boundaryLoop boundaryStep
      simp only [e1, bind_ok, pure_eq, if_true, Bool.false_eq_true, if_false]
      exact Sim.ok ⟨at_, hd⟩
    · unfold boundaryLoop Word.boundaryLoop boundaryStep
      simp only [e1, bind_ok, f1, p1, g1, p2, k1, p3, pure_eq, reduceCtorEq, if_false]
      rw [← f3]
      split
      · exact Sim.fuel
      · refine Sim.ok ⟨At.of f2, fun h => ?_⟩
        cases c1 <;> cases h
  | succ fuel ih =>
    intro cur vs left at_
    rcases boundary_step (prop := prop) r hs at_ with ⟨rfl, rfl⟩ | ⟨x, e1, rfl, hd⟩ |
      ⟨b, x, y, rest, c1, c2, c3, e1, rfl, f2, f1, f3, p1, g1, p2, k1, p3⟩
    · unfold boundaryLoop Word.boundaryLoop boundaryStep
      simp only [Cur.next, bind_ub]
      exact Sim.ub
    · unfold boundaryLoop Word.boundaryLoop boundaryStep
      simp only [e1, bind_ok, pure_eq, if_true, Bool.false_eq_true, if_false]
      exact Sim.ok ⟨at_, hd⟩
    · unfold boundaryLoop Word.boundaryLoop boundaryStep
      simp only [e1, bind_ok, f1, p1, g1, p2, k1, p3, pure_eq, reduceCtorEq, if_false]
      rw [← f3]
      split
      · exact ih _ _ _ (At.of f2)
      · refine Sim.ok ⟨At.of f2, fun h => ?_⟩
        cases c1 <;> cases h

theorem boundaryLoop_mono : ∀ (fuel k : Nat) (cur : List Nat) (left : Word.WB) (c : List Nat), Word.boundaryLoop prop fuel cur left = .ok c →
    Word.boundaryLoop prop (fuel + k) cur left = .ok c := by
  intro fuel
  induction fuel with
  | zero =>
    intro k cur left c e
    rw [Word.boundaryLoop.eq_def] at e ⊢
    match cur, e with
    | [], e => exact e
    | [v], e => exact e
    | v :: w :: rest, e =>
      simp only at e ⊢
      split at e
      · cases e
      · rename_i hc; rw [if_neg hc]; exact e
  | succ fuel ih =>
    intro k cur left c e
    rw [show fuel + 1 + k = (fuel + k) + 1 by omega]
    rw [Word.boundaryLoop.eq_def] at e ⊢
    match cur, e with
    | [], e => exact e
    | [v], e => exact e
    | v :: w :: rest, e =>
      simp only at e ⊢
      split at e
      · rename_i hc; rw [if_pos hc]; exact ih _ _ _ _ e
      · rename_i hc; rw [if_neg hc]; exact e

theorem find_next_total (prop : Nat → Word.WB) (s : List Nat) : ∃ t, Word.find_next_boundary prop s = .ok t := by
  obtain ⟨e, gs, rfl, he, hg⟩ := Word.exists_groups prop s
  by_cases h : gs = []
  · subst h
    exact ⟨[], by simpa [Word.flat] using Word.find_next_ext he⟩
  · obtain ⟨w, hw⟩ := Word.find_next_spec h hg he
    exact ⟨_, hw⟩

theorem find_next_eq (r : TR h as cv bs wv) (hs : start <:+ as) :
    ∃ zs, find_next_boundary h prop start.head? = .ok zs.head? ∧ zs <:+ start ∧ Word.find_next_boundary prop (vals cv start) = .ok (vals cv zs) := by
  cases hst : start with
  | nil => exact ⟨[], rfl, List.suffix_refl _, rfl⟩
  | cons a0 st =>
    rw [← hst]
    have hne : start ≠ [] := by simp [hst]
    have hne' : vals cv start ≠ [] := by simp [hst]
    obtain ⟨t, ht⟩ := find_next_total prop (vals cv start)
    rw [ht]
    rw [Word.find_next_boundary, if_neg hne'] at ht
    obtain ⟨c, hc, ht⟩ := bind_eq_ok.1 ht
    simp only [pure_eq, ok.injEq] at ht
    have hlen : (vals cv start).length ≤ h.next := by
      have := hs.length_le
      have := r.len
      simp [vals]; omega
    have hc' := boundaryLoop_mono _ (h.next - (vals cv start).length) _ _ _ hc
    rw [show (vals cv start).length + (h.next - (vals cv start).length) = h.next by omega] at hc'
    have sim := boundaryLoop_sim (prop := prop) r hs h.next .dummy (0 :: vals cv start) .sot rfl
    rw [hc'] at sim
    obtain ⟨c', hb, hat, hdum⟩ : ∃ c', boundaryLoop h prop start.head? h.next .dummy .sot = .ok c' ∧ At cv start c' c ∧ (c' = .dummy → start = []) := by
      generalize boundaryLoop h prop start.head? h.next .dummy .sot = z at sim
      cases sim with
      | ok hh => exact ⟨_, rfl, hh.1, hh.2⟩
    have hd : c' ≠ .dummy := fun e => hne (hdum e)
    have hnn : start.head? ≠ none := by simp [hst]
    simp only [find_next_boundary, hnn, if_false, hb, bind_ok, skip_to_end_of_extend]
    by_cases hn : c' = .null
    · subst hn
      rw [show c = [] from hat] at ht
      exact ⟨[], by simp, List.nil_suffix, by rw [← ht]; rfl⟩
    · simp only [hn, if_false]
      have hcl : c.length ≤ h.next + 1 := by
        cases c' with
        | null => exact absurd rfl hn
        | dummy => exact absurd rfl hd
        | «at» a =>
          obtain ⟨zs, e, rfl⟩ := hat
          have := e.length_le
          simp [vals] at hlen this ⊢; omega
      obtain ⟨d, f1, f2, f3⟩ := endLoop_eq (prop := prop) r hs h.next c' c hcl hat hn
      rw [f1, bind_ok]
      cases d with
      | null =>
        exact ⟨[], rfl, List.nil_suffix, by rw [← ht]; exact congrArg _ f2⟩
      | dummy => exact absurd (f3 rfl) hd
      | «at» b =>
        obtain ⟨zs, e, e'⟩ := f2
        exact ⟨b :: zs, rfl, e, by rw [← ht, e']⟩

end Ocr.TextHeap
