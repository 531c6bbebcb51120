import Verif.Proof.CList

/-!
# C01: linked lists behave like sequences
-/

namespace Ocr.CList

variable {ι : Type} [DecidableEq ι]

/-- C01.  Start from any memory in which every list has been initialized by `list_initialize`, and run any
legal history of calls.  Then no call goes wrong (no out-of-bounds write, no endless loop, given as much
fuel as there are calls) and afterwards every list shows exactly the sequence the history denotes: walking
`next` from `first`, walking `prev` from `last`, `count`, and `array` when it is not NULL. -/
theorem c01_lists_are_sequences (m : Mem ι) (hm : ∀ l, m.hdr l = (list_initialize m l).hdr l)
    (ops : List (Op ι)) (hl : legalAll (fun _ => []) ops) (fuel : Nat) (hf : ops.length ≤ fuel) :
    ∃ m', execAll fuel m ops = .ok m' ∧ ∀ l, Shows m' l (specAll (fun _ => []) ops l) := by
  have hm' : ∀ l, m.hdr l = ⟨none, none, none, 0⟩ := by
    intro l; rw [hm l]; simp [list_initialize, setHdr]
  obtain ⟨m', e, h⟩ := execAll_spec ops (inv_init m hm') hl fuel (fun _ => by simpa using hf)
  exact ⟨m', e, fun l => (h.rep l).shows⟩

/-- C01, continued: right after `list_in_array` on a nonempty list, `array` is not NULL and lists the items in
order. -/
theorem c01_in_array (m : Mem ι) (hm : ∀ l, m.hdr l = (list_initialize m l).hdr l)
    (ops : List (Op ι)) (l : ι) (hl : legalAll (fun _ => []) ops) (fuel : Nat) (hf : ops.length + 1 ≤ fuel)
    (hne : specAll (fun _ => []) ops l ≠ []) :
    ∃ m', execAll fuel m (ops ++ [.inArray l]) = .ok m' ∧
      (m'.hdr l).array = some ((specAll (fun _ => []) ops l).map some) := by
  have hm' : ∀ l, m.hdr l = ⟨none, none, none, 0⟩ := by
    intro l; rw [hm l]; simp [list_initialize, setHdr]
  obtain ⟨m1, e1, h1⟩ := execAll_spec ops (inv_init m hm') hl fuel (by simp; omega)
  obtain ⟨m2, e2, _, h2⟩ := in_array_spec h1 l
  refine ⟨m2, ?_, h2 hne⟩
  have app : ∀ (ops ops' : List (Op ι)) (m : Mem ι),
      execAll fuel m (ops ++ ops') = (execAll fuel m ops >>= fun m => execAll fuel m ops') := by
    intro ops ops'
    induction ops with
    | nil => intro m; simp [execAll]
    | cons op ops ih =>
      intro m
      simp only [List.cons_append, execAll]
      cases exec fuel m op <;> simp [ih]
  rw [app, e1]; simp [execAll, exec, e2]

/-- C01, continued: `list_empty` hands every item of the list to the callback exactly once and in order, even if
the callback destroys the item (`junk` is what it leaves in the links), and leaves the other lists alone. -/
theorem c01_empty_processes_all (m : Mem ι) (hm : ∀ l, m.hdr l = (list_initialize m l).hdr l)
    (ops : List (Op ι)) (l : ι) (junk : Addr → Cell) (hl : legalAll (fun _ => []) ops) (fuel : Nat)
    (hf : ops.length ≤ fuel) :
    ∃ m1 m2, execAll fuel m ops = .ok m1 ∧
      list_empty junk (specAll (fun _ => []) ops l).length m1 l = .ok (m2, specAll (fun _ => []) ops l) ∧
      Shows m2 l [] ∧ ∀ k, k ≠ l → Shows m2 k (specAll (fun _ => []) ops k) := by
  have hm' : ∀ l, m.hdr l = ⟨none, none, none, 0⟩ := by
    intro l; rw [hm l]; simp [list_initialize, setHdr]
  obtain ⟨m1, e1, h1⟩ := execAll_spec ops (inv_init m hm') hl fuel (fun _ => by simpa using hf)
  obtain ⟨m2, e2, h2⟩ := list_empty_spec junk _ (specAll (fun _ => []) ops l).length m1 _ l
    (Nat.le_refl _) rfl h1
  refine ⟨m1, m2, e1, e2, ?_, ?_⟩
  · have := (h2.rep l).shows; rwa [upd_same] at this
  · intro k hk
    have := (h2.rep k).shows; rwa [upd_ne _ _ hk] at this

/-! Non-vacuity: a legal history on two lists using every kind of call. -/

def exampleOps : List (Op Bool) :=
  [.insertFirst true 10, .insertLast true 20, .insertFirst false 30, .insertBefore true 40 20,
   .insertAfter true 10 50, .inArray true, .remove true 20, .insertLast false 20, .inArray true,
   .empty false (fun _ => ⟨some 7, some 7⟩), .insertFirst false 30]

example : legalAll (fun _ => []) exampleOps := by
  simp [exampleOps, legalAll, legal, specStep, upd, insBefore, insAfter]

example : specAll (fun _ => []) exampleOps true = [10, 50, 40] := by decide
example : specAll (fun _ => []) exampleOps false = [30] := by decide

example : ∃ m : Mem Bool, ∀ l, m.hdr l = (list_initialize m l).hdr l :=
  ⟨⟨fun _ => ⟨none, none⟩, fun _ => ⟨none, none, none, 0⟩⟩, by simp [list_initialize, setHdr]⟩

end Ocr.CList
