import Verif.Spec.Heap
import Verif.Proof.HeapMoves

/-!
# C88: sync.c and editop.c on a heap
-/

namespace Ocr.Heap
open Text Res Sync CList

theorem R.item {h s ex val longs k a} (r : R h s ex val longs k) (ha : In s ex a) : Item h a (val a) := ⟨a, r.sync a ha, r.subs a ha⟩

theorem R.tidy {h s val longs k} (r : R h s [] val longs k) : Tidy h (s true) (s false) := by
  have hin : ∀ a, In s [] a ↔ a ∈ s true ++ s false := by
    intro a
    simp only [In, List.mem_append, List.not_mem_nil, or_false]
    constructor
    · rintro ⟨l, hl⟩; cases l <;> tauto
    · rintro (h | h)
      · exact ⟨_, h⟩
      · exact ⟨_, h⟩
  have hobj : ∀ a o, h.sync a = some o → In s [] a ∧ o.substr = a := by
    intro a o e
    by_cases ha : In s [] a
    · rw [r.sync a ha] at e; cases e; exact ⟨ha, rfl⟩
    · rw [(r.dead a ha).1] at e; simp at e
  refine ⟨(r.inv.rep true).shows, (r.inv.rep false).shows, ?_, ?_, ?_, ?_⟩
  · refine List.nodup_append.2 ⟨(r.inv.rep true).nodup, (r.inv.rep false).nodup, ?_⟩
    rintro a ha b hb rfl
    exact r.inv.disj true false (by decide) a ha hb
  · intro a
    rw [← hin]
    constructor
    · intro hne
      by_contra hc
      exact hne (r.dead a hc).1
    · intro ha; rw [r.sync a ha]; simp
  · intro p
    constructor
    · intro hne
      by_cases hp : In s [] p
      · exact ⟨p, _, r.sync p hp, rfl⟩
      · exact absurd (r.dead p hp).2 hne
    · rintro ⟨a, o, ha, rfl⟩
      obtain ⟨h1, h2⟩ := hobj a o ha
      rw [h2, r.subs a h1]; simp
  · intro a b o o' ha hb e
    rw [← (hobj a o ha).2, ← (hobj b o' hb).2, e]

theorem items_of {h : Heap} {s : Abs Bool} {val : Addr → Sync} {longs : Addr → Option Int} {k : Nat} (r : R h s [] val longs k)
    (xs : List Addr) (hx : ∀ a ∈ xs, In s [] a) : List.Forall₂ (Item h) xs (xs.map val) := by
  induction xs with
  | nil => exact .nil
  | cons a xs ih => exact .cons (r.item (hx a (by simp))) (ih (fun b hb => hx b (by simp [hb])))

/-- C88 (synchronize).  With the objects of the list on a heap: `synchronize`, for 2 to 16 texts, ends without using an object that is
not allocated or has been freed, without freeing twice, and with the list of `Sync.synchronize`.  Only the objects of the list are
allocated at the end. -/
theorem c88_synchronize (hdr : Bool → Hdr) (hdr2 : hdr false = ⟨none, none, none, 0⟩) (texts : List (List Nat)) (hN : 2 ≤ texts.length)
    (hM : texts.length ≤ 16) :
    ∃ h xs y, synchronize true texts (Heap.start hdr) = .ok h ∧ Tidy h xs [] ∧ Sync.synchronize texts = .ok y ∧
      List.Forall₂ (Item h) xs y.items ∧ ∀ x ∈ y.items, Numbers h y.cells x := by
  have r0 : R { Heap.start hdr with links := list_initialize (Heap.start hdr).links true } (fun _ => []) [] (fun _ => ⟨[], none⟩)
      (Cells 0 (fun _ => 0)) 0 := by
    have := start_rep (fun _ => ⟨none, none, none, 0⟩) (fun _ => rfl)
    have e : { Heap.start hdr with links := list_initialize (Heap.start hdr).links true } = Heap.start (fun _ => ⟨none, none, none, 0⟩) := by
      simp only [Heap.start, list_initialize, setHdr, Heap.mk.injEq, Mem.mk.injEq, and_true, true_and]
      funext j
      cases j
      · simp [hdr2]
      · simp
    rw [e]; exact this
  obtain ⟨h, xs, val, k, y, e1, r, e2, e3, low⟩ := synchronize_heap true r0 texts hN hM
  have t := r.tidy
  have hs : upd (fun _ => ([] : List Addr)) true xs true = xs := upd_same _ _ _
  rw [hs, show upd (fun _ => ([] : List Addr)) true xs false = [] by simp [upd]] at t
  refine ⟨h, xs, y, e1, t, e2, ?_, ?_⟩
  · rw [← e3]
    exact items_of r xs (fun a ha => in_list (l := true) (by rw [hs]; exact ha))
  · intro x hx c hc
    rw [← e3] at hx
    obtain ⟨a, ha, rfl⟩ := List.mem_map.1 hx
    rw [r.long]
    simp [Cells, low a ha c hc]

/-- C88 (transpose_sync).  For any two texts, whatever the headers of the lists hold before: no object that is not allocated is used, and
the lists are those of `Sync.transpose_sync`. -/
theorem c88_transpose (hdr : Bool → Hdr) (text1 text2 : List Nat) :
    ∃ h xs ys y, transpose_sync true false text1 text2 (Heap.start hdr) = .ok h ∧ Tidy h xs ys ∧
      Sync.transpose_sync text1 text2 = .ok y ∧ List.Forall₂ (Item h) xs y.items1 ∧ List.Forall₂ (Item h) ys y.items2 ∧
      ∀ x ∈ y.items1 ++ y.items2, Numbers h y.cells x := by
  obtain ⟨h, s, val, k, y, e1, r, e2, e3, e4, low⟩ := transpose_heap hdr text1 text2
  refine ⟨h, s true, s false, y, e1, r.tidy, e2, ?_, ?_, ?_⟩
  · rw [← e3]; exact items_of r _ (fun a ha => in_list ha)
  · rw [← e4]; exact items_of r _ (fun a ha => in_list ha)
  · intro x hx c hc
    rw [← e3, ← e4, ← List.map_append] at hx
    obtain ⟨a, ha, rfl⟩ := List.mem_map.1 hx
    rw [r.long]
    have : c < k := by
      rcases List.mem_append.1 ha with ha | ha
      · exact low true a ha c hc
      · exact low false a ha c hc
    simp [Cells, this]

/-- C88 (editop).  If the model on sequences gives data and output, then so does the program on the heap, the same: none of the functions
of editop.c uses an object after it has been freed, or frees it twice.  At the end the first list is that of `transpose_sync`, the second
has at most one object, and no other object is allocated. -/
theorem c88_editop (hdr : Bool → Hdr) (debug : Bool) (text1 text2 : List Nat) (D : Edo.Edodata) (out : List Nat)
    (e : Edo.editopD debug text1 text2 = .ok (D, out)) :
    ∃ h xs ys y, editop debug text1 text2 (Heap.start hdr) = .ok (D, h, out) ∧ Tidy h xs ys ∧
      Sync.transpose_sync text1 text2 = .ok y ∧ List.Forall₂ (Item h) xs y.items1 ∧ ys.length ≤ 1 ∧
      ∀ a ∈ ys, ∃ c sub n, Item h a ⟨[sub], some c⟩ ∧ h.long c = some n := by
  obtain ⟨h, s, val, longs, k, y, e1, r, e2, e3, hl, hb⟩ := editop_heap hdr debug text1 text2 e
  refine ⟨h, s true, s false, y, e1, r.tidy, e2, ?_, hl, ?_⟩
  · rw [← e3]; exact items_of r _ (fun a ha => in_list ha)
  · intro a ha
    obtain ⟨b, h1, ⟨sub, h2, _⟩, h3⟩ := hb a ha
    refine ⟨b.id, sub, _, ⟨a, ?_, ?_⟩, by rw [r.long]; exact h3⟩
    · rw [r.sync a (in_list ha), h1]
    · rw [r.subs a (in_list ha), h2]

/-- C88 (editop, any texts).  For any two texts, the second of fewer than 10^13 characters, the program on the heap ends with the data of
`Edo.editop`. -/
theorem c88_editop_total (hdr : Bool → Hdr) (debug : Bool) (text1 text2 : List Nat) (hb : text2.length < 10^13) :
    ∃ D out h, Edo.editop text1 text2 = .ok D ∧ editop debug text1 text2 (Heap.start hdr) = .ok (D, h, out) ∧ (debug = false → out = []) := by
  obtain ⟨_, D, _, tr, _, e1, _, _, _, e2⟩ := Edo.c76_editop text1 text2 hb
  obtain ⟨h, _, _, _, e3, _⟩ := c88_editop hdr debug text1 text2 D _ (e2 debug)
  exact ⟨D, _, h, e1, e3, by rintro rfl; rfl⟩

/-! ## Non-vacuity -/

def junkHdr : Bool → Hdr := fun l => if l then ⟨some 7, none, none, 3⟩ else ⟨none, none, none, 0⟩

def okWith {α : Type} (r : Res α) (p : α → Bool) : Bool := match r with | .ok x => p x | _ => false

/-- "xabcy" and "zabc": three objects are left, numbered and matched as in the list. -/
example : okWith (synchronize true [ascii "xabcy", ascii "zabc"] (Heap.start junkHdr)) (fun h =>
    (List.range h.nextSync).map h.sync == [some ⟨0, some 0⟩, some ⟨1, none⟩, some ⟨2, none⟩] &&
    h.subs 0 == some [⟨1, 3, 3⟩, ⟨1, 3, 3⟩] && h.long 0 == some 1 && (h.links.hdr true).first == some 1) = true := by decide +kernel

example : ∃ h xs y, synchronize true [ascii "xabcy", ascii "zabc"] (Heap.start junkHdr) = .ok h ∧ Tidy h xs [] ∧
    Sync.synchronize [ascii "xabcy", ascii "zabc"] = .ok y ∧ List.Forall₂ (Item h) xs y.items ∧ ∀ x ∈ y.items, Numbers h y.cells x :=
  c88_synchronize junkHdr rfl _ (by decide) (by decide)

/-- "xabcde" and "deabycz": an insertion, two deletions and a move.  At the end the first list still points to two numbers that have been
freed (1 and 2), but they are not used any more. -/
example : okWith (editop true (ascii "xabcde") (ascii "deabycz") (Heap.start junkHdr)) (fun (D, h, out) =>
    D.total_insertions == 1 && D.total_deletions == 2 && D.total_moves == 1 &&
    (List.range h.nextSync).filterMap h.sync == [⟨0, some 0⟩, ⟨1, some 0⟩, ⟨2, none⟩, ⟨3, some 1⟩, ⟨6, some 2⟩] &&
    h.long 0 == some 1 && h.long 1 == none && h.long 2 == none &&
    out == ascii "original : {3:2} {1:2} {2:1}" ++ [10, 10] ++ ascii "combined : {2:2} {1:3}" ++ [10, 10] ++
      ascii "moved 2  : {1:3} {2:2}" ++ [10, 10] ++ ascii "combined : {1:5}" ++ [10, 10]) = true := by decide +kernel

def isUb {α : Type} : Res α → Bool
  | .ub => true
  | _ => false

def once : Heap := (create_sync 1 (Heap.start junkHdr)).2

/-- Freeing an object twice, or using it afterwards, is undefined in this model. -/
example : okWith (destroy_sync once 0) (fun h => (h.sync 0).isNone && (h.subs 0).isNone) = true ∧
    isUb (destroy_sync once 0 >>= fun h => destroy_sync h 0) = true ∧ isUb (destroy_sync once 0 >>= fun h => next h 0) = true := by
  decide +kernel

example : ∃ D out h, Edo.editop (ascii "xabcde") (ascii "deabycz") = .ok D ∧
    editop true (ascii "xabcde") (ascii "deabycz") (Heap.start junkHdr) = .ok (D, h, out) ∧ (true = false → out = []) :=
  c88_editop_total junkHdr true _ _ (by decide)

end Ocr.Heap
