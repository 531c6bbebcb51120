import Verif.Spec.Heap
import Verif.Spec.Paths
import Verif.Proof.Paths
import Verif.Props.Heap

/-!
# C89: fastukk_sync on a heap
-/

namespace Ocr.Paths
open Text Res Sync CList

theorem walk_nil {next : Addr → Option Addr} {p : Option Addr} (w : Walk next p []) : p = none := by cases w; rfl

theorem shows_nil {m : Mem Bool} {l : Bool} (h : Shows m l []) : Rep m l [] :=
  ⟨trivial, by simp, walk_nil h.forward, walk_nil h.backward, h.count, h.array⟩

theorem Nothing.chain {P : PHeap} (h : Nothing P) : Chain P.nextArr P (fun _ => []) (fun _ => ⟨0, 0, 0, none⟩) (fun _ => 0) [] :=
  ⟨⟨⟨fun l => by cases l; exact shows_nil h.diags; exact shows_nil h.paths, by simp⟩, by simp [h.path], by simp [h.diag], by simp⟩, rfl,
    .nil, trivial, by simp, fun q _ => h.arr q⟩

theorem Chain.nothing {c : Nat} {P : PHeap} {s : Abs Bool} {pv : Addr → PathObj} {dv : Addr → Int} (C : Chain c P s pv dv []) : Nothing P := by
  have hs : s true = [] := by
    have := C.items
    generalize hh : (s true).reverse = xs at this
    cases this
    simpa using hh
  have h1 := (C.rep.inv.rep true).shows
  have h2 := (C.rep.inv.rep false).shows
  rw [hs] at h1
  rw [C.diags] at h2
  exact ⟨h1, h2, fun a => by rw [C.rep.path, hs]; simp, fun a => by rw [C.rep.diag, C.diags]; simp, fun q => C.freed q (by simp)⟩

/-- C89.  If the two static lists are empty and nothing of them is allocated, then `fastukk_sync`, for any two texts, ends without using
a path, a diagonal, an array or an object of the synclist that is not allocated or has been freed, without freeing twice, without an
index outside an array, and with the list of `Sync.fastukk_sync`.  All paths, diagonals and arrays have been freed and the static lists
are empty again; of the other objects only those of the list are allocated. -/
theorem c89_fastukk (P : PHeap) (hP : Nothing P) (hdr : Bool → Hdr) (hdr2 : hdr false = ⟨none, none, none, 0⟩) (text0 text1 : List Ch) :
    ∃ P' h xs y, fastukk_sync true text0 text1 P (Heap.Heap.start hdr) = .ok (P', h) ∧ Nothing P' ∧ Heap.Tidy h xs [] ∧
      Sync.fastukk_sync text0 text1 = .ok y ∧ List.Forall₂ (Heap.Item h) xs y.items ∧ ∀ x ∈ y.items, Heap.Numbers h y.cells x := by
  have r0 : Heap.R { Heap.Heap.start hdr with links := list_initialize (Heap.Heap.start hdr).links true } (fun _ => []) [] (fun _ => ⟨[], none⟩)
      (Heap.Cells 0 (fun _ => 0)) 0 := by
    have := Heap.start_rep (fun _ => ⟨none, none, none, 0⟩) (fun _ => rfl)
    have e : { Heap.Heap.start hdr with links := list_initialize (Heap.Heap.start hdr).links true } =
        Heap.Heap.start (fun _ => ⟨none, none, none, 0⟩) := by
      simp only [Heap.Heap.start, list_initialize, setHdr, Heap.Heap.mk.injEq, Mem.mk.injEq, and_true, true_and]
      funext j
      cases j
      · simp [hdr2]
      · simp
    rw [e]; exact this
  obtain ⟨P', s', pv', dv', h, xs, val, k, y, e1, C, r, e2, e3, low, _⟩ := fastukk_heap hP.chain r0 rfl text0 text1
  have t := r.tidy
  have hs : upd (fun _ => ([] : List Addr)) true xs true = xs := upd_same _ _ _
  rw [hs, show upd (fun _ => ([] : List Addr)) true xs false = [] by simp [upd]] at t
  refine ⟨P', h, xs, y, e1, C.nothing, t, e2, ?_, ?_⟩
  · rw [← e3]
    exact Heap.items_of r xs (fun a ha => Heap.in_list (l := true) (by rw [hs]; exact ha))
  · intro x hx c hc
    rw [← e3] at hx
    obtain ⟨a, ha, rfl⟩ := List.mem_map.1 hx
    rw [r.long]
    simp [Heap.Cells, low a ha c hc]

/-- C89 (start of the program).  Nothing is allocated at first, so `c89_fastukk` holds for the first call and, its conclusion being its
hypothesis, for every further one. -/
theorem c89_start : Nothing PHeap.start := ⟨⟨.nil, .nil, rfl, Or.inl rfl⟩, ⟨.nil, .nil, rfl, Or.inl rfl⟩, fun _ => rfl, fun _ => rfl, fun _ => rfl⟩

/-! ## Non-vacuity -/

def chars (s : String) : List Ch := (ascii s).map (fun v => ⟨false, v⟩)

def emptyHdr : Bool → Hdr := fun _ => ⟨none, none, none, 0⟩

/-- "kitten" and "sitting": four paths with their arrays and eight diagonals are made, as the counters show; none of them is left. -/
example : Heap.okWith (fastukk_sync true (chars "kitten") (chars "sitting") PHeap.start (Heap.Heap.start emptyHdr)) (fun (P, h) =>
    (List.range P.next).all (fun a => (P.path a).isNone && (P.diag a).isNone) && (List.range P.nextArr).all (fun a => (P.arr a).isNone) &&
    P.nextArr == 4 && P.next == 12 && (List.range h.nextSync).filterMap h.sync != [] && h.long 0 == some 2) = true := by decide +kernel

example : ∃ P' h xs y, fastukk_sync true (chars "kitten") (chars "sitting") PHeap.start (Heap.Heap.start emptyHdr) = .ok (P', h) ∧
    Nothing P' ∧ Heap.Tidy h xs [] ∧ Sync.fastukk_sync (chars "kitten") (chars "sitting") = .ok y ∧
    List.Forall₂ (Heap.Item h) xs y.items ∧ ∀ x ∈ y.items, Heap.Numbers h y.cells x :=
  c89_fastukk _ c89_start emptyHdr rfl _ _

/-- A second call after a first one. -/
example : ∃ P h P' h', fastukk_sync true (chars "kitten") (chars "sitting") PHeap.start (Heap.Heap.start emptyHdr) = .ok (P, h) ∧
    fastukk_sync true (chars "ab") (chars "xb") P (Heap.Heap.start emptyHdr) = .ok (P', h') ∧ Nothing P' := by
  obtain ⟨P, h, _, _, e, n, _⟩ := c89_fastukk _ c89_start emptyHdr rfl (chars "kitten") (chars "sitting")
  obtain ⟨P', h', _, _, e', n', _⟩ := c89_fastukk P n emptyHdr rfl (chars "ab") (chars "xb")
  exact ⟨P, h, P', h', e, e', n'⟩

/-- Freeing a path twice is undefined in this model. -/
example : Heap.okWith (freePath (newPath PHeap.start).2 0) (fun P => (P.path 0).isNone) = true ∧
    Heap.isUb (freePath (newPath PHeap.start).2 0 >>= fun P => freePath P 0) = true := by decide +kernel

end Ocr.Paths
