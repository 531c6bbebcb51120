import Verif.Spec.CList
import Mathlib.Data.List.Induction
import Mathlib.Tactic.Tauto

namespace Ocr.CList

variable {ι : Type} [DecidableEq ι]

/-- `xs` is linked in both directions, entered from `p` and left to `n`. -/
def Seg (c : Addr → Cell) (p : Option Addr) : List Addr → Option Addr → Prop
  | [], _ => True
  | x :: xs, n => c x = ⟨p, xs.head?.or n⟩ ∧ Seg c (some x) xs n

theorem Seg.congr {c c' : Addr → Cell} {p n xs} (h : Seg c p xs n) (e : ∀ a ∈ xs, c' a = c a) :
    Seg c' p xs n := by
  induction xs generalizing p with
  | nil => trivial
  | cons x xs ih =>
    refine ⟨?_, ih h.2 (fun a ha => e a (by simp [ha]))⟩
    rw [e x (by simp)]; exact h.1

theorem seg_append {c : Addr → Cell} {p n ys zs} :
    Seg c p (ys ++ zs) n ↔ Seg c p ys (zs.head?.or n) ∧ Seg c (ys.getLast?.or p) zs n := by
  induction ys generalizing p with
  | nil => simp [Seg]
  | cons y ys ih =>
    simp only [List.cons_append, Seg, ih]
    cases ys with
    | nil => simp [Seg]
    | cons y' ys =>
      simp [Seg, List.getLast?_cons]; grind

theorem Seg.setNext {c : Addr → Cell} {p n ys y} (n' : Option Addr) (h : Seg c p (ys ++ [y]) n) (hy : y ∉ ys) :
    Seg (fun x => if x = y then { c y with next := n' } else c x) p (ys ++ [y]) n' := by
  rw [seg_append] at h ⊢
  simp only [Seg, List.head?_nil, Option.none_or, and_true, List.head?_cons, Option.some_or] at h ⊢
  refine ⟨h.1.congr (by intro a ha; rw [if_neg]; rintro rfl; exact hy ha), ?_⟩
  simp [h.2]

theorem Seg.setPrev {c : Addr → Cell} {p n z zs} (p' : Option Addr) (h : Seg c p (z :: zs) n) (hz : z ∉ zs) :
    Seg (fun x => if x = z then { c z with prev := p' } else c x) p' (z :: zs) n := by
  simp only [Seg] at h ⊢
  refine ⟨by simp [h.1], h.2.congr (by intro a ha; rw [if_neg]; rintro rfl; exact hz ha)⟩

/-- Internal representation invariant of one list. -/
structure Rep (m : Mem ι) (l : ι) (xs : List Addr) : Prop where
  seg   : Seg m.cell none xs none
  nodup : xs.Nodup
  first : (m.hdr l).first = xs.head?
  last  : (m.hdr l).last = xs.getLast?
  count : (m.hdr l).count = xs.length
  array : (m.hdr l).array = none ∨ (m.hdr l).array = some (xs.map some)

theorem Rep.frame {m m' : Mem ι} {l : ι} {xs} (h : Rep m l xs)
    (hc : ∀ a ∈ xs, m'.cell a = m.cell a) (hh : m'.hdr l = m.hdr l) : Rep m' l xs :=
  ⟨h.seg.congr hc, h.nodup, hh ▸ h.first, hh ▸ h.last, hh ▸ h.count, hh ▸ h.array⟩

theorem free_array_hdr_ne (m : Mem ι) {l k : ι} (h : k ≠ l) : (free_array m l).hdr k = m.hdr k := by
  unfold free_array; split <;> simp [setHdr, h]

@[simp] theorem free_array_hdr (m : Mem ι) (l : ι) :
    (free_array m l).hdr l = { m.hdr l with array := none } := by
  unfold free_array
  split
  · simp [setHdr]
  · rename_i h; cases hm : m.hdr l; simp_all

@[simp] theorem free_array_cell (m : Mem ι) (l : ι) : (free_array m l).cell = m.cell := by
  unfold free_array; split <;> simp [setHdr]

theorem eq_snoc_of_getLast? {ys : List Addr} {r} (h : ys.getLast? = some r) : ∃ ys', ys = ys' ++ [r] := by
  rcases List.eq_nil_or_concat ys with rfl | ⟨ys', b, rfl⟩
  · simp at h
  · simp at h; exact ⟨ys', by simp [h]⟩

/-- The central insertion lemma. -/
theorem list_insert_spec (m : Mem ι) (l : ι) (ys zs : List Addr) (item : Addr)
    (h : Rep m l (ys ++ zs)) (hi : item ∉ ys ++ zs) :
    Rep (list_insert m l ys.getLast? item zs.head?) l (ys ++ item :: zs) ∧
    (∀ a, a ≠ item → a ∉ ys ++ zs → (list_insert m l ys.getLast? item zs.head?).cell a = m.cell a) ∧
    (∀ k, k ≠ l → (list_insert m l ys.getLast? item zs.head?).hdr k = m.hdr k) := by
  obtain ⟨hseg, hnd, hf, hl, hcnt, harr⟩ := h
  rw [seg_append] at hseg
  obtain ⟨s1, s2⟩ := hseg
  have hnd' : (ys ++ item :: zs).Nodup := by
    rw [List.nodup_append] at hnd ⊢
    simp only [List.mem_append, not_or] at hi
    refine ⟨hnd.1, List.nodup_cons.2 ⟨hi.2, hnd.2.1⟩, ?_⟩
    intro a ha b hb
    rcases List.mem_cons.1 hb with rfl | hb
    · rintro rfl; exact hi.1 ha
    · exact hnd.2.2 a ha b hb
  have hcount : ((ys ++ item :: zs).length : Int) = (ys ++ zs).length + 1 := by simp; omega
  simp only [List.mem_append, not_or] at hi
  -- the new segment
  rcases hy : ys.getLast? with _ | r1
  · have : ys = [] := by simpa using hy
    subst this
    rcases zs with _ | ⟨z, zs⟩
    · refine ⟨⟨?_, hnd', ?_, ?_, ?_, ?_⟩, ?_, ?_⟩ <;>
        simp [list_insert, setCell, setHdr, Seg] <;> simp_all
      intro k hk; simp [hk, free_array_hdr_ne]
    · have hzi : z ≠ item := by rintro rfl; simp at hi
      have hiz : item ∉ zs := by simp at hi; exact hi.2
      have hzz : z ∉ zs := by simp at hnd; exact hnd.1
      refine ⟨⟨?_, hnd', ?_, ?_, ?_, ?_⟩, ?_, ?_⟩
      · have s2' := Seg.setPrev (some item) s2 hzz
        refine ⟨?_, s2'.congr ?_⟩
        · simp [list_insert, setCell, setHdr, Ne.symm hzi]
        · intro a ha
          have : a ≠ item := by rintro rfl; simp at ha; rcases ha with rfl | ha <;> simp_all
          by_cases haz : a = z
          · subst haz; simp [list_insert, setCell, setHdr, hzi]
          · simp [list_insert, setCell, setHdr, haz, this]
      · simp [list_insert, setCell, setHdr]
      · simp [list_insert, setCell, setHdr]; simp at hl; simp [hl, List.getLast?_cons]
      · simp [list_insert, setCell, setHdr]; simp at hcnt; omega
      · simp [list_insert, setCell, setHdr]
      · intro a ha1 ha2; simp at ha2; simp [list_insert, setCell, setHdr, ha1, ha2]
      · intro k hk; simp [list_insert, setCell, setHdr, hk, free_array_hdr_ne]
  · obtain ⟨ys, rfl⟩ := eq_snoc_of_getLast? hy
    have hri : r1 ≠ item := by rintro rfl; simp at hi
    have hry : r1 ∉ ys := by
      rw [List.nodup_append] at hnd
      have := hnd.1; rw [List.nodup_append] at this
      intro hm; exact this.2.2 _ hm _ (by simp) rfl
    have hiy : item ∉ ys := by simp at hi; exact hi.1.1
    rcases zs with _ | ⟨z, zs⟩
    · refine ⟨⟨?_, hnd', ?_, ?_, ?_, ?_⟩, ?_, ?_⟩
      · rw [seg_append]
        have s1' := Seg.setNext (some item) s1 hry
        refine ⟨s1'.congr ?_, ?_⟩
        · intro a ha
          have : a ≠ item := by rintro rfl; simp at ha; rcases ha with ha | rfl <;> simp_all
          by_cases haz : a = r1
          · subst haz; simp [list_insert, setCell, setHdr, hri]
          · simp [list_insert, setCell, setHdr, haz, this]
        · simp [Seg, list_insert, setCell, setHdr, Ne.symm hri]
      · simp [list_insert, setCell, setHdr]
        rw [hf]; simp
      · simp [list_insert, setCell, setHdr]
      · simp [list_insert, setCell, setHdr]; simp at hcnt; omega
      · simp [list_insert, setCell, setHdr]
      · intro a ha1 ha2; simp at ha2; simp [list_insert, setCell, setHdr, ha1, ha2]
      · intro k hk; simp [list_insert, setCell, setHdr, hk, free_array_hdr_ne]
    · have hzi : z ≠ item := by rintro rfl; simp at hi
      have hiz : item ∉ zs := by simp at hi; exact hi.2.2
      have hnd2 := (List.nodup_append.1 hnd)
      have hzz : z ∉ zs := (List.nodup_cons.1 hnd2.2.1).1
      have hzr : z ≠ r1 := by
        intro e; exact hnd2.2.2 r1 (by simp) z (by simp) e.symm
      have hzy : z ∉ ys := by
        intro e; exact hnd2.2.2 z (by simp [e]) z (by simp) rfl
      have hrz : r1 ∉ zs := by
        intro e; exact hnd2.2.2 r1 (by simp) r1 (by simp [e]) rfl
      refine ⟨⟨?_, hnd', ?_, ?_, ?_, ?_⟩, ?_, ?_⟩
      · rw [seg_append]
        have s1' := Seg.setNext (some item) s1 hry
        have s2' := Seg.setPrev (some item) s2 hzz
        refine ⟨s1'.congr ?_, ?_, s2'.congr ?_⟩
        · intro a ha
          have h1 : a ≠ item := by rintro rfl; simp at ha; rcases ha with ha | rfl <;> simp_all
          have h2 : a ≠ z := by rintro rfl; simp at ha; rcases ha with ha | rfl <;> simp_all
          by_cases haz : a = r1
          · subst haz; simp [list_insert, setCell, setHdr, hri, Ne.symm hzr]
          · simp [list_insert, setCell, setHdr, haz, h1, h2]
        · simp [list_insert, setCell, setHdr, Ne.symm hri, Ne.symm hzi]
        · intro a ha
          have h1 : a ≠ item := by rintro rfl; simp at ha; rcases ha with rfl | ha <;> simp_all
          have h2 : a ≠ r1 := by rintro rfl; simp at ha; rcases ha with rfl | ha <;> simp_all
          by_cases haz : a = z
          · subst haz; simp [list_insert, setCell, setHdr, hzi, hzr]
          · simp [list_insert, setCell, setHdr, haz, h1, h2]
      · simp [list_insert, setCell, setHdr]
        rw [hf]; cases ys <;> simp
      · simp [list_insert, setCell, setHdr]
        rw [hl]; simp [List.getLast?_cons]
      · simp [list_insert, setCell, setHdr]; simp at hcnt; omega
      · simp [list_insert, setCell, setHdr]
      · intro a ha1 ha2; simp at ha2; simp [list_insert, setCell, setHdr, ha1, ha2]
      · intro k hk; simp [list_insert, setCell, setHdr, hk, free_array_hdr_ne]

/-- The central removal lemma. -/
theorem list_remove_spec (m : Mem ι) (l : ι) (ys zs : List Addr) (item : Addr)
    (h : Rep m l (ys ++ item :: zs)) :
    Rep (list_remove m l item) l (ys ++ zs) ∧
    (∀ a, a ∉ ys ++ item :: zs → (list_remove m l item).cell a = m.cell a) ∧
    (∀ k, k ≠ l → (list_remove m l item).hdr k = m.hdr k) := by
  obtain ⟨hseg, hnd, hf, hl, hcnt, harr⟩ := h
  rw [seg_append] at hseg
  obtain ⟨s1, hc, s2⟩ := hseg
  simp only [Option.or_none] at hc
  have hnd2 := List.nodup_append.1 hnd
  have hnd' : (ys ++ zs).Nodup := by
    rw [List.nodup_append]
    exact ⟨hnd2.1, (List.nodup_cons.1 hnd2.2.1).2, fun a ha b hb => hnd2.2.2 a ha b (by simp [hb])⟩
  have hiz : item ∉ zs := (List.nodup_cons.1 hnd2.2.1).1
  have hiy : item ∉ ys := fun e => hnd2.2.2 item e item (by simp) rfl
  rcases hy : ys.getLast? with _ | r1
  · have : ys = [] := by simpa using hy
    subst this
    rcases zs with _ | ⟨z, zs⟩
    · simp at hc
      refine ⟨⟨?_, hnd', ?_, ?_, ?_, ?_⟩, ?_, ?_⟩ <;>
        simp [list_remove, setCell, setHdr, Seg, free_array_hdr_ne, hc]
      · rw [hcnt]; simp
      · intro a ha1 ha2; exact absurd ha2 ha1
      · intro k hk; simp [hk, free_array_hdr_ne]
    · simp at hc
      have hzi : z ≠ item := by rintro rfl; simp at hiz
      have hiz' : item ∉ zs := by simp at hiz; exact hiz.2
      have hzz : z ∉ zs := by simp at hnd'; exact hnd'.1
      refine ⟨⟨?_, hnd', ?_, ?_, ?_, ?_⟩, ?_, ?_⟩
      · refine (Seg.setPrev none s2 hzz).congr ?_
        intro a ha
        have : a ≠ item := by rintro rfl; exact hiz (by simpa using ha)
        by_cases haz : a = z
        · subst haz; simp [list_remove, setCell, setHdr, hc, hzi]
        · simp [list_remove, setCell, setHdr, hc, haz, this]
      · simp [list_remove, setCell, setHdr, hc]
      · simp [list_remove, setCell, setHdr, hc]; simp at hl; simp [hl, List.getLast?_cons]
      · simp [list_remove, setCell, setHdr, hc]; simp at hcnt; omega
      · simp [list_remove, setCell, setHdr, hc]
      · intro a ha; simp at ha; simp [list_remove, setCell, setHdr, hc, ha]
      · intro k hk; simp [list_remove, setCell, setHdr, hc, hk, free_array_hdr_ne]
  · obtain ⟨ys, rfl⟩ := eq_snoc_of_getLast? hy
    have hri : r1 ≠ item := by rintro rfl; simp at hiy
    have hry : r1 ∉ ys := by
      have := hnd2.1; rw [List.nodup_append] at this
      intro hm; exact this.2.2 _ hm _ (by simp) rfl
    have hiy' : item ∉ ys := by simp at hiy; exact hiy.1
    simp at hc
    rcases zs with _ | ⟨z, zs⟩
    · simp at hc
      refine ⟨⟨?_, hnd', ?_, ?_, ?_, ?_⟩, ?_, ?_⟩
      · rw [List.append_nil]
        refine (Seg.setNext none s1 hry).congr ?_
        intro a ha
        have : a ≠ item := by rintro rfl; exact hiy ha
        by_cases haz : a = r1
        · subst haz; simp [list_remove, setCell, setHdr, hc, hri, Ne.symm hri]
        · simp [list_remove, setCell, setHdr, hc, haz, this, Ne.symm hri]
      · simp [list_remove, setCell, setHdr, hc, Ne.symm hri]; rw [hf]; cases ys <;> simp
      · simp [list_remove, setCell, setHdr, hc, Ne.symm hri]
      · simp [list_remove, setCell, setHdr, hc, Ne.symm hri]; simp at hcnt; omega
      · simp [list_remove, setCell, setHdr, hc, Ne.symm hri]
      · intro a ha; simp at ha; simp [list_remove, setCell, setHdr, hc, ha, Ne.symm hri]
      · intro k hk; simp [list_remove, setCell, setHdr, hc, hk, free_array_hdr_ne, Ne.symm hri]
    · simp at hc
      have hzi : z ≠ item := by rintro rfl; simp at hiz
      have hzz : z ∉ zs := by
        have := (List.nodup_append.1 hnd').2.1; exact (List.nodup_cons.1 this).1
      have hzr : z ≠ r1 := by
        intro e; exact (List.nodup_append.1 hnd').2.2 r1 (by simp) z (by simp) e.symm
      have hzy : z ∉ ys ++ [r1] := by
        intro e; exact (List.nodup_append.1 hnd').2.2 z e z (by simp) rfl
      have hrz : r1 ∉ z :: zs := by
        intro e; exact (List.nodup_append.1 hnd').2.2 r1 (by simp) r1 e rfl
      refine ⟨⟨?_, hnd', ?_, ?_, ?_, ?_⟩, ?_, ?_⟩
      · rw [seg_append]
        refine ⟨(Seg.setNext (some z) s1 hry).congr ?_, ?_⟩
        · intro a ha
          have h1 : a ≠ item := by rintro rfl; exact hiy ha
          have h2 : a ≠ z := by rintro rfl; exact hzy ha
          by_cases haz : a = r1
          · subst haz; simp [list_remove, setCell, setHdr, hc, hri, Ne.symm hri, Ne.symm hzr]
          · simp [list_remove, setCell, setHdr, hc, haz, h1, h2, Ne.symm hri]
        · simp only [List.getLast?_append, List.getLast?_singleton, Option.some_or]
          refine (Seg.setPrev (some r1) s2 hzz).congr ?_
          intro a ha
          have h1 : a ≠ item := by rintro rfl; exact hiz ha
          have h2 : a ≠ r1 := by rintro rfl; exact hrz ha
          by_cases haz : a = z
          · subst haz; simp [list_remove, setCell, setHdr, hc, hzi, hzr, Ne.symm hri]
          · simp [list_remove, setCell, setHdr, hc, haz, h1, h2, Ne.symm hri]
      · simp [list_remove, setCell, setHdr, hc, Ne.symm hri]; rw [hf]; cases ys <;> simp
      · simp [list_remove, setCell, setHdr, hc, Ne.symm hri]; rw [hl]; simp [List.getLast?_cons]
      · simp [list_remove, setCell, setHdr, hc, Ne.symm hri]; simp at hcnt; omega
      · simp [list_remove, setCell, setHdr, hc, Ne.symm hri]
      · intro a ha; simp at ha; simp [list_remove, setCell, setHdr, hc, ha, Ne.symm hri]
      · intro k hk; simp [list_remove, setCell, setHdr, hc, hk, free_array_hdr_ne, Ne.symm hri]

/-- Invariant of the whole memory: every list represents its sequence and no item is in two lists. -/
structure Inv (m : Mem ι) (s : Abs ι) : Prop where
  rep  : ∀ l, Rep m l (s l)
  disj : ∀ k l, k ≠ l → ∀ a ∈ s k, a ∉ s l

theorem upd_same (s : Abs ι) (l : ι) (xs) : upd s l xs l = xs := by simp [upd]
theorem upd_ne (s : Abs ι) {k l : ι} (xs) (h : k ≠ l) : upd s l xs k = s k := by simp [upd, h]

theorem Inv.insert {m : Mem ι} {s : Abs ι} (h : Inv m s) (l : ι) (ys zs : List Addr) (item : Addr)
    (e : s l = ys ++ zs) (hi : ∀ k, item ∉ s k) :
    Inv (list_insert m l ys.getLast? item zs.head?) (upd s l (ys ++ item :: zs)) := by
  obtain ⟨h1, h2, h3⟩ := list_insert_spec m l ys zs item (e ▸ h.rep l) (e ▸ hi l)
  refine ⟨?_, ?_⟩
  · intro k
    by_cases hk : k = l
    · subst hk; rw [upd_same]; exact h1
    · rw [upd_ne _ _ hk]
      refine (h.rep k).frame (fun a ha => h2 a ?_ ?_) (h3 k hk)
      · rintro rfl; exact hi k ha
      · rw [← e]; exact h.disj k l hk a ha
  · intro k k' hkk a ha
    by_cases hk : k = l
    · subst hk; rw [upd_ne _ _ (Ne.symm hkk)]; rw [upd_same] at ha
      have : a = item ∨ a ∈ s k := by rw [e]; simp at ha ⊢; tauto
      rcases this with rfl | ha
      · exact hi k'
      · exact h.disj _ _ hkk a ha
    · rw [upd_ne _ _ hk] at ha
      by_cases hk' : k' = l
      · subst hk'; rw [upd_same]
        have h1 := h.disj _ _ hkk a ha
        rw [e] at h1; simp at h1 ⊢
        refine ⟨h1.1, ?_, h1.2⟩
        rintro rfl; exact hi k ha
      · rw [upd_ne _ _ hk']; exact h.disj _ _ hkk a ha

theorem Inv.remove {m : Mem ι} {s : Abs ι} (h : Inv m s) (l : ι) (ys zs : List Addr) (item : Addr)
    (e : s l = ys ++ item :: zs) :
    Inv (list_remove m l item) (upd s l (ys ++ zs)) := by
  obtain ⟨h1, h2, h3⟩ := list_remove_spec m l ys zs item (e ▸ h.rep l)
  have sub : ∀ a ∈ ys ++ zs, a ∈ s l := by
    intro a ha; rw [e]; simp at ha ⊢; tauto
  refine ⟨?_, ?_⟩
  · intro k
    by_cases hk : k = l
    · subst hk; rw [upd_same]; exact h1
    · rw [upd_ne _ _ hk]
      refine (h.rep k).frame (fun a ha => h2 a ?_) (h3 k hk)
      rw [← e]; exact h.disj k l hk a ha
  · intro k k' hkk a ha
    by_cases hk : k = l
    · subst hk; rw [upd_ne _ _ (Ne.symm hkk)]; rw [upd_same] at ha
      exact h.disj _ _ hkk a (sub a ha)
    · rw [upd_ne _ _ hk] at ha
      by_cases hk' : k' = l
      · subst hk'; rw [upd_same]
        exact fun hh => h.disj _ _ hkk a ha (sub a hh)
      · rw [upd_ne _ _ hk']; exact h.disj _ _ hkk a ha

theorem seg_mid {c : Addr → Cell} {ys zs : List Addr} {r : Addr} (h : Seg c none (ys ++ r :: zs) none) :
    c r = ⟨ys.getLast?, zs.head?⟩ := by
  rw [seg_append] at h
  simpa [Seg] using h.2.1

theorem insBefore_append {a r : Addr} {ys zs : List Addr} (h : r ∉ ys) :
    insBefore a r (ys ++ r :: zs) = ys ++ a :: r :: zs := by
  induction ys with
  | nil => simp [insBefore]
  | cons y ys ih =>
    simp at h
    simp [insBefore, ih h.2, Ne.symm h.1]

theorem insAfter_append {a r : Addr} {ys zs : List Addr} (h : r ∉ ys) :
    insAfter a r (ys ++ r :: zs) = ys ++ r :: a :: zs := by
  induction ys with
  | nil => simp [insAfter]
  | cons y ys ih =>
    simp at h
    simp [insAfter, ih h.2, Ne.symm h.1]

theorem filter_ne_append {r : Addr} {ys zs : List Addr} (h : (ys ++ r :: zs).Nodup) :
    (ys ++ r :: zs).filter (· ≠ r) = ys ++ zs := by
  have h1 := List.nodup_append.1 h
  have e : ∀ l : List Addr, r ∉ l → l.filter (· ≠ r) = l := by
    intro l hl
    rw [List.filter_eq_self]
    intro a ha; simp; rintro rfl; exact hl ha
  rw [List.filter_append, e ys (fun hh => h1.2.2 r hh r (by simp) rfl)]
  simp only [ne_eq, not_true_eq_false, decide_false, Bool.false_eq_true, not_false_eq_true,
    List.filter_cons_of_neg]
  have := e zs (List.nodup_cons.1 h1.2.1).1
  simp only [ne_eq] at this
  rw [this]

theorem fill_seg {c : Addr → Cell} {p xs} (h : Seg c p xs none) :
    fill c xs.length xs.head? = .ok (xs.map some) := by
  induction xs generalizing p with
  | nil => simp [fill]
  | cons x xs ih =>
    have := ih h.2
    simp only [List.length_cons, List.head?_cons, fill, List.map_cons]
    rw [h.1]; simp [this]

theorem list_empty_spec (junk : Addr → Cell) (xs : List Addr) :
    ∀ (fuel : Nat) (m : Mem ι) (s : Abs ι) (l : ι), xs.length ≤ fuel → s l = xs → Inv m s →
      ∃ m', list_empty junk fuel m l = .ok (m', xs) ∧ Inv m' (upd s l []) := by
  induction xs with
  | nil =>
    intro fuel m s l _ e h
    have hf := (h.rep l).first
    rw [e] at hf
    refine ⟨m, by unfold list_empty; simp [hf], ?_⟩
    have : upd s l [] = s := by funext k; by_cases hk : k = l <;> simp [upd, hk, e]
    rw [this]; exact h
  | cons x xs ih =>
    intro fuel m s l hfu e h
    obtain ⟨fuel, rfl⟩ : ∃ f, fuel = f + 1 := ⟨fuel - 1, by simp at hfu; omega⟩
    have hf := (h.rep l).first
    rw [e] at hf
    have h1 := h.remove l [] xs x e
    have hx : ∀ k, x ∉ upd s l ([] ++ xs) k := by
      intro k
      by_cases hk : k = l
      · subst hk; rw [upd_same]
        have := (h.rep k).nodup; rw [e] at this; exact (List.nodup_cons.1 this).1
      · rw [upd_ne _ _ hk]; exact h.disj l k (Ne.symm hk) x (by simp [e])
    have h2 : Inv (setCell (list_remove m l x) x (junk x)) (upd s l ([] ++ xs)) := by
      refine ⟨fun k => (h1.rep k).frame ?_ rfl, h1.disj⟩
      intro a ha
      have : a ≠ x := by rintro rfl; exact hx k ha
      simp [setCell, this]
    obtain ⟨m', e1, e2⟩ := ih fuel _ _ l (by simp at hfu; omega) (by simp [upd_same]) h2
    refine ⟨m', ?_, ?_⟩
    · unfold list_empty; simp [hf, e1]
    · have : upd (upd s l ([] ++ xs)) l [] = upd s l [] := by
        funext k; by_cases hk : k = l <;> simp [upd, hk]
      rwa [this] at e2

theorem in_array_spec {m : Mem ι} {s : Abs ι} (h : Inv m s) (l : ι) :
    ∃ m', list_in_array m l = .ok m' ∧ Inv m' s ∧
      (s l ≠ [] → (m'.hdr l).array = some ((s l).map some)) := by
  have hr := h.rep l
  unfold list_in_array
  by_cases hc : (m.hdr l).array.isSome ∨ (m.hdr l).count = 0
  · refine ⟨m, by rw [if_pos hc], h, ?_⟩
    intro hne
    rcases hc with hc | hc
    · rcases hr.array with ha | ha
      · simp [ha] at hc
      · exact ha
    · rw [hr.count] at hc; simp at hc; exact absurd hc hne
  · rw [if_neg hc, hr.count, hr.first]
    simp only [Int.toNat_natCast, fill_seg hr.seg]
    refine ⟨_, rfl, ⟨?_, h.disj⟩, ?_⟩
    · intro k
      by_cases hk : k = l
      · subst hk
        exact ⟨hr.seg, hr.nodup, by simp [setHdr, hr.first], by simp [setHdr, hr.last],
          by simp [setHdr, hr.count], by simp [setHdr]⟩
      · exact (h.rep k).frame (fun _ _ => rfl) (by simp [setHdr, hk])
    · simp [setHdr]

theorem exec_spec {m : Mem ι} {s : Abs ι} (h : Inv m s) (op : Op ι) (hl : legal s op)
    (fuel : Nat) (hfu : ∀ l, (s l).length ≤ fuel) :
    ∃ m', exec fuel m op = .ok m' ∧ Inv m' (specStep s op) := by
  cases op with
  | insertFirst l a =>
    refine ⟨_, rfl, ?_⟩
    have := h.insert l [] (s l) a rfl hl
    simp only [List.getLast?_nil, List.nil_append, ← (h.rep l).first] at this
    exact this
  | insertLast l a =>
    refine ⟨_, rfl, ?_⟩
    have := h.insert l (s l) [] a (by simp) hl
    simp only [List.head?_nil, ← (h.rep l).last] at this
    exact this
  | insertBefore l a r =>
    obtain ⟨hl1, hl2⟩ := hl
    refine ⟨_, rfl, ?_⟩
    obtain ⟨ys, zs, e⟩ := List.append_of_mem hl2
    have hnd := (h.rep l).nodup
    have hs := (h.rep l).seg
    rw [e] at hnd hs
    have hry : r ∉ ys := fun hh => (List.nodup_append.1 hnd).2.2 r hh r (by simp) rfl
    have := h.insert l ys (r :: zs) a e hl1
    simp only [specStep, e, insBefore_append hry]
    simp only [list_insert_before, seg_mid hs]
    exact this
  | insertAfter l r a =>
    obtain ⟨hl1, hl2⟩ := hl
    refine ⟨_, rfl, ?_⟩
    obtain ⟨ys, zs, e⟩ := List.append_of_mem hl2
    have hnd := (h.rep l).nodup
    have hs := (h.rep l).seg
    rw [e] at hnd hs
    have hry : r ∉ ys := fun hh => (List.nodup_append.1 hnd).2.2 r hh r (by simp) rfl
    have := h.insert l (ys ++ [r]) zs a (by simp [e]) hl1
    simp only [specStep, e, insAfter_append hry]
    simp only [list_insert_after, seg_mid hs]
    simpa using this
  | remove l a =>
    refine ⟨_, rfl, ?_⟩
    obtain ⟨ys, zs, e⟩ := List.append_of_mem hl
    have hnd := (h.rep l).nodup
    rw [e] at hnd
    have := h.remove l ys zs a e
    simp only [specStep]
    rw [e, filter_ne_append hnd]
    exact this
  | inArray l =>
    obtain ⟨m', e, h', _⟩ := in_array_spec h l
    exact ⟨m', e, h'⟩
  | empty l junk =>
    obtain ⟨m', e, h'⟩ := list_empty_spec junk (s l) fuel m s l (hfu l) rfl h
    exact ⟨m', by simp [exec, e], h'⟩

theorem length_insBefore (a r : Addr) (xs : List Addr) : (insBefore a r xs).length ≤ xs.length + 1 := by
  induction xs with
  | nil => simp [insBefore]
  | cons x xs ih => simp only [insBefore]; split <;> simp; omega

theorem length_insAfter (a r : Addr) (xs : List Addr) : (insAfter a r xs).length ≤ xs.length + 1 := by
  induction xs with
  | nil => simp [insAfter]
  | cons x xs ih => simp only [insAfter]; split <;> simp; omega

theorem specStep_length (s : Abs ι) (op : Op ι) (k : ι) :
    (specStep s op k).length ≤ (s k).length + 1 := by
  have key : ∀ (l : ι) (xs : List Addr), xs.length ≤ (s l).length + 1 →
      (upd s l xs k).length ≤ (s k).length + 1 := by
    intro l xs h
    by_cases hk : k = l
    · subst hk; rw [upd_same]; exact h
    · rw [upd_ne _ _ hk]; omega
  cases op with
  | insertFirst l a => exact key _ _ (by simp)
  | insertLast l a => exact key _ _ (by simp)
  | insertBefore l a r => exact key _ _ (length_insBefore _ _ _)
  | insertAfter l r a => exact key _ _ (length_insAfter _ _ _)
  | remove l a => exact key _ _ (Nat.le_succ_of_le (List.length_filter_le _ _))
  | inArray l => simp [specStep]
  | empty l j => exact key _ _ (by simp)

theorem execAll_spec (ops : List (Op ι)) : ∀ {m : Mem ι} {s : Abs ι}, Inv m s → legalAll s ops →
    ∀ (fuel : Nat), (∀ l, (s l).length + ops.length ≤ fuel) →
    ∃ m', execAll fuel m ops = .ok m' ∧ Inv m' (specAll s ops) := by
  induction ops with
  | nil => intro m s h _ fuel _; exact ⟨m, rfl, h⟩
  | cons op ops ih =>
    intro m s h hl fuel hfu
    obtain ⟨m1, e1, h1⟩ := exec_spec h op hl.1 fuel (fun l => by have := hfu l; simp at this; omega)
    obtain ⟨m2, e2, h2⟩ := ih h1 hl.2 fuel (fun l => by
      have := hfu l; have := specStep_length s op l; simp at *; omega)
    exact ⟨m2, by simp [execAll, e1, e2], h2⟩

theorem walk_fwd {c : Addr → Cell} {p xs} (h : Seg c p xs none) :
    Walk (fun a => (c a).next) xs.head? xs := by
  induction xs generalizing p with
  | nil => exact .nil
  | cons x xs ih =>
    refine .cons ?_
    simp only [h.1, Option.or_none]; exact ih h.2

theorem walk_bwd {c : Addr → Cell} (xs : List Addr) : ∀ {n}, Seg c none xs n →
    Walk (fun a => (c a).prev) xs.getLast? xs.reverse := by
  induction xs using List.reverseRecOn with
  | nil => intro n _; exact .nil
  | append_singleton ys y ih =>
    intro n h
    rw [seg_append] at h
    simp only [List.getLast?_append, List.getLast?_singleton, Option.some_or, List.reverse_append,
      List.reverse_singleton, List.singleton_append]
    refine .cons ?_
    simp only [h.2.1, Option.or_none]
    exact ih h.1

omit [DecidableEq ι] in
theorem Rep.shows {m : Mem ι} {l : ι} {xs} (h : Rep m l xs) : Shows m l xs :=
  ⟨h.first ▸ walk_fwd h.seg, h.last ▸ walk_bwd _ h.seg, h.count, h.array⟩

omit [DecidableEq ι] in
theorem inv_init (m : Mem ι) (hm : ∀ l, m.hdr l = ⟨none, none, none, 0⟩) : Inv m (fun _ => []) := by
  refine ⟨fun l => ⟨trivial, by simp, by simp [hm], by simp [hm], by simp [hm], by simp [hm]⟩, by simp⟩

end Ocr.CList
