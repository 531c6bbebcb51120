import Verif.Model.TextHeap
import Verif.Proof.CList
import Mathlib.Data.List.Nodup
import Mathlib.Data.List.Perm.Subperm

/-!
# Texts and word lists on a heap: the representation, and text.c
-/

namespace Ocr.TextHeap
open Text Res CList

def two (as bs : List Addr) : Abs Bool := fun l => if l then as else bs

@[simp] theorem two_true (as bs : List Addr) : two as bs true = as := rfl
@[simp] theorem two_false (as bs : List Addr) : two as bs false = bs := rfl
@[simp] theorem upd_true (as bs xs : List Addr) : upd (two as bs) true xs = two xs bs := by
  funext l; cases l <;> simp [upd]
@[simp] theorem upd_false (as bs xs : List Addr) : upd (two as bs) false xs = two as xs := by
  funext l; cases l <;> simp [upd]

/-- The text has the items `as` and the word list `bs`; these are the characters and words that are allocated, with contents `cv` and
`wv`. -/
structure TR (h : THeap) (as : List Addr) (cv : Addr → Ch) (bs : List Addr) (wv : Addr → Option Addr) : Prop where
  inv   : Inv h.links (two as bs)
  char  : ∀ a, h.char a = if a ∈ as then some (cv a) else none
  word  : ∀ a, h.word a = if a ∈ bs then some (wv a) else none
  below : ∀ a, a ∈ as ∨ a ∈ bs → a < h.next

variable {h h' : THeap} {as bs ys zs : List Addr} {cv : Addr → Ch} {wv : Addr → Option Addr} {a : Addr} {l : Bool}

theorem TR.getChar (r : TR h as cv bs wv) (ha : a ∈ as) : getChar h a = .ok (cv a) := by
  simp [TextHeap.getChar, r.char, ha]

theorem TR.getWord (r : TR h as cv bs wv) (ha : a ∈ bs) : getWord h a = .ok (wv a) := by
  simp [TextHeap.getWord, r.word, ha]

theorem TR.live (r : TR h as cv bs wv) {p : Option Addr} (hp : ∀ a, p = some a → a ∈ two as bs l) : live h l p = true := by
  cases p with
  | none => rfl
  | some a =>
    have := hp a rfl
    cases l <;> simp at this <;> simp [TextHeap.live, r.char, r.word, this]

theorem TR.cell (r : TR h as cv bs wv) (e : two as bs l = ys ++ a :: zs) : h.links.cell a = ⟨ys.getLast?, zs.head?⟩ := by
  have hs := (r.inv.rep l).seg
  rw [e] at hs
  exact seg_mid hs

theorem TR.nextOf (r : TR h as cv bs wv) (e : two as bs l = ys ++ a :: zs) : nextOf h l a = .ok zs.head? := by
  have hl : TextHeap.live h l (some a) = true := r.live (by rintro b ⟨⟩; rw [e]; simp)
  simp [TextHeap.nextOf, hl, r.cell e]

theorem TR.nodup (r : TR h as cv bs wv) : as.Nodup := (r.inv.rep true).nodup
theorem TR.nodup' (r : TR h as cv bs wv) : bs.Nodup := (r.inv.rep false).nodup

theorem TR.apart (r : TR h as cv bs wv) (ha : a ∈ as) : a ∉ bs := r.inv.disj true false (by simp) a ha
theorem TR.apart' (r : TR h as cv bs wv) (ha : a ∈ bs) : a ∉ as := r.inv.disj false true (by simp) a ha

theorem TR.length_le (r : TR h as cv bs wv) (l : Bool) : (two as bs l).length ≤ h.next := by
  have h1 : (two as bs l).Nodup := (r.inv.rep l).nodup
  have h2 : two as bs l ⊆ List.range h.next := by
    intro a ha
    refine List.mem_range.2 (r.below a ?_)
    cases l
    · exact Or.inr ha
    · exact Or.inl ha
  simpa using (List.subperm_of_subset h1 h2).length_le

theorem TR.len (r : TR h as cv bs wv) : as.length ≤ h.next := r.length_le true
theorem TR.len' (r : TR h as cv bs wv) : bs.length ≤ h.next := r.length_le false

theorem TR.fresh (r : TR h as cv bs wv) (l : Bool) : h.next ∉ two as bs l := by
  intro hm
  exact Nat.lt_irrefl _ (r.below h.next (by cases l; exacts [Or.inr hm, Or.inl hm]))

theorem TR.first (r : TR h as cv bs wv) (l : Bool) : (h.links.hdr l).first = (two as bs l).head? := (r.inv.rep l).first
theorem TR.last (r : TR h as cv bs wv) (l : Bool) : (h.links.hdr l).last = (two as bs l).getLast? := (r.inv.rep l).last

/-- The strings do not matter. -/
theorem TR.strs (r : TR h as cv bs wv) (f : Addr → Option (List Nat)) (n : Nat) : TR { h with str := f, nextStr := n } as cv bs wv :=
  ⟨r.inv, r.char, r.word, r.below⟩

theorem TR.congr (r : TR h as cv bs wv) {cv' : Addr → Ch} (e : ∀ a ∈ as, cv' a = cv a) : TR h as cv' bs wv := by
  refine ⟨r.inv, fun a => ?_, r.word, r.below⟩
  rw [r.char]
  by_cases ha : a ∈ as <;> simp [ha, e]

/-- The arrays of bytes are the same. -/
def SameStr (h h' : THeap) : Prop := h'.str = h.str ∧ h'.nextStr = h.nextStr

theorem SameStr.refl (h : THeap) : SameStr h h := ⟨rfl, rfl⟩
theorem SameStr.trans {h h' h'' : THeap} (e : SameStr h h') (e' : SameStr h' h'') : SameStr h h'' :=
  ⟨e'.1.trans e.1, e'.2.trans e.2⟩

def put {β : Type} (f : Addr → β) (a : Addr) (x : β) : Addr → β := fun b => if b = a then x else f b

@[simp] theorem put_same {β : Type} (f : Addr → β) (a : Addr) (x : β) : put f a x a = x := by simp [put]
theorem put_ne {β : Type} (f : Addr → β) {a b : Addr} (x : β) (hb : b ≠ a) : put f a x b = f b := by simp [put, hb]

theorem put_map {β γ : Type} (f : Addr → β) (a : Addr) (x : β) {xs : List Addr} (ha : a ∉ xs) (g : β → γ) :
    xs.map (fun b => g (put f a x b)) = xs.map (fun b => g (f b)) := by
  apply List.map_congr_left
  intro b hb
  rw [put_ne]; rintro rfl; exact ha hb

theorem TR.setChar (r : TR h as cv bs wv) (ha : a ∈ as) (c : Ch) :
    ∃ h', setChar h a c = .ok h' ∧ TR h' as (put cv a c) bs wv ∧ SameStr h h' ∧ h'.next = h.next := by
  refine ⟨{ h with char := fun x => if x = a then some c else h.char x }, ?_, ⟨r.inv, ?_, r.word, r.below⟩, ⟨rfl, rfl⟩, rfl⟩
  · simp [TextHeap.setChar, r.getChar ha]
  · intro b
    by_cases hb : b = a
    · simp [hb, ha]
    · simp [hb, r.char, put]

theorem inv_setCell {m : Mem Bool} {s : Abs Bool} (h : Inv m s) {a : Addr} (ha : ∀ l, a ∉ s l) (c : Cell) : Inv (setCell m a c) s := by
  refine ⟨fun l => (h.rep l).frame (fun b hb => ?_) rfl, h.disj⟩
  have : b ≠ a := by rintro rfl; exact ha l hb
  simp [setCell, this]

/-! ## append_char -/

theorem ite_again {α : Type} {p : Prop} [Decidable p] (x y z : α) : (if p then x else if p then y else z) = if p then x else z := by
  by_cases hp : p <;> simp [hp]

theorem TR.append (r : TR h as cv bs wv) (suspect : Bool) (value : Nat) :
    ∃ h', append_char suspect value h = .ok h' ∧ TR h' (as ++ [h.next]) (put cv h.next ⟨suspect, value⟩) bs wv ∧ SameStr h h' ∧
      h'.next = h.next + 1 := by
  have hf := r.fresh true
  have hf' := r.fresh false
  simp only [two_true, two_false] at hf hf'
  refine ⟨{ h with
      links := list_insert (setCell h.links h.next ⟨none, none⟩) true as.getLast? h.next none
      char := fun x => if x = h.next then some ⟨suspect, value⟩ else h.char x
      next := h.next + 1 }, ?_, ?_, ⟨rfl, rfl⟩, rfl⟩
  · have h1 : ∀ f, TextHeap.live { h with
        links := setCell h.links h.next ⟨none, none⟩
        char := fun x => if x = h.next then some f else h.char x
        next := h.next + 1 } true as.getLast? = true := by
      intro f
      cases hl : as.getLast? with
      | none => rfl
      | some a =>
        have := List.mem_of_getLast? hl
        have hn : a ≠ h.next := by rintro rfl; exact hf this
        simp [TextHeap.live, r.char, this, hn]
    have hl := r.last true
    simp only [two_true] at hl
    unfold append_char newChar
    dsimp only
    simp only [TextHeap.getChar, TextHeap.setChar, if_true, bind_ok, pure_eq, insert_last, TextHeap.insert]
    have h2 : ((setCell h.links h.next ⟨none, none⟩).hdr true).last = as.getLast? := hl
    simp only [h2]
    simp only [ite_again]
    rw [if_pos ⟨h1 _, by simp [TextHeap.live], rfl⟩]
  · refine ⟨?_, ?_, r.word, ?_⟩
    · have := (inv_setCell r.inv (fun l => r.fresh l) ⟨none, none⟩).insert true as [] h.next (by simp) (fun l => r.fresh l)
      simpa using this
    · intro a
      by_cases ha : a = h.next
      · simp [ha]
      · simp [ha, r.char, put]
    · rintro a (ha | ha)
      · rcases List.mem_append.1 ha with ha | ha
        · exact Nat.lt_succ_of_lt (r.below a (Or.inl ha))
        · simp at ha; simp [ha]
      · exact Nat.lt_succ_of_lt (r.below a (Or.inr ha))

/-! ## list_remove and free -/

theorem TR.drop (r : TR h as cv bs wv) (e : as = ys ++ a :: zs) :
    ∃ h', (do let h ← remove h true a; freeChar h a) = .ok h' ∧ TR h' (ys ++ zs) cv bs wv ∧ SameStr h h' ∧ h'.next = h.next := by
  have hn := r.nodup
  rw [e] at hn
  have ha : a ∈ as := by simp [e]
  have hc := r.cell (l := true) e
  refine ⟨{ h with links := list_remove h.links true a, char := fun x => if x = a then none else h.char x }, ?_, ?_, ⟨rfl, rfl⟩, rfl⟩
  · have h1 : TextHeap.live h true (some a) = true := r.live (by rintro b ⟨⟩; exact ha)
    have h2 : TextHeap.live h true ys.getLast? = true := r.live (by intro b hb; simp [e, List.mem_of_getLast? hb])
    have h3 : TextHeap.live h true zs.head? = true := r.live (by intro b hb; simp [e, List.mem_of_head? hb])
    simp [remove, hc, h1, h2, h3, freeChar, TextHeap.getChar, r.char, ha]
  · refine ⟨?_, ?_, r.word, ?_⟩
    · have := r.inv.remove true ys zs a (by simpa using e)
      simpa using this
    · intro b
      by_cases hb : b = a
      · subst hb
        have : b ∉ ys ++ zs := by
          have := (List.nodup_middle.1 hn)
          exact (List.nodup_cons.1 this).1
        simp only [if_true, this, if_false]
      · simp [hb, r.char, e]
    · rintro b (hb | hb)
      · refine r.below b (Or.inl ?_)
        rw [e]; simp at hb ⊢; tauto
      · exact r.below b (Or.inr hb)

theorem TR.emptyLoop : ∀ (as : List Addr) (fuel : Nat) (h : THeap), as.length ≤ fuel → TR h as cv bs wv →
    ∃ h', empty true (fun a h => freeChar h a) fuel h = .ok h' ∧ TR h' [] cv bs wv ∧ SameStr h h' ∧ h'.next = h.next := by
  intro as
  induction as with
  | nil =>
    intro fuel h _ r
    have := r.first true
    refine ⟨h, ?_, r, ⟨rfl, rfl⟩, rfl⟩
    unfold empty; simp [this]
  | cons a as ih =>
    intro fuel h hf r
    have hfi := r.first true
    obtain ⟨fuel, rfl⟩ : ∃ f, fuel = f + 1 := ⟨fuel - 1, by simp at hf; omega⟩
    obtain ⟨h1, e1, r1, s1, n1⟩ := r.drop (ys := []) (zs := as) (a := a) rfl
    obtain ⟨h2, e2, r2, s2, n2⟩ := ih fuel h1 (by simp at hf; omega) r1
    refine ⟨h2, ?_, r2, s1.trans s2, by omega⟩
    obtain ⟨h0, e3, e4⟩ := bind_eq_ok.1 e1
    unfold empty
    simp [hfi, e3, e4, e2]

theorem TR.empty_text (r : TR h as cv bs wv) :
    ∃ h', empty_text h = .ok h' ∧ TR h' [] cv bs wv ∧ SameStr h h' ∧ h'.next = h.next :=
  TR.emptyLoop as h.next h r.len r

/-! ## Values -/

theorem TR.valueLoop (f : Nat → Nat) : ∀ (zs : List Addr) (fuel : Nat) (h : THeap) (cv : Addr → Ch) (ys : List Addr), zs.length ≤ fuel →
    TR h (ys ++ zs) cv bs wv →
    ∃ h' cv', valueLoop f fuel zs.head? h = .ok h' ∧ TR h' (ys ++ zs) cv' bs wv ∧ SameStr h h' ∧ h'.next = h.next ∧
      (∀ a ∈ ys, cv' a = cv a) ∧ zs.map cv' = (zs.map cv).map (fun c => { c with value := f c.value }) := by
  intro zs
  induction zs with
  | nil => intro fuel h cv ys _ r; exact ⟨h, cv, by simp [TextHeap.valueLoop], r, ⟨rfl, rfl⟩, rfl, fun _ _ => rfl, rfl⟩
  | cons a zs ih =>
    intro fuel h cv ys hf r
    obtain ⟨fuel, rfl⟩ : ∃ f, fuel = f + 1 := ⟨fuel - 1, by simp at hf; omega⟩
    obtain ⟨h1, e1, r1, s1, n1⟩ := r.setChar (a := a) (by simp) { cv a with value := f (cv a).value }
    have hn := r.nodup
    have hd := List.nodup_append.1 hn
    have haz : a ∉ zs := (List.nodup_cons.1 hd.2.1).1
    have hay : ∀ b ∈ ys, b ≠ a := fun b hb => hd.2.2 b hb a (by simp)
    obtain ⟨h2, cv2, e2, r2, s2, n2, p2, m2⟩ := ih fuel h1 _ (ys ++ [a]) (by simp at hf; omega) (by simpa using r1)
    refine ⟨h2, cv2, ?_, by simpa using r2, s1.trans s2, by omega, ?_, ?_⟩
    · simp only [List.head?_cons, TextHeap.valueLoop, r.getChar (a := a) (by simp), bind_ok, e1, r1.nextOf (l := true) (ys := ys) (zs := zs) rfl, e2]
    · intro b hb
      rw [p2 b (by simp [hb]), put_ne _ _ (hay b hb)]
    · have := put_map cv a { cv a with value := f (cv a).value } haz id
      simp only [id] at this
      simp only [List.map_cons, m2, p2 a (by simp), put_same]
      congr 1
      simp only [List.map_map] at this ⊢
      apply List.map_congr_left
      intro b hb
      have : b ≠ a := by rintro rfl; exact haz hb
      simp [put, this]

/-! ## compress_spacing -/

theorem drops_eq (r : TR h as cv bs wv) (e : as = ys ++ a :: zs) (found : Bool) :
    drops h found (cv a) zs.head? = .ok (decide (((cv a).value = BLANK ∧ (found = false ∨ (zs.map cv).head? = none ∨
          (zs.map cv).head?.any (fun n => n.value = BLANK ∨ n.value = NEWLINE))) ∨
        ((cv a).value = NEWLINE ∧ found = false))) := by
  have hbn : BLANK ≠ NEWLINE := by decide
  unfold drops
  by_cases h1 : (cv a).value = BLANK
  · simp only [h1, if_true, true_and, hbn, false_and, or_false, decide_false]
    by_cases h2 : found = false
    · simp [h2]
    · simp only [h2]
      cases zs with
      | nil => simp
      | cons b zs =>
        simp only [List.head?_cons, r.getChar (a := b) (by simp [e]), bind_ok, pure_eq, List.map_cons]
        by_cases h3 : (cv b).value = BLANK
        · simp [h3]
        · by_cases h4 : (cv b).value = NEWLINE <;> simp [h3, h4]
  · simp only [h1, if_false, false_and, false_or]

theorem TR.compressLoop : ∀ (zs : List Addr) (fuel : Nat) (found : Bool) (h : THeap) (cv : Addr → Ch) (ys : List Addr), zs.length ≤ fuel →
    TR h (ys ++ zs) cv bs wv →
    ∃ h' cv' zs', compressLoop fuel zs.head? found h = .ok h' ∧ TR h' (ys ++ zs') cv' bs wv ∧ SameStr h h' ∧ h'.next = h.next ∧
      (∀ a ∈ ys, cv' a = cv a) ∧ zs'.map cv' = Text.compressLoop found (zs.map cv) ∧ zs'.Sublist zs := by
  intro zs
  induction zs with
  | nil =>
    intro fuel found h cv ys _ r
    exact ⟨h, cv, [], by simp [TextHeap.compressLoop], r, ⟨rfl, rfl⟩, rfl, fun _ _ => rfl, by simp [Text.compressLoop], List.Sublist.refl _⟩
  | cons a zs ih =>
    intro fuel found h cv ys hf r
    obtain ⟨fuel, rfl⟩ : ∃ f, fuel = f + 1 := ⟨fuel - 1, by simp at hf; omega⟩
    have hf' : zs.length ≤ fuel := by simp at hf; omega
    have hd := List.nodup_append.1 r.nodup
    have haz : a ∉ zs := (List.nodup_cons.1 hd.2.1).1
    have hay : ∀ b ∈ ys, b ≠ a := fun b hb => hd.2.2 b hb a (by simp)
    have hnx := r.nextOf (l := true) (ys := ys) (zs := zs) rfl
    have hdr := drops_eq r (ys := ys) (zs := zs) (a := a) rfl found
    simp only [List.head?_cons, TextHeap.compressLoop, compressStep, hnx, bind_ok, r.getChar (a := a) (by simp), hdr]
    simp only [List.map_cons]
    rw [Text.compressLoop.eq_def]
    simp only
    by_cases hDD : (((cv a).value = BLANK ∧ (found = false ∨ (zs.map cv).head? = none ∨
          (zs.map cv).head?.any (fun n => n.value = BLANK ∨ n.value = NEWLINE))) ∨ ((cv a).value = NEWLINE ∧ found = false))
    · rw [if_pos hDD, decide_eq_true hDD]
      clear hDD
      simp only [if_true]
      cases zs with
      | nil =>
        obtain ⟨h1, e1, r1, s1, n1⟩ := r.drop (ys := ys) (zs := []) (a := a) rfl
        obtain ⟨h0, e3, e4⟩ := bind_eq_ok.1 e1
        refine ⟨h1, cv, [], ?_, by simpa using r1, s1, n1, fun _ _ => rfl, by simp, by simp⟩
        cases found <;> simp [e3, e4, TextHeap.compressLoop]
      | cons b zs =>
        simp only [List.map_cons, List.head?_cons]
        by_cases hb : found = true ∧ (cv b).value = BLANK
        · rw [if_pos hb]
          obtain ⟨h1, e1, r1, s1, n1⟩ := r.setChar (a := b) (by simp) { cv b with suspect := (cv b).suspect || (cv a).suspect }
          obtain ⟨h2, e2, r2, s2, n2⟩ := r1.drop (ys := ys) (zs := b :: zs) (a := a) rfl
          obtain ⟨h0, e3, e4⟩ := bind_eq_ok.1 e2
          obtain ⟨h3, cv3, zs3, e5, r5, s5, n5, p5, m5, l5⟩ := ih fuel found h2 _ ys hf' r2
          refine ⟨h3, cv3, zs3, ?_, r5, (s1.trans s2).trans s5, by omega, ?_, ?_, l5.cons _⟩
          · obtain ⟨rfl, hb2⟩ := hb
            simp only [if_true, r.getChar (a := b) (by simp), bind_ok]
            rw [if_pos hb2]
            simp only [e1, e3, e4, bind_ok, pure_eq]
            exact e5
          · intro x hx
            have : x ≠ b := hd.2.2 x hx b (by simp)
            rw [p5 x hx, put_ne _ _ this]
          · have hbz : b ∉ zs := (List.nodup_cons.1 (List.nodup_cons.1 hd.2.1).2).1
            rw [m5]
            have := put_map cv b { cv b with suspect := (cv b).suspect || (cv a).suspect } hbz id
            simp only [id] at this
            simp [this]
        · rw [if_neg hb]
          obtain ⟨h2, e2, r2, s2, n2⟩ := r.drop (ys := ys) (zs := b :: zs) (a := a) rfl
          obtain ⟨h0, e3, e4⟩ := bind_eq_ok.1 e2
          obtain ⟨h3, cv3, zs3, e5, r5, s5, n5, p5, m5, l5⟩ := ih fuel found h2 _ ys hf' r2
          refine ⟨h3, cv3, zs3, ?_, r5, s2.trans s5, by omega, p5, by simpa using m5, l5.cons _⟩
          cases found with
          | false => simpa [e3, e4] using e5
          | true =>
            have : ¬ (cv b).value = BLANK := fun h => hb ⟨rfl, h⟩
            simpa [r.getChar (a := b) (by simp), this, e3, e4] using e5
    · rw [if_neg hDD, decide_eq_false hDD]
      simp only [Bool.false_eq_true, if_false]
      obtain ⟨h3, cv3, zs3, e5, r5, s5, n5, p5, m5, l5⟩ := ih fuel (if (cv a).value = NEWLINE then false else true) h cv (ys ++ [a]) hf' (by simpa using r)
      refine ⟨h3, cv3, a :: zs3, ?_, by simpa using r5, s5, n5, fun x hx => p5 x (by simp [hx]), ?_, l5.cons_cons _⟩
      · simpa using e5
      · simp [m5, p5 a (by simp)]

theorem TR.compress (U : Unicode) (r : TR h (ys ++ zs) cv bs wv) :
    ∃ h' cv' zs', compress_spacing U zs.head? h = .ok h' ∧ TR h' (ys ++ zs') cv' bs wv ∧ SameStr h h' ∧ h'.next = h.next ∧
      (∀ a ∈ ys, cv' a = cv a) ∧ zs'.map cv' = Text.compress_spacing U (zs.map cv) ∧ zs'.Sublist zs := by
  have hl : zs.length ≤ h.next := by have := r.len; simp at this; omega
  obtain ⟨h1, cv1, e1, r1, s1, n1, p1, m1⟩ := TR.valueLoop (fun v => if is_blank U v then BLANK else v) zs h.next h cv ys hl r
  obtain ⟨h2, cv2, zs2, e2, r2, s2, n2, p2, m2, l2⟩ := TR.compressLoop zs h1.next false h1 cv1 ys (by omega) r1
  refine ⟨h2, cv2, zs2, ?_, r2, s1.trans s2, by omega, fun a ha => by rw [p2 a ha, p1 a ha], ?_, l2⟩
  · simp [compress_spacing, e1, e2]
  · rw [m2, m1, Text.compress_spacing]
    congr 1
    apply List.map_congr_left
    intro c _
    by_cases hb : is_blank U c.value <;> simp [hb]

theorem TR.lower (U : Unicode) (r : TR h (ys ++ zs) cv bs wv) :
    ∃ h' cv', lowercase U zs.head? h = .ok h' ∧ TR h' (ys ++ zs) cv' bs wv ∧ SameStr h h' ∧ h'.next = h.next ∧
      (∀ a ∈ ys, cv' a = cv a) ∧ zs.map cv' = Text.lowercase U (zs.map cv) := by
  have hl : zs.length ≤ h.next := by have := r.len; simp at this; omega
  obtain ⟨h1, cv1, e1, r1, s1, n1, p1, m1⟩ := TR.valueLoop U.tolower zs h.next h cv ys hl r
  exact ⟨h1, cv1, e1, r1, s1, n1, p1, m1⟩

end Ocr.TextHeap
