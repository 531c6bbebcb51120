import Verif.Proof.TextHeapWord

/-!
# The strings of words and the keys of tables on a heap
-/

namespace Ocr.TextHeap
open Text Res CList

variable {h h' : THeap} {as bs ys zs start pre post : List Addr} {cv : Addr → Ch} {wv : Addr → Option Addr} {a p : Addr} {l : Bool}
  {prop : Nat → Word.WB}

/-! ## The bytes of a word -/

theorem not_after (r : TR h as cv bs wv) (e : a :: pre ++ post <:+ as) : some a ≠ post.head? := by
  intro hh
  have hn := e.sublist.nodup r.nodup
  rw [List.cons_append, List.nodup_cons] at hn
  exact hn.1 (by simp [List.mem_of_head? hh.symm])

theorem utf8_length_eq (r : TR h as cv bs wv) : ∀ (pre : List Addr) (fuel : Nat), pre.length ≤ fuel → pre ++ post <:+ as →
    find_utf8_length h post.head? fuel (pre ++ post).head? = Word.find_utf8_length (vals cv pre) := by
  intro pre
  induction pre with
  | nil => intro fuel _ _; unfold find_utf8_length; simp [Word.find_utf8_length]
  | cons a pre ih =>
    intro fuel hf e
    obtain ⟨fuel, rfl⟩ : ∃ f, fuel = f + 1 := ⟨fuel - 1, by simp at hf; omega⟩
    have := not_after r e
    have hnx : TextHeap.nextOf h true a = .ok (pre ++ post).head? := r.next_suffix e
    unfold find_utf8_length
    simp only [List.cons_append, List.head?_cons, this, if_false, r.char_suffix e, bind_ok, vals_cons, Word.find_utf8_length]
    split
    · rfl
    · simp only [hnx, bind_ok, ih fuel (by simp at hf; omega) ((List.suffix_cons a _).trans e)]

theorem put_put {β : Type} (f : Addr → β) (a : Addr) (x y : β) : put (put f a x) a y = put f a y := by
  funext b; by_cases hb : b = a <;> simp [put, hb]

theorem copy_eq : ∀ (pre : List Addr) (fuel i : Nat) (h : THeap) (buf : List Nat), TR h as cv bs wv → h.str p = some buf → pre.length ≤ fuel →
    pre ++ post <:+ as → copy_into_buffer p post.head? fuel (pre ++ post).head? i h =
      (Word.copy_into_buffer (vals cv pre) i buf >>= fun b => .ok { h with str := put h.str p (some b) }) := by
  intro pre
  induction pre with
  | nil =>
    intro fuel i h buf r hp _ _
    unfold copy_into_buffer
    simp only [List.nil_append, if_true, getStr, hp, bind_ok, vals_nil, Word.copy_into_buffer, setStr, pure_eq]
    rfl
  | cons a pre ih =>
    intro fuel i h buf r hp hf e
    obtain ⟨fuel, rfl⟩ : ∃ f, fuel = f + 1 := ⟨fuel - 1, by simp at hf; omega⟩
    have := not_after r e
    unfold copy_into_buffer
    simp only [List.cons_append, List.head?_cons, this, if_false, r.char_suffix e, bind_ok, vals_cons, Word.copy_into_buffer, getStr, hp, setStr, pure_eq]
    cases hs : Word.storeBytes (encode_char (cv a).value) i buf with
    | err m => rfl
    | ub => rfl
    | fuel => rfl
    | ok b1 =>
      simp only [bind_ok]
      have r1 : TR { h with str := fun x => if x = p then some b1 else h.str x } as cv bs wv := r.strs _ h.nextStr
      have hnx : TextHeap.nextOf { h with str := fun x => if x = p then some b1 else h.str x } true a = .ok (pre ++ post).head? := r1.next_suffix e
      simp only [hnx, bind_ok]
      rw [ih fuel _ _ b1 r1 (by simp) (by simp at hf; omega) ((List.suffix_cons a _).trans e)]
      have : ∀ b, put (fun x => if x = p then some b1 else h.str x) p (some b) = put h.str p (some b) := fun b => put_put h.str p (some b1) (some b)
      simp only [this]

theorem zero_mem : ∀ (cs : List Nat) (i : Nat) (buf b : List Nat), Word.copy_into_buffer cs i buf = .ok b → 0 ∈ b := by
  intro cs
  induction cs with
  | nil =>
    intro i buf b e
    simp only [Word.copy_into_buffer, wr] at e
    split at e
    · rename_i hi
      simp only [ok.injEq] at e
      subst e
      exact List.mem_set hi 0
    · cases e
  | cons v cs ih =>
    intro i buf b e
    simp only [Word.copy_into_buffer] at e
    obtain ⟨b1, _, e1⟩ := bind_eq_ok.1 e
    exact ih _ _ _ e1

/-! ## Ownership of strings -/

/-- The string of a word: NULL or a NUL-terminated array of bytes. -/
def Wd (str : Addr → Option (List Nat)) : Option Addr → Option (List Nat) → Prop
  | none, none => True
  | some p, some w => str p = some (w ++ [0]) ∧ 0 ∉ w
  | _, _ => False

/-- The arrays allocated are the strings of the words and the keys, and they are all different. -/
structure SR (h : THeap) (bs : List Addr) (wv : Addr → Option Addr) (words : List (Option (List Nat))) (keys : List (Addr × List Nat)) : Prop where
  strs  : List.Forall₂ (fun b w => Wd h.str (wv b) w) bs words
  named : ∀ k ∈ keys, h.str k.1 = some (k.2 ++ [0]) ∧ 0 ∉ k.2
  nodup : (bs.filterMap wv ++ keys.map Prod.fst).Nodup
  only  : ∀ p, h.str p ≠ none → p ∈ bs.filterMap wv ++ keys.map Prod.fst
  below : ∀ p, h.str p ≠ none → p < h.nextStr

variable {words : List (Option (List Nat))} {keys : List (Addr × List Nat)}

theorem SR.fresh (q : SR h bs wv words keys) {p : Addr} (hp : h.nextStr ≤ p) : h.str p = none := by
  by_contra hh
  exact Nat.lt_irrefl _ (Nat.lt_of_lt_of_le (q.below p hh) hp)

theorem SR.same (q : SR h bs wv words keys) (s : SameStr h h') : SR h' bs wv words keys := by
  obtain ⟨s1, s2⟩ := s
  exact ⟨by rw [s1]; exact q.strs, by rw [s1]; exact q.named, q.nodup, by rw [s1]; exact q.only, by rw [s1, s2]; exact q.below⟩

theorem Wd.live {str : Addr → Option (List Nat)} {b : Option Addr} {w : Option (List Nat)} (hw : Wd str b w) {p : Addr} (hb : b = some p) :
    str p ≠ none := by
  subst hb
  cases w with
  | none => exact hw.elim
  | some w => rw [hw.1]; simp

theorem forall₂_left {α β : Type} {R : α → β → Prop} {xs : List α} {ys : List β} (hh : List.Forall₂ R xs ys) {x : α} (hx : x ∈ xs) :
    ∃ y ∈ ys, R x y := by
  induction hh with
  | nil => cases hx
  | cons hr _ ih =>
    rcases List.mem_cons.1 hx with rfl | hx
    · exact ⟨_, by simp, hr⟩
    · obtain ⟨y, hy, hr⟩ := ih hx
      exact ⟨y, by simp [hy], hr⟩

theorem SR.live (q : SR h bs wv words keys) {p : Addr} (hp : p ∈ bs.filterMap wv ++ keys.map Prod.fst) : h.str p ≠ none := by
  rcases List.mem_append.1 hp with hp | hp
  · obtain ⟨b, hb, e⟩ := List.mem_filterMap.1 hp
    obtain ⟨w, _, hw⟩ := forall₂_left q.strs hb
    exact hw.live e
  · obtain ⟨k, hk, rfl⟩ := List.mem_map.1 hp
    rw [(q.named k hk).1]; simp

theorem Wd.put {str : Addr → Option (List Nat)} {b : Option Addr} {w : Option (List Nat)} (hw : Wd str b w) {p : Addr} (hp : b ≠ some p)
    (x : Option (List Nat)) : Wd (put str p x) b w := by
  cases b with
  | none => cases w <;> simp_all [Wd]
  | some q =>
    have : q ≠ p := fun e => hp (by rw [e])
    cases w with
    | none => exact hw.elim
    | some w => exact ⟨by rw [put_ne _ _ this]; exact hw.1, hw.2⟩

theorem filterMap_congr' {α β : Type} {f g : α → Option β} {xs : List α} (e : ∀ a ∈ xs, f a = g a) : xs.filterMap f = xs.filterMap g := by
  induction xs with
  | nil => rfl
  | cons x xs ih =>
    simp only [List.filterMap_cons, e x (by simp), ih (fun a ha => e a (by simp [ha]))]

theorem forall₂_congr_left {α β : Type} {R S : α → β → Prop} {xs : List α} {ys : List β} (hh : List.Forall₂ R xs ys)
    (hi : ∀ x ∈ xs, ∀ y, R x y → S x y) : List.Forall₂ S xs ys := by
  induction hh with
  | nil => exact .nil
  | cons hr _ ih => exact .cons (hi _ (by simp) _ hr) (ih (fun x hx => hi x (by simp [hx])))

theorem forall₂_snoc {α β : Type} {R : α → β → Prop} {xs : List α} {ys : List β} (hh : List.Forall₂ R xs ys) {x : α} {y : β} (hr : R x y) :
    List.Forall₂ R (xs ++ [x]) (ys ++ [y]) := by
  induction hh with
  | nil => exact .cons hr .nil
  | cons h1 _ ih => exact .cons h1 ih

/-- A word without a string is added. -/
theorem SR.addNone (q : SR h bs wv words keys) {b : Addr} (hb : b ∉ bs) (s1 : h'.str = h.str) (s2 : h.nextStr ≤ h'.nextStr) :
    SR h' (bs ++ [b]) (put wv b none) (words ++ [none]) keys := by
  have e : ∀ x ∈ bs, put wv b none x = wv x := by
    intro x hx; rw [put_ne]; rintro rfl; exact hb hx
  have e2 : (bs ++ [b]).filterMap (put wv b none) = bs.filterMap wv := by
    rw [List.filterMap_append, filterMap_congr' e]; simp
  refine ⟨?_, by rw [s1]; exact q.named, by rw [e2]; exact q.nodup, by rw [e2, s1]; exact q.only, ?_⟩
  · refine forall₂_snoc (forall₂_congr_left q.strs ?_) (by simp [Wd])
    intro x hx y hy
    rw [s1, e x hx]; exact hy
  · intro p hp; rw [s1] at hp; exact Nat.lt_of_lt_of_le (q.below p hp) s2

/-- A word with a new string is added. -/
theorem SR.addSome (q : SR h bs wv words keys) {b p : Addr} {t : List Nat} (hb : b ∉ bs) (hp : h.str p = none) (ht : 0 ∉ t)
    (s1 : h'.str = put h.str p (some (t ++ [0]))) (s2 : h.nextStr ≤ h'.nextStr) (s3 : p < h'.nextStr) :
    SR h' (bs ++ [b]) (put wv b (some p)) (words ++ [some t]) keys := by
  have e : ∀ x ∈ bs, put wv b (some p) x = wv x := by
    intro x hx; rw [put_ne]; rintro rfl; exact hb hx
  have e2 : (bs ++ [b]).filterMap (put wv b (some p)) = bs.filterMap wv ++ [p] := by
    rw [List.filterMap_append, filterMap_congr' e]; simp
  have hn : p ∉ bs.filterMap wv ++ keys.map Prod.fst := fun hh => q.live hh hp
  refine ⟨?_, ?_, ?_, ?_, ?_⟩
  · refine forall₂_snoc (forall₂_congr_left q.strs ?_) (by simp [Wd, s1, ht])
    intro x hx y hy
    rw [s1, e x hx]
    exact hy.put (fun hh => hy.live hh hp) _
  · intro k hk
    have : k.1 ≠ p := by rintro hh; exact hn (by rw [← hh]; simp; exact Or.inr ⟨_, hk⟩)
    rw [s1, put_ne _ _ this]; exact q.named k hk
  · rw [e2, List.append_assoc]
    exact List.nodup_middle.2 (List.nodup_cons.2 ⟨hn, q.nodup⟩)
  · intro x hx
    rw [e2]
    by_cases hxp : x = p
    · simp [hxp]
    · rw [s1, put_ne _ _ hxp] at hx
      have := q.only x hx
      simp at this ⊢
      rcases this with hh | hh
      · exact Or.inl hh
      · exact Or.inr (Or.inr hh)
  · intro x hx
    by_cases hxp : x = p
    · rw [hxp]; exact s3
    · rw [s1, put_ne _ _ hxp] at hx
      exact Nat.lt_of_lt_of_le (q.below x hx) s2

/-- A new key. -/
theorem SR.addKey (q : SR h bs wv words keys) {t : List Nat} (ht : 0 ∉ t) :
    SR (newStr (t ++ [0]) h).2 bs wv words ((h.nextStr, t) :: keys) := by
  have hp := q.fresh (Nat.le_refl h.nextStr)
  have hn : h.nextStr ∉ bs.filterMap wv ++ keys.map Prod.fst := fun hh => q.live hh hp
  have s1 : (newStr (t ++ [0]) h).2.str = put h.str h.nextStr (some (t ++ [0])) := rfl
  refine ⟨?_, ?_, ?_, ?_, ?_⟩
  · refine forall₂_congr_left q.strs ?_
    intro x hx y hy
    rw [s1]; exact hy.put (fun hh => hy.live hh hp) _
  · intro k hk
    rcases List.mem_cons.1 hk with rfl | hk
    · rw [s1]; simp [ht]
    · have : k.1 ≠ h.nextStr := by rintro hh; exact hn (by rw [← hh]; simp; exact Or.inr ⟨_, hk⟩)
      rw [s1, put_ne _ _ this]; exact q.named k hk
  · rw [List.map_cons]
    exact List.nodup_middle.2 (List.nodup_cons.2 ⟨hn, q.nodup⟩)
  · intro x hx
    by_cases hxp : x = h.nextStr
    · simp [hxp]
    · rw [s1, put_ne _ _ hxp] at hx
      have := q.only x hx
      simp at this ⊢
      rcases this with hh | hh
      · exact Or.inl hh
      · exact Or.inr (Or.inr hh)
  · intro x hx
    by_cases hxp : x = h.nextStr
    · rw [hxp]; exact Nat.lt_succ_self _
    · rw [s1, put_ne _ _ hxp] at hx
      exact Nat.lt_succ_of_lt (q.below x hx)

theorem TR.newStr (r : TR h as cv bs wv) (t : List Nat) : TR (newStr t h).2 as cv bs wv := r.strs _ _

/-! ## append_word -/

/-- A new word with the pointer `q` at the end of the word list. -/
theorem TR.addWord (r : TR h as cv bs wv) (q : Option Addr) (f : Addr → Option (List Nat)) (n : Nat) :
    ∃ h', (do let g ← setWord { (newWord h).2 with str := f, nextStr := n } h.next q; insert_last g false h.next) = .ok h' ∧
      TR h' as cv (bs ++ [h.next]) (put wv h.next q) ∧ h'.str = f ∧ h'.nextStr = n ∧ h'.next = h.next + 1 := by
  have hf := r.fresh true
  have hf' := r.fresh false
  simp only [two_true, two_false] at hf hf'
  refine ⟨{ h with
      links := list_insert (setCell h.links h.next ⟨none, none⟩) false bs.getLast? h.next none
      word := fun x => if x = h.next then some q else h.word x
      next := h.next + 1, str := f, nextStr := n }, ?_, ?_, rfl, rfl, rfl⟩
  · have hl := r.last false
    simp only [two_false] at hl
    unfold newWord
    dsimp only
    simp only [setWord, TextHeap.getWord, if_true, bind_ok, pure_eq, insert_last, TextHeap.insert]
    have h2 : ((setCell h.links h.next ⟨none, none⟩).hdr false).last = bs.getLast? := hl
    simp only [h2, ite_again]
    rw [if_pos]
    refine ⟨?_, by simp [TextHeap.live], by simp [TextHeap.live]⟩
    cases hl : bs.getLast? with
    | none => rfl
    | some a =>
      have := List.mem_of_getLast? hl
      have hn : a ≠ h.next := by rintro rfl; exact hf' this
      simp [TextHeap.live, r.word, this, hn]
  · refine ⟨?_, r.char, ?_, ?_⟩
    · have := (inv_setCell r.inv (fun l => r.fresh l) ⟨none, none⟩).insert false bs [] h.next (by simp) (fun l => r.fresh l)
      simpa using this
    · intro a
      by_cases ha : a = h.next
      · simp [ha]
      · simp [ha, r.word, put]
    · rintro a (ha | ha)
      · exact Nat.lt_succ_of_lt (r.below a (Or.inl ha))
      · rcases List.mem_append.1 ha with ha | ha
        · exact Nat.lt_succ_of_lt (r.below a (Or.inr ha))
        · simp at ha; simp [ha]

theorem cstr_string {h : THeap} {p : Addr} {s : List Nat} (hp : h.str p = some s) (h0 : 0 ∈ s) : string h (some p) = .ok (cstr s) := by
  simp [string, getStr, hp, h0]

/-- The state after a word list has grown by `ws`. -/
def Worded (as : List Addr) (cv : Addr → Ch) (words : List (Option (List Nat))) (keys : List (Addr × List Nat)) (h' : THeap)
    (ws : List (Option (List Nat))) : Prop :=
  ∃ bs' wv', TR h' as cv bs' wv' ∧ SR h' bs' wv' (words ++ ws) keys

theorem cstr_no_zero (s : List Nat) : 0 ∉ cstr s := by
  intro hh
  have hall : (cstr s).all (fun b => decide (b ≠ 0)) = true := List.all_takeWhile
  have := List.all_eq_true.1 hall 0 hh
  simp at this

theorem append_word_sim {nfc : List Nat → Option (List Nat)} (hn : ∀ s t, 0 ∉ s → nfc s = some t → 0 ∉ t) (junk : Nat) (r : TR h as cv bs wv)
    (q : SR h bs wv words keys) {b : Addr} (e : a :: pre ++ post <:+ as) (e' : b :: post <:+ as) :
    Sim (fun h' w => Worded as cv words keys h' [w]) (append_word nfc junk a b h) (Word.append_word nfc junk (vals cv (a :: pre))) := by
  have hl : (a :: pre).length ≤ h.next := by
    have := e.length_le; have := r.len; simp at this ⊢; simp at *; omega
  have hu := utf8_length_eq (post := post) r (a :: pre) h.next hl e
  simp only [List.cons_append, List.head?_cons] at hu
  unfold append_word Word.append_word
  simp only [r.next_suffix e', bind_ok, hu]
  cases hw : Word.find_utf8_length (vals cv (a :: pre)) with
  | err m => exact Sim.err m
  | ub => exact Sim.ub
  | fuel => exact Sim.fuel
  | ok len =>
    simp only [bind_ok]
    have hc := copy_eq (p := h.nextStr) (post := post) (a :: pre) h.next 0 (newStr (List.replicate (len + 1) junk) h).2
      (List.replicate (len + 1) junk) (r.newStr _) (by simp [newStr]) hl e
    simp only [List.cons_append, List.head?_cons] at hc
    have hc' : copy_into_buffer (newStr (List.replicate (len + 1) junk) h).1 post.head? (newStr (List.replicate (len + 1) junk) h).2.next (some a) 0
      (newStr (List.replicate (len + 1) junk) h).2 = _ := hc
    simp only [hc']
    cases hb : Word.copy_into_buffer (vals cv (a :: pre)) 0 (List.replicate (len + 1) junk) with
    | err m => exact Sim.err m
    | ub => exact Sim.ub
    | fuel => exact Sim.fuel
    | ok buf =>
      simp only [bind_ok, pure_eq]
      have h0 := zero_mem _ _ _ _ hb
      have hfr := q.fresh (Nat.le_refl h.nextStr)
      have hfr' := q.fresh (Nat.le_succ h.nextStr)
      have hbn : h.next ∉ bs := r.fresh false
      -- the heap after the buffer has been filled and the word allocated
      have hs : string (newWord { (newStr (List.replicate (len + 1) junk) h).2 with
          str := put (newStr (List.replicate (len + 1) junk) h).2.str h.nextStr (some buf) }).2 (some h.nextStr) = .ok (cstr buf) :=
        cstr_string (by simp [newWord, newStr]) h0
      have hs' : string (newWord { (newStr (List.replicate (len + 1) junk) h).2 with
          str := put (newStr (List.replicate (len + 1) junk) h).2.str h.nextStr (some buf) }).2 (some (newStr (List.replicate (len + 1) junk) h).1) =
          .ok (cstr buf) := hs
      simp only [hs', bind_ok]
      cases hnf : nfc (cstr buf) with
      | none =>
        simp only
        obtain ⟨h1, e1, r1, s1, n1, m1⟩ := r.addWord none (put h.str h.nextStr (some buf)) (h.nextStr + 1)
        have e1' : (do
            let g ← setWord (newWord { (newStr (List.replicate (len + 1) junk) h).2 with
              str := put (newStr (List.replicate (len + 1) junk) h).2.str h.nextStr (some buf) }).2 h.next none
            insert_last g false h.next) = .ok h1 := by
          rw [← e1]
          have : put (newStr (List.replicate (len + 1) junk) h).2.str h.nextStr (some buf) = put h.str h.nextStr (some buf) :=
            put_put h.str h.nextStr _ _
          rw [this]; rfl
        obtain ⟨h2, e2, e3⟩ := bind_eq_ok.1 e1'
        have e2' : setWord (newWord { (newStr (List.replicate (len + 1) junk) h).2 with
              str := put (newStr (List.replicate (len + 1) junk) h).2.str h.nextStr (some buf) }).2
            (newWord { (newStr (List.replicate (len + 1) junk) h).2 with
              str := put (newStr (List.replicate (len + 1) junk) h).2.str h.nextStr (some buf) }).1 none = .ok h2 := e2
        have e3' : insert_last h2 false (newWord { (newStr (List.replicate (len + 1) junk) h).2 with
              str := put (newStr (List.replicate (len + 1) junk) h).2.str h.nextStr (some buf) }).1 = .ok h1 := e3
        rw [e2', bind_ok, e3', bind_ok]
        have hfree : freeStr h1 (some (newStr (List.replicate (len + 1) junk) h).1) = .ok { h1 with str := fun x => if x = h.nextStr then none else h1.str x } := by
          simp [freeStr, getStr, s1, newStr]
        rw [hfree]
        refine Sim.ok ⟨bs ++ [h.next], put wv h.next none, r1.strs _ _, ?_⟩
        refine q.addNone hbn ?_ (by rw [n1]; exact Nat.le_succ _)
        funext x
        by_cases hx : x = h.nextStr
        · simp [hx, hfr]
        · simp [hx, s1, put]
      | some t =>
        simp only
        obtain ⟨h1, e1, r1, s1, n1, m1⟩ := r.addWord (some (h.nextStr + 1)) (put (put h.str h.nextStr (some buf)) (h.nextStr + 1) (some (t ++ [0]))) (h.nextStr + 2)
        have e1' : (do
            let g ← setWord (newStr (t ++ [0]) (newWord { (newStr (List.replicate (len + 1) junk) h).2 with
              str := put (newStr (List.replicate (len + 1) junk) h).2.str h.nextStr (some buf) }).2).2 h.next (some (h.nextStr + 1))
            insert_last g false h.next) = .ok h1 := by
          rw [← e1]
          have : put (newStr (List.replicate (len + 1) junk) h).2.str h.nextStr (some buf) = put h.str h.nextStr (some buf) :=
            put_put h.str h.nextStr _ _
          rw [this]; rfl
        obtain ⟨h2, e2, e3⟩ := bind_eq_ok.1 e1'
        have e2' : setWord (newStr (t ++ [0]) (newWord { (newStr (List.replicate (len + 1) junk) h).2 with
              str := put (newStr (List.replicate (len + 1) junk) h).2.str h.nextStr (some buf) }).2).2
            (newWord { (newStr (List.replicate (len + 1) junk) h).2 with
              str := put (newStr (List.replicate (len + 1) junk) h).2.str h.nextStr (some buf) }).1
            (some (newStr (t ++ [0]) (newWord { (newStr (List.replicate (len + 1) junk) h).2 with
              str := put (newStr (List.replicate (len + 1) junk) h).2.str h.nextStr (some buf) }).2).1) = .ok h2 := e2
        have e3' : insert_last h2 false (newWord { (newStr (List.replicate (len + 1) junk) h).2 with
              str := put (newStr (List.replicate (len + 1) junk) h).2.str h.nextStr (some buf) }).1 = .ok h1 := e3
        rw [e2', bind_ok, e3', bind_ok]
        have hne : h.nextStr ≠ h.nextStr + 1 := by omega
        have hfree : freeStr h1 (some (newStr (List.replicate (len + 1) junk) h).1) = .ok { h1 with str := fun x => if x = h.nextStr then none else h1.str x } := by
          simp [freeStr, getStr, s1, newStr, put]
        rw [hfree]
        refine Sim.ok ⟨bs ++ [h.next], put wv h.next (some (h.nextStr + 1)), r1.strs _ _, ?_⟩
        refine q.addSome hbn hfr' (hn _ _ (cstr_no_zero _) hnf) ?_ (by rw [n1]; exact Nat.le_add_right _ 2) (by rw [n1]; exact Nat.lt_succ_self _)
        funext x
        by_cases hx : x = h.nextStr
        · simp [hx, put, hfr]
        · simp [hx, s1, put]

end Ocr.TextHeap
