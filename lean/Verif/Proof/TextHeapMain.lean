import Verif.Proof.TextHeapStr

/-!
# wordfreq, ngram and stopword.c on a heap
-/

namespace Ocr.TextHeap
open Text Res CList

variable {h h' : THeap} {as bs ys zs start pre post : List Addr} {cv : Addr → Ch} {wv : Addr → Option Addr} {a p : Addr} {l : Bool}
  {prop : Nat → Word.WB} {words : List (Option (List Nat))} {keys : List (Addr × List Nat)} {nfc : List Nat → Option (List Nat)}

/-! ## find_words -/

theorem Worded.more {ws : List (Option (List Nat))} {w : Option (List Nat)} (x : Worded as cv (words ++ [w]) keys h ws) :
    Worded as cv words keys h (w :: ws) := by
  obtain ⟨bs, wv, r, q⟩ := x
  exact ⟨bs, wv, r, by simpa using q⟩

theorem wordsLoop_sim (U : Unicode) (hn : ∀ s t, 0 ∉ s → nfc s = some t → 0 ∉ t) (junk : Nat) : ∀ (fuel : Nat) (start : List Addr) (h : THeap) (bs : List Addr)
    (wv : Addr → Option Addr) (words : List (Option (List Nat))), TR h as cv bs wv → SR h bs wv words keys → start <:+ as →
    Sim (Worded as cv words keys) (wordsLoop U prop nfc junk fuel start.head? h) (Word.wordsLoop U prop nfc junk fuel (vals cv start)) := by
  intro fuel
  induction fuel with
  | zero =>
    intro start h bs wv words r q hs
    obtain ⟨zs, e1, e2, e3⟩ := find_next_eq (prop := prop) r hs
    unfold wordsLoop Word.wordsLoop
    rw [e1, e3, bind_ok, bind_ok]
    cases zs with
    | nil => exact Sim.ok ⟨bs, wv, r, by simpa using q⟩
    | cons b post =>
      cases start with
      | nil => simp at e2
      | cons a st =>
        simp only [List.head?_cons, vals_cons, r.char_suffix hs, bind_ok]
        by_cases hw : Word.is_word_start U (cv a).value = true
        · obtain ⟨pre, hpre⟩ : post <:+ a :: st := (List.suffix_cons b post).trans e2
          have hl := e2.length_le
          have hl' := congrArg List.length hpre
          cases pre with
          | nil => simp at hl hl'; omega
          | cons a' pre =>
            obtain ⟨rfl, rfl⟩ : a' = a ∧ pre ++ post = st := by simpa using hpre
            have ht : ((cv a').value :: vals cv (pre ++ post)).take (((cv a').value :: vals cv (pre ++ post)).length - (vals cv post).length) =
                vals cv (a' :: pre) := by
              have : ((cv a').value :: vals cv (pre ++ post)) = vals cv (a' :: pre) ++ vals cv post := by simp [vals]
              rw [this, List.length_append, Nat.add_sub_cancel, List.take_left]
            simp only [hw, if_true, ht]
            have sim := append_word_sim hn junk r q (a := a') (pre := pre) (post := post) (b := b) hs (e2.trans hs)
            generalize append_word nfc junk a' b h = x at sim
            generalize Word.append_word nfc junk (vals cv (a' :: pre)) = y at sim
            cases sim with
            | ok hx =>
              obtain ⟨bs', wv', r', q'⟩ := hx
              simp only [bind_ok, pure_eq, r'.next_suffix (e2.trans hs)]
              exact Sim.fuel
            | err m => exact Sim.err m
            | ub => exact Sim.ub
            | fuel => exact Sim.fuel
        · simp only [hw, Bool.false_eq_true, if_false, bind_ok, pure_eq, r.next_suffix (e2.trans hs)]
          exact Sim.fuel
  | succ fuel ih =>
    intro start h bs wv words r q hs
    obtain ⟨zs, e1, e2, e3⟩ := find_next_eq (prop := prop) r hs
    unfold wordsLoop Word.wordsLoop
    rw [e1, e3, bind_ok, bind_ok]
    cases zs with
    | nil => exact Sim.ok ⟨bs, wv, r, by simpa using q⟩
    | cons b post =>
      cases start with
      | nil => simp at e2
      | cons a st =>
        have hp : post <:+ as := ((List.suffix_cons b post).trans e2).trans hs
        simp only [List.head?_cons, vals_cons, r.char_suffix hs, bind_ok]
        by_cases hw : Word.is_word_start U (cv a).value = true
        · obtain ⟨pre, hpre⟩ : post <:+ a :: st := (List.suffix_cons b post).trans e2
          have hl := e2.length_le
          have hl' := congrArg List.length hpre
          cases pre with
          | nil => simp at hl hl'; omega
          | cons a' pre =>
            obtain ⟨rfl, rfl⟩ : a' = a ∧ pre ++ post = st := by simpa using hpre
            have ht : ((cv a').value :: vals cv (pre ++ post)).take (((cv a').value :: vals cv (pre ++ post)).length - (vals cv post).length) =
                vals cv (a' :: pre) := by
              have : ((cv a').value :: vals cv (pre ++ post)) = vals cv (a' :: pre) ++ vals cv post := by simp [vals]
              rw [this, List.length_append, Nat.add_sub_cancel, List.take_left]
            simp only [hw, if_true, ht]
            have sim := append_word_sim hn junk r q (a := a') (pre := pre) (post := post) (b := b) hs (e2.trans hs)
            generalize append_word nfc junk a' b h = x at sim
            generalize Word.append_word nfc junk (vals cv (a' :: pre)) = y at sim
            cases sim with
            | @ok h1 w hx =>
              obtain ⟨bs', wv', r', q'⟩ := hx
              simp only [bind_ok, pure_eq, r'.next_suffix (e2.trans hs)]
              have sim := ih post h1 bs' wv' _ r' q' hp
              generalize wordsLoop U prop nfc junk fuel post.head? h1 = x at sim
              generalize Word.wordsLoop U prop nfc junk fuel (vals cv post) = y at sim
              cases sim with
              | ok hx => exact Sim.ok hx.more
              | err m => exact Sim.err m
              | ub => exact Sim.ub
              | fuel => exact Sim.fuel
            | err m => exact Sim.err m
            | ub => exact Sim.ub
            | fuel => exact Sim.fuel
        · simp only [hw, Bool.false_eq_true, if_false, bind_ok, pure_eq, r.next_suffix (e2.trans hs), List.nil_append]
          have sim := ih post h bs wv _ r q hp
          generalize wordsLoop U prop nfc junk fuel post.head? h = x at sim
          generalize Word.wordsLoop U prop nfc junk fuel (vals cv post) = y at sim
          cases sim with
          | ok hx => exact Sim.ok hx
          | err m => exact Sim.err m
          | ub => exact Sim.ub
          | fuel => exact Sim.fuel

theorem find_words_sim (U : Unicode) (hn : ∀ s t, 0 ∉ s → nfc s = some t → 0 ∉ t) (junk : Nat) (r : TR h as cv bs wv) (q : SR h bs wv words keys)
    {text : List Ch} (ht : as.map cv = text) :
    Sim (Worded as cv words keys) (find_words U prop nfc junk h) (Word.find_words U prop nfc junk text) := by
  have hc := (r.inv.rep true).count
  have hf := r.first true
  simp only [two_true] at hc hf
  unfold find_words Word.find_words
  rw [hc, hf]
  have e1 : text.map (·.value) = vals cv as := by rw [← ht]; simp [vals]
  have e2 : text.length = as.length := by rw [← ht]; simp
  rw [e1, e2, Int.toNat_natCast]
  exact wordsLoop_sim U hn junk _ _ _ _ _ _ r q (List.suffix_refl _)

/-! ## Tables -/

inductive Ents {α ε : Type} (dat : ε → α) (keyOf : ε → List Nat) : List (Entry α) → List ε → List (Addr × List Nat) → Prop
  | nil : Ents dat keyOf [] [] []
  | cons {e : Entry α} {t : ε} {es ts ks} : e.data = dat t → Ents dat keyOf es ts ks → Ents dat keyOf (e :: es) (t :: ts) ((e.key, keyOf t) :: ks)

theorem cstr_nul {w : List Nat} (hw : 0 ∉ w) : cstr (w ++ [0]) = w := by
  induction w with
  | nil => rfl
  | cons x w ih =>
    have h1 : x ≠ 0 := by rintro rfl; exact hw (by simp)
    have h2 : 0 ∉ w := fun h => hw (by simp [h])
    simp [cstr] at ih ⊢
    simp [h1, ih h2]

theorem string_nul {w : List Nat} (hp : h.str p = some (w ++ [0])) (hw : 0 ∉ w) : string h (some p) = .ok w := by
  rw [cstr_string hp (by simp), cstr_nul hw]

theorem modify_eq {α ε : Type} {dat : ε → α} {keyOf : ε → List Nat} {f : α → α} {g : ε → ε} (hd : ∀ t, dat (g t) = f (dat t))
    (hk : ∀ t, keyOf (g t) = keyOf t) (s : List Nat) {es : List (Entry α)} {ts : List ε} {ks : List (Addr × List Nat)} (he : Ents dat keyOf es ts ks)
    (hs : ∀ k ∈ ks, h.str k.1 = some (k.2 ++ [0]) ∧ 0 ∉ k.2) :
    (modify h (.ok s) f es = .ok none ∧ Store.modify keyOf s g ts = none) ∨
    ∃ es' ts', modify h (.ok s) f es = .ok (some es') ∧ Store.modify keyOf s g ts = some ts' ∧ Ents dat keyOf es' ts' ks := by
  induction he with
  | nil => exact Or.inl ⟨rfl, rfl⟩
  | @cons e t es ts ks h1 h2 ih =>
    have hx := hs (e.key, keyOf t) (by simp)
    have hstr := string_nul hx.1 hx.2
    simp only [modify, bind_ok, hstr, Store.modify]
    by_cases hkk : keyOf t = s
    · refine Or.inr ⟨_, _, by rw [if_pos hkk]; rfl, by rw [if_pos hkk], ?_⟩
      rw [← hk t]
      exact Ents.cons (by rw [hd, h1]) h2
    · rw [if_neg hkk, if_neg hkk]
      rcases ih (fun k hk => hs k (by simp [hk])) with ⟨i1, i2⟩ | ⟨es', ts', i1, i2, i3⟩
      · exact Or.inl ⟨by simp [i1], by simp [i2]⟩
      · exact Or.inr ⟨e :: es', t :: ts', by simp [i1], by simp [i2], Ents.cons h1 i3⟩

theorem add_eq {α ε : Type} {dat : ε → α} {keyOf : ε → List Nat} {f : α → α} {g : ε → ε} (hd : ∀ t, dat (g t) = f (dat t))
    (hk : ∀ t, keyOf (g t) = keyOf t) {s : List Nat} (h0 : 0 ∉ s) {key : THeap → Res (List Nat)} (hkey : key h = .ok s) {new : ε}
    (hnew : keyOf new = s) {es : List (Entry α)} {ts : List ε} (he : Ents dat keyOf es ts keys) (r : TR h as cv bs wv) (q : SR h bs wv words keys) :
    ∃ h' es' keys', add key f (dat new) es h = .ok (h', es') ∧ TR h' as cv bs wv ∧ SR h' bs wv words keys' ∧
      Ents dat keyOf es' (Store.add keyOf s g new ts) keys' := by
  unfold add Store.add
  rw [hkey]
  rcases modify_eq hd hk s he q.named with ⟨i1, i2⟩ | ⟨es', ts', i1, i2, i3⟩
  · rw [i1, i2]
    refine ⟨_, _, (h.nextStr, s) :: keys, rfl, r.newStr _, q.addKey h0, ?_⟩
    rw [← hnew]
    exact Ents.cons (e := ⟨h.nextStr, dat new⟩) rfl he
  · rw [i1, i2]
    exact ⟨_, _, _, rfl, r, q, i3⟩

theorem modify_ub {α : Type} (f : α → α) (es : List (Entry α)) : modify h .ub f es = .ub := by
  cases es <;> rfl

/-! ## wordfreq -/

def termData (t : Term) : Int × Int := (t.count, t.missed)

theorem forall₂_split {α β : Type} {R : α → β → Prop} : ∀ {xs : List α} {ys : List β} {x : α} {xs' : List α} {ys' : List β}, xs.length = ys.length →
    List.Forall₂ R (xs ++ x :: xs') (ys ++ ys') → ∃ y zs, ys' = y :: zs ∧ R x y := by
  intro xs
  induction xs with
  | nil =>
    intro ys x xs' ys' hl hf
    have : ys = [] := by cases ys with | nil => rfl | cons => simp at hl
    subst this
    simp only [List.nil_append] at hf
    cases hf with
    | cons hr _ => exact ⟨_, _, rfl, hr⟩
  | cons x0 xs ih =>
    intro ys x xs' ys' hl hf
    cases ys with
    | nil => simp at hl
    | cons y ys =>
      cases hf with
      | cons _ hf => exact ih (by simpa using hl) hf

theorem addWords_sim : ∀ (b1 : List Addr) (fuel : Nat) (b0 : List Addr) (w0 w1 : List (Option (List Nat))) (h : THeap)
    (es : List (Entry (Int × Int))) (ts : List Term) (keys : List (Addr × List Nat)), b1.length ≤ fuel → b0.length = w0.length →
    TR h as cv (b0 ++ b1) wv → SR h (b0 ++ b1) wv (w0 ++ w1) keys → Ents termData Term.key es ts keys →
    Sim (fun x t => ∃ keys', TR x.1 as cv (b0 ++ b1) wv ∧ SR x.1 (b0 ++ b1) wv (w0 ++ w1) keys' ∧ Ents termData Term.key x.2 t keys')
      (addWords fuel b1.head? es h) (Wordfreq.addWords w1 ts) := by
  intro b1
  induction b1 with
  | nil =>
    intro fuel b0 w0 w1 h es ts keys hf hl r q he
    have hw : w1 = [] := by
      have := q.strs.length_eq
      simp at this
      cases w1 with
      | nil => rfl
      | cons => simp at this; omega
    subst hw
    rw [List.head?_nil]
    unfold addWords
    exact Sim.ok ⟨keys, r, q, he⟩
  | cons b b1 ih =>
    intro fuel b0 w0 w1 h es ts keys hf hl r q he
    obtain ⟨fuel, rfl⟩ : ∃ f, fuel = f + 1 := ⟨fuel - 1, by simp at hf; omega⟩
    obtain ⟨w, w2, rfl, hw⟩ := forall₂_split hl q.strs
    unfold addWords
    simp only [List.head?_cons, r.getWord (a := b) (by simp), bind_ok]
    cases w with
    | none =>
      have hb : wv b = none := by
        cases hb : wv b with
        | none => rfl
        | some p => rw [hb] at hw; exact hw.elim
      have : add (fun h => string h (wv b)) (fun (c : Int × Int) => (c.1 + 1, c.2 + 0)) (1, 0) es h = .ub := by
        simp [add, hb, string, modify_ub]
      simp only [this]
      exact Sim.ub
    | some w =>
      cases hb : wv b with
      | none => rw [hb] at hw; exact hw.elim
      | some p =>
        rw [hb] at hw
        obtain ⟨h1, es1, keys1, e1, r1, q1, he1⟩ := add_eq (f := fun (c : Int × Int) => (c.1 + 1, c.2 + 0))
          (g := fun t : Term => { t with count := t.count + 1, missed := t.missed + 0 }) (fun t => rfl) (fun t => rfl) hw.2
          (key := fun h => string h (some p)) (string_nul hw.1 hw.2) (new := ⟨w, 1, 0⟩) rfl he r q
        have e1' : add (fun h => string h (some p)) (fun (c : Int × Int) => (c.1 + 1, c.2 + 0)) (1, 0) es h = .ok (h1, es1) := e1
        simp only [e1', bind_ok, r1.nextOf (l := false) (ys := b0) (zs := b1) rfl, Wordfreq.addWords]
        have := ih fuel (b0 ++ [b]) (w0 ++ [some w]) w2 h1 es1 _ keys1 (by simp at hf; omega) (by simp [hl]) (by simpa using r1) (by simpa using q1) he1
        simp only [List.append_assoc, List.singleton_append] at this
        exact this

theorem TR.dropWord (r : TR h as cv (a :: bs) wv) (q : SR h (a :: bs) wv words keys) :
    ∃ h' w ws, words = w :: ws ∧ (do let g ← remove h false a; free_word a g) = .ok h' ∧ TR h' as cv bs wv ∧ SR h' bs wv ws keys ∧ h'.next = h.next := by
  have hn := r.nodup'
  rw [List.nodup_cons] at hn
  have hc := r.cell (l := false) (ys := []) (zs := bs) (a := a) rfl
  have h1 : TextHeap.live h false (some a) = true := r.live (by rintro b ⟨⟩; simp)
  have h3 : TextHeap.live h false bs.head? = true := r.live (by intro b hb; simp [List.mem_of_head? hb])
  obtain ⟨w, ws, hws, hw⟩ : ∃ w ws, words = w :: ws ∧ Wd h.str (wv a) w := by
    cases q.strs with
    | cons hr _ => exact ⟨_, _, rfl, hr⟩
  subst hws
  have hst : List.Forall₂ (fun b w => Wd h.str (wv b) w) bs ws := by
    cases q.strs with
    | cons _ hf => exact hf
  have hrem : remove h false a = .ok { h with links := list_remove h.links false a } := by
    have h2 : TextHeap.live h false (none : Option Addr) = true := rfl
    simp [remove, hc, h1, h2, h3]
  have hTR : ∀ f, TR { h with links := list_remove h.links false a, word := fun x => if x = a then none else h.word x, str := f } as cv bs wv := by
    intro f
    refine ⟨?_, r.char, ?_, ?_⟩
    · have := r.inv.remove false [] bs a rfl
      simpa using this
    · intro b
      by_cases hb : b = a
      · subst hb; simp [hn.1]
      · simp [hb, r.word]
    · rintro b (hb | hb)
      · exact r.below b (Or.inl hb)
      · exact r.below b (Or.inr (by simp [hb]))
  cases ha : wv a with
  | none =>
    refine ⟨{ h with links := list_remove h.links false a, word := fun x => if x = a then none else h.word x }, w, ws, rfl, ?_, hTR h.str, ?_, rfl⟩
    · simp [hrem, free_word, TextHeap.getWord, r.word, ha, freeStr, freeWordObj]
    · have e : (a :: bs).filterMap wv = bs.filterMap wv := by simp [ha]
      exact ⟨hst, q.named, by rw [← e]; exact q.nodup, by rw [← e]; exact q.only, q.below⟩
  | some p =>
    have e : (a :: bs).filterMap wv = p :: bs.filterMap wv := by simp [ha]
    have hnd := q.nodup
    rw [e, List.cons_append, List.nodup_cons] at hnd
    have hlive := hw.live ha
    obtain ⟨s, hs⟩ := Option.ne_none_iff_exists'.1 hlive
    refine ⟨{ h with
      links := list_remove h.links false a
      word := fun x => if x = a then none else h.word x
      str := put h.str p none }, w, ws, rfl, ?_, hTR _, ⟨?_, ?_, hnd.2, ?_, ?_⟩, rfl⟩
    · simp [hrem, free_word, TextHeap.getWord, r.word, ha, freeStr, freeWordObj, getStr, hs]
      rfl
    · refine forall₂_congr_left hst ?_
      intro x hx y hy
      refine hy.put (fun hh => hnd.1 ?_) none
      rw [List.mem_append]
      exact Or.inl (List.mem_filterMap.2 ⟨x, hx, hh⟩)
    · intro k hk
      have : k.1 ≠ p := by
        rintro hh
        exact hnd.1 (List.mem_append.2 (Or.inr (by rw [← hh]; exact List.mem_map_of_mem hk)))
      simp only [put_ne _ _ this]
      exact q.named k hk
    · intro x hx
      by_cases hxp : x = p
      · simp [hxp] at hx
      · simp only [put_ne _ _ hxp] at hx
        have := q.only x hx
        rw [e, List.cons_append, List.mem_cons] at this
        exact this.resolve_left hxp
    · intro x hx
      by_cases hxp : x = p
      · simp [hxp] at hx
      · simp only [put_ne _ _ hxp] at hx
        exact q.below x hx

theorem TR.emptyWords : ∀ (bs : List Addr) (fuel : Nat) (h : THeap) (words : List (Option (List Nat))), bs.length ≤ fuel → TR h as cv bs wv →
    SR h bs wv words keys → ∃ h', empty false free_word fuel h = .ok h' ∧ TR h' as cv [] wv ∧ SR h' [] wv [] keys := by
  intro bs
  induction bs with
  | nil =>
    intro fuel h words _ r q
    have := r.first false
    have hw : words = [] := by cases q.strs; rfl
    subst hw
    refine ⟨h, ?_, r, q⟩
    unfold empty; simp [this]
  | cons b bs ih =>
    intro fuel h words hf r q
    have hfi := r.first false
    obtain ⟨fuel, rfl⟩ : ∃ f, fuel = f + 1 := ⟨fuel - 1, by simp at hf; omega⟩
    obtain ⟨h1, w, ws, rfl, e1, r1, q1, n1⟩ := r.dropWord q
    obtain ⟨h2, e2, r2, q2⟩ := ih fuel h1 ws (by simp at hf; omega) r1 q1
    refine ⟨h2, ?_, r2, q2⟩
    obtain ⟨h0, e3, e4⟩ := bind_eq_ok.1 e1
    unfold empty
    simp [hfi, e3, e4, e2]

theorem TR.empty_words (r : TR h as cv bs wv) (q : SR h bs wv words keys) :
    ∃ h', empty_words h = .ok h' ∧ TR h' as cv [] wv ∧ SR h' [] wv [] keys :=
  TR.emptyWords bs h.next h words r.len' r q

theorem wordfreq_sim (U : Unicode) (hn : ∀ s t, 0 ∉ s → nfc s = some t → 0 ∉ t) (junk : List Nat) (junk' : Nat) : ∀ (files : List (List Nat)) (opt : Textopt)
    (h : THeap) (cv : Addr → Ch) (wv : Addr → Option Addr) (es : List (Entry (Int × Int))) (ts : List Term) (keys : List (Addr × List Nat)),
    TR h [] cv [] wv → SR h [] wv [] keys → Ents termData Term.key es ts keys →
    Sim (fun x t => ∃ cv' wv' keys', TR x.1 [] cv' [] wv' ∧ SR x.1 [] wv' [] keys' ∧ Ents termData Term.key x.2 t keys')
      (wordfreqFiles U prop nfc junk junk' opt files es h) (Wordfreq.processFiles U prop nfc junk junk' opt files ts) := by
  intro files
  induction files with
  | nil =>
    intro opt h cv wv es ts keys r q he
    exact Sim.ok ⟨cv, wv, keys, r, q, he⟩
  | cons file files ih =>
    intro opt h cv wv es ts keys r q he
    unfold wordfreqFiles Wordfreq.processFiles
    refine Sim.bind (read_text_sim U junk file opt [] r rfl) ?_
    rintro ⟨h1, opt1⟩ ⟨text, opt2⟩ ⟨ns, cv1, r1, s1, _, m1, e1⟩
    obtain rfl : opt1 = opt2 := e1
    simp only [List.nil_append] at r1 m1
    refine Sim.bind (find_words_sim U hn junk' r1 (q.same s1) m1) ?_
    rintro h2 ws ⟨bs, wv2, r2, q2⟩
    simp only [List.nil_append] at q2
    have hfirst := r2.first false
    simp only [two_false] at hfirst
    rw [hfirst]
    refine Sim.bind (addWords_sim bs h2.next [] [] ws h2 es ts keys r2.len' rfl r2 q2 he) ?_
    rintro ⟨h3, es3⟩ t3 ⟨keys3, r3, q3, he3⟩
    simp only [List.nil_append] at r3 q3
    obtain ⟨h4, e4, r4, s4, _⟩ := r3.empty_text
    obtain ⟨h5, e5, r5, q5⟩ := r4.empty_words (q3.same s4)
    simp only [e4, e5, bind_ok]
    exact ih opt1 h5 cv1 wv2 es3 t3 keys3 r5 q5 he3

/-! ## ngram -/

theorem gramLoop_eq (U : Unicode) (r : TR h as cv bs wv) : ∀ (n : Nat) (zs : List Addr) (key value : List Nat) (suspect : Bool), zs <:+ as →
    gramLoop U h n zs.head? key value suspect = Ngram.gramLoop U n (zs.map cv) key value suspect := by
  intro n
  induction n with
  | zero => intro zs key value suspect _; simp [gramLoop, Ngram.gramLoop]
  | succ n ih =>
    intro zs key value suspect e
    cases zs with
    | nil => simp [gramLoop, Ngram.gramLoop]
    | cons a zs =>
      simp only [List.head?_cons, gramLoop, r.char_suffix e, bind_ok, List.map_cons, Ngram.gramLoop, r.next_suffix e,
        ih zs _ _ _ ((List.suffix_cons a zs).trans e)]

theorem gram_key (U : Unicode) : ∀ (n : Nat) (cs : List Ch) (key value : List Nat) (suspect : Bool) (k v : List Nat) (b : Bool), 0 ∉ key →
    Ngram.gramLoop U n cs key value suspect = .ok (some (k, v, b)) → 0 ∉ k := by
  intro n
  induction n with
  | zero =>
    intro cs key value suspect k v b h0 e
    simp [Ngram.gramLoop] at e
    rw [← e.1]; exact h0
  | succ n ih =>
    intro cs key value suspect k v b h0 e
    cases cs with
    | nil => simp [Ngram.gramLoop] at e
    | cons c cs =>
      simp only [Ngram.gramLoop] at e
      obtain ⟨s, _, e⟩ := bind_eq_ok.1 e
      split at e
      · refine ih cs _ _ _ k v b ?_ e
        simp [h0, cstr_no_zero]
      · cases e

def seqData (s : Sequence) : Gram := ⟨s.value, s.count, s.suspect⟩

theorem startLoop_sim (U : Unicode) (n : Nat) : ∀ (zs : List Addr) (fuel : Nat) (h : THeap) (es : List (Entry Gram)) (t : Ngram.Seqtable)
    (keys : List (Addr × List Nat)), zs.length ≤ fuel → zs <:+ as → TR h as cv bs wv → SR h bs wv words keys → Ents seqData Sequence.key es t.entries keys →
    Sim (fun x t => ∃ keys', TR x.1 as cv bs wv ∧ SR x.1 bs wv words keys' ∧ Ents seqData Sequence.key x.2 t.entries keys')
      (startLoop U n fuel zs.head? es h) (Ngram.startLoop U n (zs.map cv) t) := by
  intro zs
  induction zs with
  | nil =>
    intro fuel h es t keys _ _ r q he
    rw [List.head?_nil]
    unfold startLoop
    exact Sim.ok ⟨keys, r, q, he⟩
  | cons a zs ih =>
    intro fuel h es t keys hf e r q he
    obtain ⟨fuel, rfl⟩ : ∃ f, fuel = f + 1 := ⟨fuel - 1, by simp at hf; omega⟩
    have hg := gramLoop_eq U r n (a :: zs) [] [] false e
    simp only [List.head?_cons, List.map_cons] at hg
    unfold startLoop
    simp only [List.head?_cons, hg, List.map_cons, Ngram.startLoop]
    cases hgr : Ngram.gramLoop U n (cv a :: zs.map cv) [] [] false with
    | err m => exact Sim.err m
    | ub => exact Sim.ub
    | fuel => exact Sim.fuel
    | ok g =>
      simp only [bind_ok]
      cases g with
      | none => exact Sim.ok ⟨keys, r, q, he⟩
      | some g =>
        obtain ⟨key, value, suspect⟩ := g
        have h0 := gram_key U n _ _ _ _ _ _ _ (by simp) hgr
        obtain ⟨h1, es1, keys1, e1, r1, q1, he1⟩ := add_eq
          (f := fun s : Gram => { s with count := s.count + 1, suspect := if suspect then s.suspect + 1 else s.suspect })
          (g := fun s : Sequence => { s with count := s.count + 1, suspect := if suspect then s.suspect + 1 else s.suspect })
          (fun t => rfl) (fun t => rfl) h0 (key := fun _ => .ok key) rfl (new := ⟨key, value, 1, if suspect then 1 else 0⟩) rfl he r q
        have e1' : add (fun _ => .ok key) (fun s : Gram => { s with count := s.count + 1, suspect := if suspect then s.suspect + 1 else s.suspect })
          ⟨value, 1, if suspect then 1 else 0⟩ es h = .ok (h1, es1) := e1
        simp only [e1', bind_ok, r1.next_suffix e]
        exact ih fuel h1 es1 _ keys1 (by simp at hf; omega) ((List.suffix_cons a zs).trans e) r1 q1 he1

theorem ngram_sim (U : Unicode) (junk : List Nat) (n : Nat) : ∀ (files : List (List Nat)) (opt : Textopt) (h : THeap) (as : List Addr) (cv : Addr → Ch)
    (es : List (Entry Gram)) (t : Ngram.Seqtable) (keys : List (Addr × List Nat)),
    TR h as cv bs wv → SR h bs wv words keys → Ents seqData Sequence.key es t.entries keys →
    Sim (fun x t => ∃ as' cv' keys', TR x.1 as' cv' bs wv ∧ SR x.1 bs wv words keys' ∧ Ents seqData Sequence.key x.2 t.entries keys' ∧
        (∀ fs file, files = fs ++ [file] → ∃ opt opt', Text.read_text U junk [] file opt = .ok (as'.map cv', opt')))
      (ngramFiles U junk n opt files es h) (Ngram.processFiles U junk n opt files t) := by
  intro files
  induction files with
  | nil =>
    intro opt h as cv es t keys r q he
    exact Sim.ok ⟨as, cv, keys, r, q, he, by simp⟩
  | cons file files ih =>
    intro opt h as cv es t keys r q he
    unfold ngramFiles Ngram.processFiles
    obtain ⟨h0, e0, r0, s0, _⟩ := r.empty_text
    rw [e0, bind_ok]
    have sim := read_text_sim U junk file opt [] r0 rfl
    cases hl : Text.read_text U junk [] file opt with
    | err m =>
      rw [hl] at sim
      generalize read_text U junk file opt h0 = z at sim
      cases sim
      exact Sim.err m
    | ub =>
      rw [hl] at sim
      generalize read_text U junk file opt h0 = z at sim
      cases sim
      exact Sim.ub
    | fuel =>
      rw [hl] at sim
      generalize read_text U junk file opt h0 = z at sim
      cases sim
      exact Sim.fuel
    | ok y =>
      rw [hl] at sim
      obtain ⟨text, opt2⟩ := y
      obtain ⟨x, hx, ns, cv1, r1, s1, _, m1, e1⟩ : ∃ x, read_text U junk file opt h0 = .ok x ∧ ∃ ns cv', TR x.1 ([] ++ ns) cv' bs wv ∧
          SameStr h0 x.1 ∧ (∀ a ∈ [], cv' a = cv a) ∧ ([] ++ ns).map cv' = text ∧ x.2 = opt2 := by
        generalize read_text U junk file opt h0 = z at sim
        cases sim with
        | ok hh => exact ⟨_, rfl, hh⟩
      obtain ⟨h1, opt1⟩ := x
      obtain rfl : opt1 = opt2 := e1
      simp only [List.nil_append] at r1 m1
      simp only [hx, bind_ok]
      have q1 := (q.same s0).same s1
      have hfirst := r1.first true
      simp only [two_true] at hfirst
      rw [hfirst, ← m1]
      refine Sim.bind (startLoop_sim U n ns h1.next h1 es t keys r1.len (List.suffix_refl _) r1 q1 he) ?_
      rintro ⟨h2, es2⟩ t2 ⟨keys2, r2, q2, he2⟩
      cases files with
      | nil =>
        unfold ngramFiles Ngram.processFiles
        refine Sim.ok ⟨ns, cv1, keys2, r2, q2, he2, ?_⟩
        intro fs g hg
        cases fs with
        | cons f fs => simp at hg
        | nil =>
          obtain rfl : file = g := by simpa using hg
          exact ⟨opt, opt1, by rw [hl, m1]⟩
      | cons f fs =>
        refine (ih opt1 h2 ns cv1 es2 t2 keys2 r2 q2 he2).imp ?_
        rintro x t ⟨as', cv', keys', i1, i2, i3, i4⟩
        refine ⟨as', cv', keys', i1, i2, i3, ?_⟩
        intro gs g hg
        cases gs with
        | nil => simp at hg
        | cons g0 gs => simp only [List.cons_append, List.cons.injEq] at hg; exact i4 gs g hg.2

/-! ## stopword.c -/

/-- The keys of the table are the strings `ts`. -/
def Keyed (h : THeap) (es : List (Entry Unit)) (ts : List (List Nat)) : Prop :=
  List.Forall₂ (fun e t => h.str e.key = some (t ++ [0]) ∧ 0 ∉ t) es ts

theorem lookup_eq {es : List (Entry Unit)} {ts : List (List Nat)} (hk : Keyed h es ts) (s : List Nat) :
    (modify h (.ok s) id es = .ok none ∧ Store.lookup id s ts = none) ∨
    (modify h (.ok s) id es = .ok (some es) ∧ ∃ t, Store.lookup id s ts = some t) := by
  induction hk with
  | nil => exact Or.inl ⟨rfl, rfl⟩
  | @cons e t es ts h1 h2 ih =>
    simp only [modify, bind_ok, string_nul h1.1 h1.2, Store.lookup, List.find?_cons]
    by_cases hh : t = s
    · refine Or.inr ⟨by rw [if_pos hh]; rfl, t, by simp [hh]⟩
    · rw [if_neg hh]
      rcases ih with ⟨i1, i2⟩ | ⟨i1, t', i2⟩
      · exact Or.inl ⟨by simp [i1], by simpa [hh, Store.lookup] using i2⟩
      · exact Or.inr ⟨by simp [i1], t', by simpa [hh, Store.lookup] using i2⟩

theorem saveWords_sim (r : TR h as cv bs wv) (q : SR h bs wv words keys) : ∀ (b1 : List Addr) (fuel : Nat) (b0 : List Addr)
    (w0 w1 : List (Option (List Nat))) (es : List (Entry Unit)) (ws : List (List Nat)) (S : Stopword.State), b1.length ≤ fuel → b0.length = w0.length →
    bs = b0 ++ b1 → words = w0 ++ w1 → Keyed h es S.table → S.warnings = ws →
    Sim (fun x S' => Keyed h x.1 S'.table ∧ S'.warnings = x.2 ∧ S'.initialized = S.initialized)
      (saveWords h fuel b1.head? es ws) (Stopword.saveWords w1 S) := by
  intro b1
  induction b1 with
  | nil =>
    intro fuel b0 w0 w1 es ws S hf hl hb hw hk hws
    have hw1 : w1 = [] := by
      have := q.strs.length_eq
      rw [hb, hw] at this
      simp at this
      cases w1 with
      | nil => rfl
      | cons => simp at this; omega
    subst hw1
    rw [List.head?_nil]
    unfold saveWords
    exact Sim.ok ⟨hk, hws, rfl⟩
  | cons b b1 ih =>
    intro fuel b0 w0 w1 es ws S hf hl hb hw hk hws
    obtain ⟨fuel, rfl⟩ : ∃ f, fuel = f + 1 := ⟨fuel - 1, by simp at hf; omega⟩
    have hst := q.strs
    rw [hb, hw] at hst
    obtain ⟨w, w2, rfl, hwd⟩ := forall₂_split hl hst
    have hbm : b ∈ bs := by simp [hb]
    unfold saveWords
    simp only [List.head?_cons, r.getWord hbm, bind_ok]
    cases w with
    | none =>
      have hbn : wv b = none := by
        cases hbn : wv b with
        | none => rfl
        | some p => rw [hbn] at hwd; exact hwd.elim
      simp only [hbn, save_stopword, string, bind_ub, Stopword.saveWords]
      exact Sim.ub
    | some w =>
      cases hbn : wv b with
      | none => rw [hbn] at hwd; exact hwd.elim
      | some p =>
        rw [hbn] at hwd
        have hnx := r.nextOf (l := false) (ys := b0) (zs := b1) (a := b) (by simpa using hb)
        simp only [save_stopword, string_nul hwd.1 hwd.2, bind_ok, Stopword.saveWords]
        rcases lookup_eq hk w with ⟨i1, i2⟩ | ⟨i1, t', i2⟩
        · simp only [i1, bind_ok, pure_eq, hnx, Stopword.save_stopword, i2]
          exact ih fuel (b0 ++ [b]) (w0 ++ [some w]) w2 _ _ { S with table := w :: S.table } (by simp at hf; omega) (by simp [hl])
            (by simpa using hb) (by simpa using hw) (List.Forall₂.cons hwd hk) hws
        · simp only [i1, bind_ok, pure_eq, hnx, Stopword.save_stopword, i2]
          exact ih fuel (b0 ++ [b]) (w0 ++ [some w]) w2 _ _ { S with warnings := S.warnings ++ [w] } (by simp at hf; omega) (by simp [hl])
            (by simpa using hb) (by simpa using hw) hk (by simp [hws])

theorem stopword_sim (U : Unicode) (hn : ∀ s t, 0 ∉ s → nfc s = some t → 0 ∉ t) (junk : List Nat) (junk' : Nat) (file : List Nat)
    (r : TR h [] cv [] wv) (q : SR h [] wv [] []) :
    Sim (fun x S => ∃ cv' bs' wv' words', TR x.1 [] cv' bs' wv' ∧ SR x.1 bs' wv' words' [] ∧ Keyed x.1 x.2.1 S.table ∧ S.warnings = x.2.2)
      (init_stopwords U prop nfc junk junk' file h) (Stopword.init_stopwords U prop nfc junk junk' (some file) Stopword.State.start) := by
  unfold init_stopwords Stopword.init_stopwords
  simp only [Stopword.State.start, Bool.false_eq_true, if_false]
  have sim : Sim (fun x (S : Stopword.State) => ∃ cv' bs' wv' words', TR x.1 [] cv' bs' wv' ∧ SR x.1 bs' wv' words' [] ∧ Keyed x.1 x.2.1 S.table ∧ S.warnings = x.2.2)
      (do
        let (h, _) ← read_text U junk file Stopword.textopt h
        let h ← find_words U prop nfc junk' h
        let h ← empty_text h
        let (es, ws) ← saveWords h h.next (h.links.hdr false).first [] []
        return (h, es, ws))
      (do
        let (text, _) ← Text.read_text U junk [] file Stopword.textopt
        let words ← Word.find_words U prop nfc junk' text
        Stopword.saveWords words ⟨false, [], []⟩) := by
    refine Sim.bind (read_text_sim U junk file _ [] r rfl) ?_
    rintro ⟨h1, opt1⟩ ⟨text, opt2⟩ ⟨ns, cv1, r1, s1, _, m1, e1⟩
    simp only [List.nil_append] at r1 m1
    refine Sim.bind (find_words_sim U hn junk' r1 (q.same s1) m1) ?_
    rintro h2 ws ⟨bs, wv2, r2, q2⟩
    simp only [List.nil_append] at q2
    obtain ⟨h3, e3, r3, s3, _⟩ := r2.empty_text
    have q3 := q2.same s3
    have hfirst := r3.first false
    simp only [two_false] at hfirst
    rw [e3, bind_ok, hfirst]
    have := saveWords_sim r3 q3 bs h3.next [] [] ws [] [] ⟨false, [], []⟩ r3.len' rfl rfl rfl List.Forall₂.nil rfl
    generalize saveWords h3 h3.next bs.head? [] [] = x at this
    generalize Stopword.saveWords ws ⟨false, [], []⟩ = y at this
    cases this with
    | ok hh => exact Sim.ok ⟨cv1, bs, wv2, ws, r3, q3, hh.1, hh.2.1⟩
    | err m => exact Sim.err m
    | ub => exact Sim.ub
    | fuel => exact Sim.fuel
  revert sim
  generalize hx : (do
        let (h, _) ← read_text U junk file Stopword.textopt h
        let h ← find_words U prop nfc junk' h
        let h ← empty_text h
        let (es, ws) ← saveWords h h.next (h.links.hdr false).first [] []
        return (h, es, ws) : Res _) = x
  generalize hy : (do
        let (text, _) ← Text.read_text U junk [] file Stopword.textopt
        let words ← Word.find_words U prop nfc junk' text
        Stopword.saveWords words ⟨false, [], []⟩ : Res _) = y
  rintro (hh | hh | _ | _)
  · exact Sim.ok hh
  · exact Sim.err _
  · exact Sim.ub
  · exact Sim.fuel

end Ocr.TextHeap
