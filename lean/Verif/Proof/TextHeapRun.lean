import Verif.Proof.TextHeapMain
import Verif.Spec.TextHeap

/-!
# Texts, word lists and tables on a heap: any use of the functions
-/

namespace Ocr.TextHeap
open Text Res CList

variable {h h' : THeap} {as bs : List Addr} {cv : Addr → Ch} {wv : Addr → Option Addr}
  {prop : Nat → Word.WB} {words : List (Option (List Nat))} {keys : List (Addr × List Nat)} {nfc : List Nat → Option (List Nat)}

theorem Sim.agree {α β : Type} {R S : α → β → Prop} {x : Res α} {y : Res β} (s : Sim R x y) (hr : ∀ a b, R a b → S a b) : Agree S x y := by
  cases s with
  | ok hh => exact hr _ _ hh
  | err m => exact rfl
  | ub => exact trivial
  | fuel => exact trivial

theorem TR.start : TR THeap.start [] (fun _ => ⟨false, 0⟩) [] (fun _ => none) := by
  refine ⟨⟨?_, ?_⟩, by simp [THeap.start], by simp [THeap.start], by simp⟩
  · intro l
    cases l <;> constructor <;> simp [THeap.start, two, Seg]
  · intro l k _ a ha
    cases l <;> simp at ha

theorem SR.start : SR THeap.start [] (fun _ => none) [] [] :=
  ⟨List.Forall₂.nil, by simp, by simp, by simp [THeap.start], by simp [THeap.start]⟩

theorem stringsOf_eq (r : TR h as cv bs wv) : stringsOf h bs = bs.filterMap wv := by
  unfold stringsOf
  refine filterMap_congr' ?_
  intro b hb
  simp [r.word, hb]

theorem holds (r : TR h as cv bs wv) (q : SR h bs wv words keys) : Holds h as bs (as.map cv) words (keys.map Prod.fst) := by
  refine ⟨(r.inv.rep true).shows, (r.inv.rep false).shows, ?_, ?_, ?_, ⟨?_, ?_⟩, ?_, ?_, ?_⟩
  · rw [List.map_map]
    refine List.map_congr_left ?_
    intro a ha
    simp [r.char, ha]
  · refine forall₂_congr_left q.strs ?_
    intro b hb w hw
    cases w with
    | none =>
      cases hp : wv b with
      | none => simp [IsWord, r.word, hb, hp]
      | some p => rw [hp] at hw; exact hw.elim
    | some w =>
      cases hp : wv b with
      | none => rw [hp] at hw; exact hw.elim
      | some p => rw [hp] at hw; exact ⟨p, by simp [r.word, hb, hp], hw.1⟩
  · intro k hk
    obtain ⟨x, hx, rfl⟩ := List.mem_map.1 hk
    simp [(q.named x hx).1]
  · rw [List.nodup_append]
    refine ⟨r.nodup, r.nodup', ?_⟩
    rintro a ha b hb rfl
    exact r.apart ha hb
  · rw [stringsOf_eq r]; exact q.nodup
  · intro a ha
    by_contra hn
    simp [r.char, hn] at ha
  · intro a ha
    by_contra hn
    simp [r.word, hn] at ha
  · rw [stringsOf_eq r]; exact q.only

theorem isTable {α ε : Type} {dat : ε → α} {keyOf : ε → List Nat} {es : List (Entry α)} {ts : List ε} (he : Ents dat keyOf es ts keys)
    (hs : ∀ k ∈ keys, h.str k.1 = some (k.2 ++ [0]) ∧ 0 ∉ k.2) : IsTable h keyOf dat es ts := by
  induction he with
  | nil => exact List.Forall₂.nil
  | @cons e t es ts ks h1 h2 ih =>
    exact List.Forall₂.cons ⟨(hs (e.key, keyOf t) (by simp)).1, h1⟩ (ih fun k hk => hs k (by simp [hk]))

theorem ents_keys {α ε : Type} {dat : ε → α} {keyOf : ε → List Nat} {es : List (Entry α)} {ts : List ε} (he : Ents dat keyOf es ts keys) :
    es.map (·.key) = keys.map Prod.fst := by
  induction he with
  | nil => rfl
  | cons _ _ ih => simp [ih]

/-- The state of a program and the state its user has in mind. -/
def Stands (x : THeap × Textopt × List (Entry (Int × Int))) (s : User) : Prop :=
  ∃ as cv bs wv keys, TR x.1 as cv bs wv ∧ SR x.1 bs wv s.words keys ∧ as.map cv = s.text ∧ x.2.1 = s.opt ∧ Ents termData Term.key x.2.2 s.terms keys

theorem run_sim (U : Unicode) (hn : ∀ s t, 0 ∉ s → nfc s = some t → 0 ∉ t) (junk : List Nat) (junk' : Nat) : ∀ (ops : List Op)
    (x : THeap × Textopt × List (Entry (Int × Int))) (s : User), Stands x s →
    Sim Stands (run U prop nfc junk junk' ops x) (plan U prop nfc junk junk' ops s) := by
  intro ops
  induction ops with
  | nil => intro x s hs; exact Sim.ok hs
  | cons op ops ih =>
    rintro ⟨h, opt, es⟩ ⟨text, words, opt', ts⟩ ⟨as, cv, bs, wv, keys, r, q, ht, ho, he⟩
    simp only at r q ht ho he
    subst ho
    cases op with
    | read file =>
      simp only [run, plan]
      refine Sim.bind (read_text_sim U junk file opt text r ht) ?_
      rintro ⟨h1, opt1⟩ ⟨text1, opt2⟩ ⟨ns, cv1, r1, s1, _, m1, e1⟩
      exact ih _ _ ⟨_, cv1, bs, wv, keys, r1, q.same s1, m1, e1, he⟩
    | findWords =>
      simp only [run, plan]
      refine Sim.bind (find_words_sim U hn junk' r q ht) ?_
      rintro h1 ws ⟨bs1, wv1, r1, q1⟩
      exact ih _ _ ⟨as, cv, bs1, wv1, keys, r1, q1, ht, rfl, he⟩
    | addWords =>
      simp only [run, plan]
      have hfirst := r.first false
      simp only [two_false] at hfirst
      rw [hfirst]
      refine Sim.bind (addWords_sim bs h.next [] [] words h es ts keys r.len' rfl r q he) ?_
      rintro ⟨h1, es1⟩ t1 ⟨keys1, r1, q1, he1⟩
      exact ih _ _ ⟨as, cv, bs, wv, keys1, r1, q1, ht, rfl, he1⟩
    | emptyText =>
      simp only [run, plan]
      obtain ⟨h1, e1, r1, s1, _⟩ := r.empty_text
      rw [e1, bind_ok]
      exact ih _ _ ⟨[], cv, bs, wv, keys, r1, q.same s1, rfl, rfl, he⟩
    | emptyWords =>
      simp only [run, plan]
      obtain ⟨h1, e1, r1, q1⟩ := r.empty_words q
      rw [e1, bind_ok]
      exact ih _ _ ⟨as, cv, [], wv, keys, r1, q1, ht, rfl, he⟩

theorem walk_unique {next : Addr → Option Addr} {p : Option Addr} {xs ys : List Addr} (w : Walk next p xs) (w' : Walk next p ys) : xs = ys := by
  induction w generalizing ys with
  | nil => cases w'; rfl
  | cons _ ih =>
    cases w' with
    | cons w' => rw [ih w']

end Ocr.TextHeap
