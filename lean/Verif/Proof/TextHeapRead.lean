import Verif.Proof.TextHeapBase

/-!
# read_text on a heap
-/

namespace Ocr.TextHeap
open Text Res CList

/-- Two computations end in the same way, and if they succeed their results are related. -/
inductive Sim {α β : Type} (R : α → β → Prop) : Res α → Res β → Prop
  | ok {a b} : R a b → Sim R (.ok a) (.ok b)
  | err (e : String) : Sim R (.err e) (.err e)
  | ub : Sim R .ub .ub
  | fuel : Sim R .fuel .fuel

theorem Sim.bind {α β γ δ : Type} {R : α → β → Prop} {S : γ → δ → Prop} {x : Res α} {y : Res β} {f : α → Res γ} {g : β → Res δ}
    (h : Sim R x y) (hf : ∀ a b, R a b → Sim S (f a) (g b)) : Sim S (x >>= f) (y >>= g) := by
  cases h with
  | ok h => exact hf _ _ h
  | err e => exact Sim.err e
  | ub => exact Sim.ub
  | fuel => exact Sim.fuel

theorem Sim.imp {α β : Type} {R S : α → β → Prop} {x : Res α} {y : Res β} (h : Sim R x y) (hf : ∀ a b, R a b → S a b) : Sim S x y := by
  cases h with
  | ok h => exact Sim.ok (hf _ _ h)
  | err e => exact Sim.err e
  | ub => exact Sim.ub
  | fuel => exact Sim.fuel

variable {h h' : THeap} {as bs ys zs : List Addr} {cv : Addr → Ch} {wv : Addr → Option Addr} {a : Addr} {l : Bool}

/-- The text has grown by characters with the contents `cs`. -/
def Grown (h : THeap) (as : List Addr) (cv : Addr → Ch) (bs : List Addr) (wv : Addr → Option Addr) (h' : THeap) (cs : List Ch) : Prop :=
  ∃ ns cv', TR h' (as ++ ns) cv' bs wv ∧ SameStr h h' ∧ (∀ a ∈ as, cv' a = cv a) ∧ ns.map cv' = cs

theorem readLoop_sim (fm : Bool) (m : Nat) : ∀ (fuel : Nat) (file buf : List Nat) (s : Bool) (h : THeap) (as : List Addr) (cv : Addr → Ch),
    TR h as cv bs wv → Sim (Grown h as cv bs wv) (readLoop fm m fuel file buf s h) (Text.readLoop fm m fuel file buf s) := by
  intro fuel
  induction fuel with
  | zero =>
    intro file buf s h as cv r
    cases file with
    | nil => exact Sim.ok ⟨[], cv, by simpa using r, SameStr.refl h, fun _ _ => rfl, rfl⟩
    | cons b file => exact Sim.fuel
  | succ fuel ih =>
    intro file buf s h as cv r
    cases file with
    | nil =>
      simp only [TextHeap.readLoop, Text.readLoop]
      exact Sim.ok ⟨[], cv, by simpa using r, SameStr.refl h, fun _ _ => rfl, rfl⟩
    | cons byte rest =>
      simp only [TextHeap.readLoop, Text.readLoop]
      by_cases h1 : utf8class byte < 1
      · simp only [h1, if_true]; exact Sim.err _
      · simp only [h1, if_false]
        by_cases h2 : (rest.take (utf8class byte - 1)).length ≠ utf8class byte - 1
        · rw [if_pos h2, if_pos h2]; exact Sim.err _
        · rw [if_neg h2, if_neg h2]
          cases h3 : iterate (byte :: rest.take (utf8class byte - 1) ++ buf.drop (utf8class byte)) with
          | none => exact Sim.err _
          | some x =>
            obtain ⟨n, cp⟩ := x
            simp only
            by_cases h4 : n ≠ utf8class byte
            · rw [if_pos h4, if_pos h4]; exact Sim.err _
            · rw [if_neg h4, if_neg h4]
              by_cases h5 : fm = true ∧ cp = m
              · rw [if_pos h5, if_pos h5]; exact ih _ _ _ _ _ _ r
              · rw [if_neg h5, if_neg h5]
                obtain ⟨h1, e1, r1, s1, n1⟩ := r.append s cp
                have hfr := r.fresh true
                simp only [two_true] at hfr
                rw [e1, bind_ok]
                have := (ih (rest.drop (utf8class byte - 1)) (byte :: rest.take (utf8class byte - 1) ++ buf.drop (utf8class byte)) false h1 _ _ r1).imp
                  (S := fun h' cs => Grown h as cv bs wv h' (⟨s, cp⟩ :: cs)) (by
                    rintro h' cs ⟨ns, cv', r', s', k', m'⟩
                    refine ⟨h.next :: ns, cv', by simpa using r', s1.trans s', ?_, ?_⟩
                    · intro a ha
                      rw [k' a (by simp [ha]), put_ne]
                      rintro rfl; exact hfr ha
                    · simp [m', k' h.next (by simp)])
                revert this
                generalize TextHeap.readLoop fm m fuel (rest.drop (utf8class byte - 1)) _ false h1 = x
                generalize Text.readLoop fm m fuel (rest.drop (utf8class byte - 1)) _ false = y
                rintro (h | h | _ | _)
                · exact Sim.ok h
                · exact Sim.err _
                · exact Sim.ub
                · exact Sim.fuel

theorem TR.startOf (r : TR h (ys ++ zs) cv bs wv) : startOf ys.getLast? h = .ok zs.head? := by
  rcases List.eq_nil_or_concat ys with rfl | ⟨ys, y, rfl⟩
  · have := r.first true
    simpa [TextHeap.startOf] using this
  · simp only [List.concat_eq_append, List.getLast?_append, List.getLast?_singleton, Option.some_or, TextHeap.startOf]
    exact r.nextOf (l := true) (ys := ys) (zs := zs) (by simp)

theorem read_text_sim (U : Unicode) (junk file : List Nat) (opt : Textopt) (text : List Ch) (r : TR h as cv bs wv) (ht : as.map cv = text) :
    Sim (fun x y => ∃ ns cv', TR x.1 (as ++ ns) cv' bs wv ∧ SameStr h x.1 ∧ (∀ a ∈ as, cv' a = cv a) ∧ (as ++ ns).map cv' = y.1 ∧ x.2 = y.2)
      (read_text U junk file opt h) (Text.read_text U junk text file opt) := by
  unfold TextHeap.read_text Text.read_text
  have hd : ∀ z : Res (Textopt × List Nat), Sim (fun x y => x = y) z z := by
    intro z; cases z
    · exact Sim.ok rfl
    · exact Sim.err _
    · exact Sim.ub
    · exact Sim.fuel
  have hl := r.last true
  simp only [two_true] at hl
  simp only [hl]
  refine Sim.bind (hd _) ?_
  rintro ⟨opt, body⟩ _ rfl
  simp only [Text.read_contents]
  refine Sim.bind (readLoop_sim _ _ _ _ _ _ _ _ _ r) ?_
  rintro h1 cs ⟨ns, cv1, r1, s1, k1, m1⟩
  have hn : ∃ h2 cv2 ns2, (if opt.normalize = true then (do let start ← TextHeap.startOf as.getLast? h1; compress_spacing U start h1) else pure h1) = .ok h2 ∧
      TR h2 (as ++ ns2) cv2 bs wv ∧ SameStr h h2 ∧ (∀ a ∈ as, cv2 a = cv a) ∧
      ns2.map cv2 = (if opt.normalize = true then Text.compress_spacing U cs else cs) := by
    by_cases hno : opt.normalize = true
    · simp only [hno, if_true, r1.startOf, bind_ok]
      obtain ⟨h2, cv2, ns2, e2, r2, s2, n2, k2, m2, _⟩ := r1.compress U
      exact ⟨h2, cv2, ns2, e2, r2, s1.trans s2, fun a ha => by rw [k2 a ha, k1 a ha], by rw [m2, m1]⟩
    · simp only [hno]
      exact ⟨h1, cv1, ns, rfl, r1, s1, k1, m1⟩
  obtain ⟨h2, cv2, ns2, e2, r2, s2, k2, m2⟩ := hn
  have hc : ∃ h3 cv3, (if opt.case_insensitive = true then (do let start ← TextHeap.startOf as.getLast? h2; lowercase U start h2) else pure h2) = .ok h3 ∧
      TR h3 (as ++ ns2) cv3 bs wv ∧ SameStr h h3 ∧ (∀ a ∈ as, cv3 a = cv a) ∧
      ns2.map cv3 = (if opt.case_insensitive = true then Text.lowercase U (ns2.map cv2) else ns2.map cv2) := by
    by_cases hno : opt.case_insensitive = true
    · simp only [hno, if_true, r2.startOf, bind_ok]
      obtain ⟨h3, cv3, e3, r3, s3, n3, k3, m3⟩ := r2.lower U
      exact ⟨h3, cv3, e3, r3, s2.trans s3, fun a ha => by rw [k3 a ha, k2 a ha], m3⟩
    · simp only [hno]
      exact ⟨h2, cv2, rfl, r2, s2, k2, rfl⟩
  obtain ⟨h3, cv3, e3, r3, s3, k3, m3⟩ := hc
  rw [e2, bind_ok, e3, bind_ok]
  simp only [pure_eq]
  refine Sim.ok ⟨ns2, cv3, r3, s3, k3, ?_, rfl⟩
  rw [List.map_append, m3, m2, ← ht]
  congr 1
  exact List.map_congr_left k3

end Ocr.TextHeap
