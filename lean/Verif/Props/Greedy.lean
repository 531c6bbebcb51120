import Verif.Props.Sync

/-!
# C63: which matches synchronize finds
-/

namespace Ocr.Sync
open Text

/-- C63.  For 2 to 16 texts `synchronize` splits the texts at the first longest string common to them, found by taking one text after
the other, and so on to the left and to the right. -/
theorem c63_greedy (texts : List (List Nat)) (h1 : 2 ≤ texts.length) (h2 : texts.length ≤ 16) :
    ∃ r, synchronize texts = .ok r ∧ Greedy texts (groups texts r.items) := by
  obtain ⟨r, e, _, _, g⟩ := synchronize_spec texts h1 h2
  exact ⟨r, e, g⟩

/-- C63 (the outcome is determined).  There is only one such way of splitting the texts. -/
theorem c63_determined (texts : List (List Nat)) (L L' : List (Bool × List (List Nat))) (h : Greedy texts L) (h' : Greedy texts L') :
    L = L' := h.unique h'

/-- C63 (two texts).  No character other than the reject character is left unmatched on both sides of an unmatched item. -/
theorem c63_two (a b : List Nat) : ∃ r, synchronize [a, b] = .ok r ∧
    ∀ s ∈ r.items, s.mtch = none → ∀ c, c ≠ 126 → c ∈ piece a (s.sub 0) → c ∉ piece b (s.sub 1) := by
  obtain ⟨r, e, al, _, g⟩ := synchronize_spec [a, b] (by simp [MIN_STREAMS]) (by simp [MAX_STREAMS])
  refine ⟨r, e, ?_⟩
  intro s hs hm c hc h1 h2
  have hw := al.width s hs
  obtain ⟨x, y, hxy⟩ := List.length_eq_two.1 hw
  refine hc (g.two rfl (u := piece a (s.sub 0)) (v := piece b (s.sub 1)) ?_ c h1 h2)
  unfold groups
  rw [List.mem_map]
  exact ⟨s, hs, by simp [hm, hxy, Sync.sub]⟩

/-- C63 (two texts, longest).  The longest match is as long as any common string. -/
theorem c63_longest (a b : List Nat) : ∃ r, synchronize [a, b] = .ok r ∧
    ∀ w, w ≠ [] → w <:+: a → w <:+: b → 126 ∉ w →
      ∃ s ∈ r.items, s.mtch ≠ none ∧ (w.length : Int) ≤ (s.sub 0).length := by
  obtain ⟨r, e, al, _, g⟩ := synchronize_spec [a, b] (by simp [MIN_STREAMS]) (by simp [MAX_STREAMS])
  refine ⟨r, e, ?_⟩
  intro w hw ha hb hr
  obtain ⟨pa, sa, rfl⟩ := ha
  obtain ⟨pb, sb, rfl⟩ := hb
  obtain ⟨v, hv, hle⟩ := g.longest (i := pa.length) (j := pb.length) (w := w) ⟨by simp, by simp, hr⟩ hw
  unfold groups at hv
  obtain ⟨s, hs, he⟩ := List.mem_map.1 hv
  obtain ⟨x, y, hxy⟩ := List.length_eq_two.1 (al.width s hs)
  simp only [hxy, List.zipWith_cons_cons, List.zipWith_nil_left, Prod.mk.injEq, List.cons.injEq, and_true] at he
  refine ⟨s, hs, ?_, ?_⟩
  · intro h0; simp [h0] at he
  · have h1 := congrArg List.length he.2.1
    have h2 := List.length_pos_iff.2 hw
    simp only [piece, List.length_take, List.length_drop] at h1
    simp only [Sync.sub, hxy, List.getD_cons_zero]
    omega

/-- C63 (three texts).  With three texts a character common to all of them may be left unmatched: the longest string common to the
first two does not occur in the third, and no shorter one is tried. -/
theorem c63_three : ∃ texts : List (List Nat), texts.length = 3 ∧ (∃ c, c ≠ 126 ∧ ∀ t ∈ texts, c ∈ t) ∧
    ∃ r, synchronize texts = .ok r ∧ ∀ s ∈ r.items, s.mtch = none := by
  have h : (do let r ← synchronize [ascii "abcd", ascii "abcxd", ascii "d"]; pure r.items : Res _) =
      .ok [⟨[⟨0, 3, 4⟩, ⟨0, 4, 5⟩, ⟨0, 0, 1⟩], none⟩] := by decide +kernel
  obtain ⟨r, e, _⟩ := c19_alignment [ascii "abcd", ascii "abcxd", ascii "d"] (by simp) (by simp)
  rw [e] at h
  have hr : r.items = [⟨[⟨0, 3, 4⟩, ⟨0, 4, 5⟩, ⟨0, 0, 1⟩], none⟩] := by simpa using h
  exact ⟨[ascii "abcd", ascii "abcxd", ascii "d"], rfl, ⟨100, by decide, by decide⟩, r, e, by rw [hr]; simp⟩

/-! ## Non-vacuity -/

example : FirstLongest (ascii "kitten") (ascii "sitting") 1 1 (ascii "itt") := by
  rcases longest_strings (c1 := ascii "kitten") (c2 := ascii "sitting") (a := 0) (b := 0) (n := 6) (m := 7) (by decide) (by decide)
    (u := ascii "kitten") (v := ascii "sitting") (by decide) (by decide) with ⟨e, _⟩ | ⟨i, j, w, e, hf⟩
  · exact absurd e (by decide +kernel)
  · have h : longest_match 0 (ascii "kitten") (0 : Nat) ((0 : Nat) + (6 : Nat) - 1) (ascii "sitting") (0 : Nat) ((0 : Nat) + (7 : Nat) - 1) none =
        .ok (3, some (1, 1)) := by decide +kernel
    rw [h] at e
    simp only [Res.ok.injEq, Prod.mk.injEq, Option.some.injEq] at e
    obtain ⟨e1, e2, e3⟩ := e
    have hi : i = 1 := by omega
    have hj : j = 1 := by omega
    subst hi hj
    have hw := (hf.occurs.bounds hf.nonempty).2.2
    rw [show w.length = 3 by omega] at hw
    rw [hw] at hf
    exact hf

example : (do let r ← synchronize [ascii "the cat", ascii "a cat, the"]; pure (groups [ascii "the cat", ascii "a cat, the"] r.items) : Res _) =
    .ok [(false, [ascii "the", ascii "a"]), (true, [ascii " cat", ascii " cat"]), (false, [[], ascii ", the"])] := by decide +kernel

end Ocr.Sync
