import Verif.Proof.Compare
import Mathlib.Data.List.Nodup

/-!
# C04: report comparators define a unique order.  C05: ustrcmp.
-/

namespace Ocr

/-- C05.  For any two NUL-terminated strings `ustrcmp` stays within both strings and returns 0 exactly for equal
strings, -1 exactly when the first precedes the second in bytewise lexicographic order (the order `<` on lists of
numbers), and 1 exactly when it follows it. -/
theorem c05_ustrcmp (s t : List Nat) (hs : NulFree s) (ht : NulFree t) :
    ∃ v, ustrcmpRes s t = .ok v ∧ (v = 0 ↔ s = t) ∧ (v = -1 ↔ s < t) ∧ (v = 1 ↔ t < s) := by
  refine ⟨lexCmp s t, ustrcmpRes_eq s t hs ht, ?_⟩
  rcases lexCmp_cases s t with ⟨h, e⟩ | ⟨h, e⟩ | ⟨h, e⟩
  · subst e; simp [h, List.lt_irrefl]
  · refine ⟨by simp [h]; rintro rfl; exact List.lt_irrefl _ e, by simp [h, e], ?_⟩
    simp only [h]
    constructor
    · intro h'; omega
    · intro h'; exact absurd (List.lt_trans e h') (List.lt_irrefl _)
  · refine ⟨by simp [h]; rintro rfl; exact List.lt_irrefl _ e, ?_, by simp [h, e]⟩
    simp only [h]
    constructor
    · intro h'; omega
    · intro h'; exact absurd (List.lt_trans e h') (List.lt_irrefl _)

example : NulFree (ascii "abc") ∧ ascii "abc" < ascii "abd" := by
  constructor
  · intro c hc; revert c; decide
  · decide
example : ustrcmpRes (ascii "ab") (ascii "abc") = .ok (-1) := by decide
example : ustrcmpRes [0xC3, 0xA9] (ascii "z") = .ok 1 := by decide  -- bytes compared as unsigned

/-- The entries of a table of words: no two with the same key, keys are C strings. -/
def TermSet (a : List Term) : Prop := (a.map Term.key).Nodup ∧ ∀ t ∈ a, NulFree t.key

theorem key_inj {α κ : Type} (f : α → κ) (a : List α) (h : (a.map f).Nodup) :
    ∀ x ∈ a, ∀ y ∈ a, f x = f y → x = y := by
  intro x hx y hy e
  exact List.inj_on_of_nodup_map h hx hy e

/-- C04 for the word tables of word accuracy reports (and the first listing of wordfreq): the sorted array depends
only on the set of entries, and it is in strictly increasing bytewise order of keys. -/
theorem c04_terms_by_key (a b : List Term) (hp : a.Perm b) (ha : TermSet a) (fuel : Nat) (hf : a.length ≤ fuel) :
    ∃ s, Sort.sort fuel compare_term a = .ok s ∧ Sort.sort fuel compare_term b = .ok s ∧ s.Perm a ∧
      s.Pairwise (fun x y => x.key < y.key) := by
  have hz : ∀ x ∈ a, ∀ y ∈ a, compare_term x y = 0 → x = y := by
    intro x hx y hy h
    unfold compare_term at h
    rw [ustrcmp_eq _ _ (ha.2 x hx) (ha.2 y hy), lexCmp_zero] at h
    exact key_inj _ a ha.1 x hx y hy h
  obtain ⟨s, h1, h2, h3, h4⟩ := sort_unique compare_term a b hp
    (key_preorder (S := (· ∈ a)) Term.key ha.2) hz fuel hf
  refine ⟨s, h1, h2, h3, ?_⟩
  have hnd : s.Nodup := h3.nodup_iff.2 (List.Nodup.of_map _ ha.1)
  refine (h4.and hnd).imp_of_mem ?_
  intro x y hx hy ⟨hle, hne⟩
  have hx := h3.mem_iff.1 hx
  have hy := h3.mem_iff.1 hy
  unfold compare_term at hle
  rw [ustrcmp_eq _ _ (ha.2 x hx) (ha.2 y hy)] at hle
  rcases lexCmp_cases x.key y.key with ⟨h, e⟩ | ⟨h, e⟩ | ⟨h, e⟩
  · exact absurd (key_inj _ a ha.1 x hx y hy e) hne
  · exact e
  · omega

/-- C04 for the second listing of wordfreq: decreasing count, then increasing key. -/
theorem c04_terms_by_count (a b : List Term) (hp : a.Perm b) (ha : TermSet a)
    (hr : ∀ x ∈ a, ∀ y ∈ a, x.count - y.count < 2^31) (fuel : Nat) (hf : a.length ≤ fuel) :
    ∃ s, Sort.sort fuel wf_order_by_count a = .ok s ∧ Sort.sort fuel wf_order_by_count b = .ok s ∧ s.Perm a ∧
      s.Pairwise (fun x y => y.count < x.count ∨ (x.count = y.count ∧ x.key < y.key)) := by
  have hkp : Sort.TotalPreorderOn (· ∈ a) compare_term := key_preorder (S := (· ∈ a)) Term.key ha.2
  have hz : ∀ x ∈ a, ∀ y ∈ a, wf_order_by_count x y = 0 → x = y := by
    intro x hx y hy h
    have := (then_zero (S := (· ∈ a)) Term.count compare_term (fun x y => fun hx hy => hr x hx y hy) x y hx hy h).2
    unfold compare_term at this
    rw [ustrcmp_eq _ _ (ha.2 x hx) (ha.2 y hy), lexCmp_zero] at this
    exact key_inj _ a ha.1 x hx y hy this
  obtain ⟨s, h1, h2, h3, h4⟩ := sort_unique wf_order_by_count a b hp
    (then_preorder (S := (· ∈ a)) Term.count compare_term (fun x y hx hy => hr x hx y hy) hkp) hz fuel hf
  refine ⟨s, h1, h2, h3, ?_⟩
  have hnd : s.Nodup := h3.nodup_iff.2 (List.Nodup.of_map _ ha.1)
  refine (h4.and hnd).imp_of_mem ?_
  intro x y hx hy ⟨hle, hne⟩
  have hx := h3.mem_iff.1 hx
  have hy := h3.mem_iff.1 hy
  unfold wf_order_by_count at hle
  by_cases he : x.count = y.count
  · right
    refine ⟨he, ?_⟩
    simp only [he, ne_eq, not_true_eq_false, if_false, compare_term] at hle
    rw [ustrcmp_eq _ _ (ha.2 x hx) (ha.2 y hy)] at hle
    rcases lexCmp_cases x.key y.key with ⟨h, e⟩ | ⟨h, e⟩ | ⟨h, e⟩
    · exact absurd (key_inj _ a ha.1 x hx y hy e) hne
    · exact e
    · omega
  · left
    simp only [ne_eq, he, not_false_eq_true, if_true] at hle
    have h1 := hr x hx y hy
    have h2 := hr y hy x hx
    rw [narrow_eq (by omega) (by omega)] at hle; omega

/-- C04 for the confusions of accuracy reports: decreasing errors, then decreasing marked, then increasing key. -/
theorem c04_confusions (a b : List Conf) (hp : a.Perm b) (hk : (a.map Conf.key).Nodup)
    (hn : ∀ c ∈ a, NulFree c.key)
    (hr : ∀ x ∈ a, ∀ y ∈ a, x.errors - y.errors < 2^31 ∧ x.marked - y.marked < 2^31)
    (fuel : Nat) (hf : a.length ≤ fuel) :
    ∃ s, Sort.sort fuel compare_conf a = .ok s ∧ Sort.sort fuel compare_conf b = .ok s ∧ s.Perm a ∧
      s.Pairwise (fun x y => y.errors < x.errors ∨ (x.errors = y.errors ∧
        (y.marked < x.marked ∨ (x.marked = y.marked ∧ x.key < y.key)))) := by
  have hkp : Sort.TotalPreorderOn (· ∈ a) (fun x y : Conf => ustrcmp x.key y.key) :=
    key_preorder (S := (· ∈ a)) Conf.key hn
  have r1 : ∀ x y, x ∈ a → y ∈ a → x.errors - y.errors < 2^31 := fun x y hx hy => (hr x hx y hy).1
  have r2 : ∀ x y, x ∈ a → y ∈ a → x.marked - y.marked < 2^31 := fun x y hx hy => (hr x hx y hy).2
  have p2 := then_preorder (S := (· ∈ a)) Conf.marked _ r2 hkp
  have p1 := then_preorder (S := (· ∈ a)) Conf.errors _ r1 p2
  have hz : ∀ x ∈ a, ∀ y ∈ a, compare_conf x y = 0 → x = y := by
    intro x hx y hy h
    have h1 := (then_zero (S := (· ∈ a)) Conf.errors
      (fun x y => if x.marked ≠ y.marked then narrow (y.marked - x.marked) else ustrcmp x.key y.key) r1 x y hx hy h).2
    have h2 := (then_zero (S := (· ∈ a)) Conf.marked (fun x y => ustrcmp x.key y.key) r2 x y hx hy h1).2
    rw [ustrcmp_eq _ _ (hn x hx) (hn y hy), lexCmp_zero] at h2
    exact key_inj _ a hk x hx y hy h2
  obtain ⟨s, h1, h2, h3, h4⟩ := sort_unique compare_conf a b hp p1 hz fuel hf
  refine ⟨s, h1, h2, h3, ?_⟩
  have hnd : s.Nodup := h3.nodup_iff.2 (List.Nodup.of_map _ hk)
  refine (h4.and hnd).imp_of_mem ?_
  intro x y hx hy ⟨hle, hne⟩
  have hx := h3.mem_iff.1 hx
  have hy := h3.mem_iff.1 hy
  have q1 := r1 x y hx hy
  have q2 := r1 y x hy hx
  have q3 := r2 x y hx hy
  have q4 := r2 y x hy hx
  unfold compare_conf at hle
  by_cases he : x.errors = y.errors
  · right
    refine ⟨he, ?_⟩
    simp only [he, ne_eq, not_true_eq_false, if_false] at hle
    by_cases hm : x.marked = y.marked
    · right
      refine ⟨hm, ?_⟩
      simp only [hm, not_true_eq_false, if_false] at hle
      rw [ustrcmp_eq _ _ (hn x hx) (hn y hy)] at hle
      rcases lexCmp_cases x.key y.key with ⟨h, e⟩ | ⟨h, e⟩ | ⟨h, e⟩
      · exact absurd (key_inj _ a hk x hx y hy e) hne
      · exact e
      · omega
    · left
      simp only [hm, not_false_eq_true, if_true] at hle
      rw [narrow_eq (by omega) (by omega)] at hle; omega
  · left
    simp only [ne_eq, he, not_false_eq_true, if_true] at hle
    rw [narrow_eq (by omega) (by omega)] at hle; omega

/-- C04 for the first listing of ngram: increasing order of the character values. -/
theorem c04_ngrams_by_value (n : Nat) (a b : List Sequence) (hp : a.Perm b) (hk : (a.map Sequence.value).Nodup)
    (hn : ∀ c ∈ a, c.value.length = n) (fuel : Nat) (hf : a.length ≤ fuel) :
    ∃ s, Sort.sort fuel ng_order_by_value a = .ok s ∧ Sort.sort fuel ng_order_by_value b = .ok s ∧ s.Perm a ∧
      s.Pairwise (fun x y => x.value < y.value) := by
  have hc : ∀ x ∈ a, ∀ y ∈ a, ng_order_by_value x y = lexCmp x.value y.value := by
    intro x hx y hy; exact compareValues_eq (by rw [hn x hx, hn y hy])
  have hz : ∀ x ∈ a, ∀ y ∈ a, ng_order_by_value x y = 0 → x = y := by
    intro x hx y hy h
    rw [hc x hx y hy, lexCmp_zero] at h
    exact key_inj _ a hk x hx y hy h
  obtain ⟨s, h1, h2, h3, h4⟩ := sort_unique ng_order_by_value a b hp
    (value_preorder (S := (· ∈ a)) Sequence.value n hn) hz fuel hf
  refine ⟨s, h1, h2, h3, ?_⟩
  have hnd : s.Nodup := h3.nodup_iff.2 (List.Nodup.of_map _ hk)
  refine (h4.and hnd).imp_of_mem ?_
  intro x y hx hy ⟨hle, hne⟩
  have hx := h3.mem_iff.1 hx
  have hy := h3.mem_iff.1 hy
  rw [hc x hx y hy] at hle
  rcases lexCmp_cases x.value y.value with ⟨h, e⟩ | ⟨h, e⟩ | ⟨h, e⟩
  · exact absurd (key_inj _ a hk x hx y hy e) hne
  · exact e
  · omega

/-- C04 for the second listing of ngram: decreasing count, then decreasing suspect count, then increasing value. -/
theorem c04_ngrams_by_count (n : Nat) (a b : List Sequence) (hp : a.Perm b) (hk : (a.map Sequence.value).Nodup)
    (hn : ∀ c ∈ a, c.value.length = n)
    (hr : ∀ x ∈ a, ∀ y ∈ a, x.count - y.count < 2^31 ∧ x.suspect - y.suspect < 2^31)
    (fuel : Nat) (hf : a.length ≤ fuel) :
    ∃ s, Sort.sort fuel ng_order_by_count a = .ok s ∧ Sort.sort fuel ng_order_by_count b = .ok s ∧ s.Perm a ∧
      s.Pairwise (fun x y => y.count < x.count ∨ (x.count = y.count ∧
        (y.suspect < x.suspect ∨ (x.suspect = y.suspect ∧ x.value < y.value)))) := by
  have hc : ∀ x ∈ a, ∀ y ∈ a, ng_order_by_value x y = lexCmp x.value y.value := by
    intro x hx y hy; exact compareValues_eq (by rw [hn x hx, hn y hy])
  have hkp : Sort.TotalPreorderOn (· ∈ a) ng_order_by_value := value_preorder (S := (· ∈ a)) Sequence.value n hn
  have r1 : ∀ x y, x ∈ a → y ∈ a → x.count - y.count < 2^31 := fun x y hx hy => (hr x hx y hy).1
  have r2 : ∀ x y, x ∈ a → y ∈ a → x.suspect - y.suspect < 2^31 := fun x y hx hy => (hr x hx y hy).2
  have p2 := then_preorder (S := (· ∈ a)) Sequence.suspect _ r2 hkp
  have p1 := then_preorder (S := (· ∈ a)) Sequence.count _ r1 p2
  have hz : ∀ x ∈ a, ∀ y ∈ a, ng_order_by_count x y = 0 → x = y := by
    intro x hx y hy h
    have h1 := (then_zero (S := (· ∈ a)) Sequence.count
      (fun x y => if x.suspect ≠ y.suspect then narrow (y.suspect - x.suspect) else ng_order_by_value x y) r1 x y hx hy h).2
    have h2 := (then_zero (S := (· ∈ a)) Sequence.suspect ng_order_by_value r2 x y hx hy h1).2
    rw [hc x hx y hy, lexCmp_zero] at h2
    exact key_inj _ a hk x hx y hy h2
  obtain ⟨s, h1, h2, h3, h4⟩ := sort_unique ng_order_by_count a b hp p1 hz fuel hf
  refine ⟨s, h1, h2, h3, ?_⟩
  have hnd : s.Nodup := h3.nodup_iff.2 (List.Nodup.of_map _ hk)
  refine (h4.and hnd).imp_of_mem ?_
  intro x y hx hy ⟨hle, hne⟩
  have hx := h3.mem_iff.1 hx
  have hy := h3.mem_iff.1 hy
  have q1 := r1 x y hx hy
  have q2 := r1 y x hy hx
  have q3 := r2 x y hx hy
  have q4 := r2 y x hy hx
  unfold ng_order_by_count at hle
  by_cases he : x.count = y.count
  · right
    refine ⟨he, ?_⟩
    simp only [he, ne_eq, not_true_eq_false, if_false] at hle
    by_cases hm : x.suspect = y.suspect
    · right
      refine ⟨hm, ?_⟩
      simp only [hm, not_true_eq_false, if_false] at hle
      rw [hc x hx y hy] at hle
      rcases lexCmp_cases x.value y.value with ⟨h, e⟩ | ⟨h, e⟩ | ⟨h, e⟩
      · exact absurd (key_inj _ a hk x hx y hy e) hne
      · exact e
      · omega
    · left
      simp only [hm, not_false_eq_true, if_true] at hle
      rw [narrow_eq (by omega) (by omega)] at hle; omega
  · left
    simp only [ne_eq, he, not_false_eq_true, if_true] at hle
    rw [narrow_eq (by omega) (by omega)] at hle; omega

/-- The bound 2^31 is sharp: with counts differing by exactly 2^31 each of two words compares as smaller than the
other, so the printed order depends on the order in which the entries were stored. -/
theorem c04_false_beyond_int_range :
    ∃ x y : Term, TermSet [x, y] ∧ wf_order_by_count x y < 0 ∧ wf_order_by_count y x < 0 ∧
      Sort.sort 2 wf_order_by_count [x, y] ≠ Sort.sort 2 wf_order_by_count [y, x] := by
  refine ⟨⟨[97], 0, 0⟩, ⟨[98], 2^31, 0⟩, ⟨by decide, by simp [NulFree]⟩, by decide, by decide, by decide⟩

/-! Non-vacuity -/

def exTerms : List Term := [⟨ascii "the", 7, 1⟩, ⟨ascii "a", 7, 0⟩, ⟨ascii "of", 9, 2⟩]

example : TermSet exTerms := by
  constructor
  · decide
  · intro t ht; simp [exTerms] at ht; rcases ht with rfl | rfl | rfl <;> (intro c hc; revert c; decide)

example : ∀ x ∈ exTerms, ∀ y ∈ exTerms, x.count - y.count < 2^31 := by decide
example : Sort.sort 3 wf_order_by_count exTerms =
    .ok [⟨ascii "of", 9, 2⟩, ⟨ascii "a", 7, 0⟩, ⟨ascii "the", 7, 1⟩] := by decide

def exConfs : List Conf := [⟨ascii "{a}-{b}", 2, 0⟩, ⟨ascii "{b}-{a}", 2, 1⟩]

example : (exConfs.map Conf.key).Nodup ∧ (∀ c ∈ exConfs, NulFree c.key) ∧
    ∀ x ∈ exConfs, ∀ y ∈ exConfs, x.errors - y.errors < 2^31 ∧ x.marked - y.marked < 2^31 := by
  refine ⟨by decide, ?_, by decide⟩
  intro t ht; simp [exConfs] at ht; rcases ht with rfl | rfl <;> (intro c hc; revert c; decide)

def exSeqs : List Sequence := [⟨ascii "ab", [97, 98], 4, 1⟩, ⟨ascii "ba", [98, 97], 4, 1⟩]

example : (exSeqs.map Sequence.value).Nodup ∧ (∀ c ∈ exSeqs, c.value.length = 2) ∧
    ∀ x ∈ exSeqs, ∀ y ∈ exSeqs, x.count - y.count < 2^31 ∧ x.suspect - y.suspect < 2^31 := by decide

end Ocr
