import Verif.Proof.SortCost
import Verif.Props.Wordfreq
import Verif.Props.Ngram

/-!
# C90: the work done by sort.c
-/

namespace Ocr.Sort
open Text Res

variable {α : Type}

/-- C90 (any array and any comparison routine, even an inconsistent one).  sort() of `n` elements gives the result of `sort`, calls the
comparison routine at most `n (n - 1) / 2` times, and at least `n - 1` times; there are at most `n - 1` activations of quicksort at the same time. -/
theorem c90_sort (cmp : α → α → Int) (a : List α) (fuel : Nat) (hf : a.length ≤ fuel) :
    ∃ b c d, sortW fuel cmp a = .ok (b, c, d) ∧ sort fuel cmp a = .ok b ∧ 2 * c ≤ a.length * (a.length - 1) ∧ a.length - 1 ≤ c ∧
      d ≤ a.length - 1 := by
  unfold sort sortW
  split
  · refine ⟨a, 0, 0, rfl, rfl, by simp, by omega, by simp⟩
  · rename_i h
    obtain ⟨s, e, _⟩ := quicksort_spec cmp fuel a (by rintro rfl; simp at h) hf [] []
    simp only [List.nil_append, List.append_nil, List.length_nil, Nat.zero_add] at e
    obtain ⟨c, d, e'⟩ := quicksortW_ok _ _ _ _ _ e
    have := quicksortW_bound (by omega) e'
    rw [Nat.sub_zero, show a.length - 1 + 1 = a.length by omega] at this
    exact ⟨s, c, d, e', e, this.1, this.2.2, this.2.1⟩

/-- C90 (worst case).  Both bounds are reached by an array that is already in (strictly) increasing order. -/
theorem c90_sorted (cmp : α → α → Int) (a : List α) (ha : a.Pairwise (fun x y => cmp x y < 0)) (fuel : Nat) (hf : a.length ≤ fuel) :
    ∃ c, sortW fuel cmp a = .ok (a, c, a.length - 1) ∧ 2 * c = a.length * (a.length - 1) := by
  unfold sortW
  split
  · rename_i h
    refine ⟨0, ?_, ?_⟩
    · rw [show a.length - 1 = 0 by omega]
    · rw [show a.length - 1 = 0 by omega]; simp
  · rename_i h
    obtain ⟨c, e, hc⟩ := quicksortW_sorted (fl := fuel) (l := 0) (r := a.length - 1) ha (by omega) (by omega) (by omega)
    rw [Nat.sub_zero, show a.length - 1 + 1 = a.length by omega] at hc
    exact ⟨c, e, hc⟩

/-- C90 (equal elements).  If no two elements differ for the comparison routine, `n log₂ n` comparisons and a recursion of depth `log₂ n` are
enough. -/
theorem c90_equal (cmp : α → α → Int) (a : List α) (ha : ∀ x ∈ a, ∀ y ∈ a, cmp x y = 0) (fuel : Nat) (hf : a.length ≤ fuel) :
    ∃ b c d, sortW fuel cmp a = .ok (b, c, d) ∧ c ≤ a.length * Nat.log 2 a.length ∧ d ≤ Nat.log 2 a.length := by
  unfold sortW
  split
  · exact ⟨a, 0, 0, rfl, by simp, by simp⟩
  · rename_i h
    obtain ⟨b, c, d, e, _, _, h1, h2⟩ := quicksortW_equal fuel a 0 (a.length - 1) ha (by omega) (by omega) (by omega)
    rw [Nat.sub_zero, show a.length - 1 + 1 = a.length by omega] at h1 h2
    exact ⟨b, c, d, e, h1, h2⟩

/-! ## The second sort of wordfreq and ngram -/

/-- Sorting by `f`, then by `g`, if the result of the first is already in the order of `g`. -/
theorem twice (f g : α → α → Int) (a s : List α) (hs : sort a.length f a = .ok s) (hp : s.Perm a) (hg : s.Pairwise (fun x y => g x y < 0)) :
    ∃ c1 d1 c2, sortW a.length f a = .ok (s, c1, d1) ∧ sortW s.length g s = .ok (s, c2, a.length - 1) ∧
      2 * c1 ≤ a.length * (a.length - 1) ∧ 2 * c2 = a.length * (a.length - 1) := by
  obtain ⟨b, c1, d1, e1, e2, h1, _⟩ := c90_sort f a a.length (Nat.le_refl _)
  rw [hs] at e2
  cases e2
  obtain ⟨c2, e3, h2⟩ := c90_sorted g s hg s.length (Nat.le_refl _)
  rw [hp.length_eq] at h2 e3
  exact ⟨c1, d1, c2, e1, by rw [hp.length_eq]; exact e3, h1, h2⟩

theorem term_lt {x y : Term} (hx : NulFree x.key) (hy : NulFree y.key) (h : x.key < y.key) : compare_term x y < 0 := by
  unfold compare_term
  rw [ustrcmp_eq _ _ hx hy]
  rcases lexCmp_cases x.key y.key with ⟨_, e⟩ | ⟨h1, _⟩ | ⟨_, e⟩
  · rw [e] at h; exact absurd h (List.lt_irrefl _)
  · omega
  · exact absurd h (List.lt_asymm e)

/-- C90 (wordfreq).  The array is sorted by key and then, already sorted, by count.  If all `n` words of the files are different, the second
sort calls its comparison routine exactly `n (n - 1) / 2` times, and the recursion has depth `n - 1`. -/
theorem c90_wordfreq (U : Unicode) (prop : Nat → Word.WB) (nfc : List Nat → Option (List Nat)) (junk : List Nat) (junk' : Nat)
    (files : List (List Nat)) (texts : List (List Ch)) (ht : Texts U junk (Spec.pageText true) files texts)
    (wss : List (List (List Nat)))
    (hw : List.Forall₂ (fun text ws => Word.find_words U prop nfc junk' text = .ok (ws.map some)) texts wss)
    (hnul : ∀ w ∈ wss.flatten, NulFree w) (hd : wss.flatten.Nodup) :
    ∃ t w1 w2, Wordfreq.processFiles U prop nfc junk junk' Wordfreq.textopt files [] = .ok t ∧
      Wordfreq.reportWork t = .ok (w1, w2) ∧ 2 * w2.1 = wss.flatten.length * (wss.flatten.length - 1) ∧ w2.2 = wss.flatten.length - 1 := by
  obtain ⟨t, e, hT⟩ := Wordfreq.process_spec (prop := prop) (nfc := nfc) (junk' := junk') (opt := Wordfreq.textopt) ht wss hw [] []
    (Store.tallied_nil _ _)
  rw [List.nil_append] at hT
  obtain ⟨words, hwe⟩ : ∃ words, wss.flatten = words := ⟨_, rfl⟩
  rw [hwe] at hT hnul hd ⊢
  obtain ⟨ds, hnd, hmem, ha⟩ := Store.tallied_perm hT (Store.in_array_perm Term.key t)
  rw [List.map_id] at hmem
  have hlen : ds.length = words.length := ((List.perm_ext_iff_of_nodup hnd hd).2 hmem).length_eq
  have hset : TermSet (Store.in_array Term.key t) := by
    rw [ha]
    refine ⟨?_, ?_⟩
    · rw [List.map_map, List.map_id'' (f := Term.key ∘ Wordfreq.entry words) (fun _ => rfl)]; exact hnd
    · intro t ht
      obtain ⟨d, hd, rfl⟩ := List.mem_map.1 ht
      exact hnul d ((hmem d).1 hd)
  have hone : ∀ x ∈ Store.in_array Term.key t, x.count = 1 := by
    intro x hx
    rw [ha] at hx
    obtain ⟨d, hd', rfl⟩ := List.mem_map.1 hx
    simp only [Wordfreq.entry]
    rw [List.count_eq_one_of_mem hd ((hmem d).1 hd')]
    rfl
  obtain ⟨s, q, _, p, o⟩ := c04_terms_by_key _ _ (List.Perm.refl _) hset _ (Nat.le_refl _)
  obtain ⟨c1, d1, c2, e1, e2, _, h2⟩ := twice compare_term wf_order_by_count _ s q p (by
    refine o.imp_of_mem ?_
    intro x y hx hy h
    have hx := p.mem_iff.1 hx
    have hy := p.mem_iff.1 hy
    unfold wf_order_by_count
    rw [if_neg (by rw [hone x hx, hone y hy]; simp)]
    exact term_lt (hset.2 x hx) (hset.2 y hy) h)
  have hl : (Store.in_array Term.key t).length = words.length := by rw [ha, List.length_map, hlen]
  rw [hl] at h2
  refine ⟨t, (c1, d1), (c2, words.length - 1), e, ?_, h2, rfl⟩
  simp only [Wordfreq.reportWork]
  rw [e1, bind_ok]
  simp only
  rw [e2, bind_ok, hl]
  rfl

/-- C90 (ngram).  The same if all entries have the same figures. -/
theorem c90_ngram (n : Nat) (t : Ngram.Seqtable) (hk : (t.entries.map Sequence.value).Nodup) (hn : ∀ c ∈ t.entries, c.value.length = n)
    (hsame : ∀ x ∈ t.entries, ∀ y ∈ t.entries, x.count = y.count ∧ x.suspect = y.suspect) :
    ∃ w1 w2, Ngram.reportWork t = .ok (w1, w2) ∧ 2 * w2.1 = t.entries.length * (t.entries.length - 1) ∧ w2.2 = t.entries.length - 1 := by
  have hp := Store.in_array_perm Sequence.key t.entries
  have hn' : ∀ c ∈ Store.in_array Sequence.key t.entries, c.value.length = n := fun c hc => hn c (hp.mem_iff.1 hc)
  obtain ⟨s, q, _, p, o⟩ := c04_ngrams_by_value n _ _ (List.Perm.refl _) ((hp.map _).nodup_iff.2 hk) hn' _ (Nat.le_refl _)
  obtain ⟨c1, d1, c2, e1, e2, _, h2⟩ := twice ng_order_by_value ng_order_by_count _ s q p (by
    refine o.imp_of_mem ?_
    intro x y hx hy h
    have hx' := hp.mem_iff.1 (p.mem_iff.1 hx)
    have hy' := hp.mem_iff.1 (p.mem_iff.1 hy)
    unfold ng_order_by_count
    rw [if_neg (by rw [(hsame x hx' y hy').1]; simp), if_neg (by rw [(hsame x hx' y hy').2]; simp)]
    unfold ng_order_by_value
    rw [compareValues_eq (by rw [hn x hx', hn y hy'])]
    rcases lexCmp_cases x.value y.value with ⟨_, e⟩ | ⟨h1, _⟩ | ⟨_, e⟩
    · rw [e] at h; exact absurd h (List.lt_irrefl _)
    · omega
    · exact absurd h (List.lt_asymm e))
  rw [hp.length_eq] at h2
  refine ⟨(c1, d1), (c2, t.entries.length - 1), ?_, h2, rfl⟩
  simp only [Ngram.reportWork]
  rw [e1, bind_ok]
  simp only
  rw [e2, bind_ok, hp.length_eq]
  rfl

/-! ## Non-vacuity -/

/-- 5 elements: 6 comparisons in this order, 10 if they are sorted, either way. -/
example : sortW 5 (fun x y : Int => x - y) [3, 1, 2, 5, 4] = .ok ([1, 2, 3, 4, 5], 6, 2) ∧
    sortW 5 (fun x y : Int => x - y) [1, 2, 3, 4, 5] = .ok ([1, 2, 3, 4, 5], 10, 4) ∧
    sortW 5 (fun x y : Int => x - y) [5, 4, 3, 2, 1] = .ok ([1, 2, 3, 4, 5], 10, 4) ∧
    sortW 7 (fun x y : Int => x - y) [1, 1, 1, 1, 1, 1, 1] = .ok ([1, 1, 1, 1, 1, 1, 1], 10, 2) := by decide +kernel

example : ∃ c, sortW 5 (fun x y : Int => x - y) [1, 2, 3, 4, 5] = .ok ([1, 2, 3, 4, 5], c, 4) ∧ 2 * c = 5 * 4 :=
  c90_sorted _ [1, 2, 3, 4, 5] (by decide) 5 (by decide)

example : ∃ b c d, sortW 4 (fun x y : Int × Int => x.1 - y.1) [(1, 1), (1, 2), (1, 3), (1, 4)] = .ok (b, c, d) ∧ c ≤ 4 * Nat.log 2 4 ∧
    d ≤ Nat.log 2 4 := c90_equal _ [(1, 1), (1, 2), (1, 3), (1, 4)] (by decide) 4 (by decide)

/-- Four words with the same count: 6 comparisons and 3 activations in the second sort; not so if the counts differ.  (The hash values of
these words are in order, so that the first sort is given a sorted array, too.) -/
example : Wordfreq.reportWork [⟨ascii "c", 1, 0⟩, ⟨ascii "a", 1, 0⟩, ⟨ascii "d", 1, 0⟩, ⟨ascii "b", 1, 0⟩] = .ok ((6, 3), (6, 3)) ∧
    Wordfreq.reportWork [⟨ascii "c", 2, 0⟩, ⟨ascii "a", 1, 0⟩, ⟨ascii "d", 1, 0⟩, ⟨ascii "b", 3, 0⟩] = .ok ((6, 3), (4, 2)) := by
  decide +kernel

example : ∃ t w1 w2, Wordfreq.processFiles sampleUnicode Word.wbProp some [0, 0, 0, 0, 0] 0 Wordfreq.textopt [ascii "b a", ascii "c"] [] = .ok t ∧
    Wordfreq.reportWork t = .ok (w1, w2) ∧ 2 * w2.1 = 3 * 2 ∧ w2.2 = 2 :=
  c90_wordfreq sampleUnicode Word.wbProp some [0, 0, 0, 0, 0] 0 [ascii "b a", ascii "c"]
    [[98, 32, 97].map (fun v => ⟨false, v⟩), [⟨false, 99⟩]]
    (.cons (opt' := Wordfreq.textopt) (by decide +kernel) (.cons (opt' := Wordfreq.textopt) (by decide +kernel) .nil))
    [["b", "a"].map ascii, ["c"].map ascii] (.cons (by decide +kernel) (.cons (by decide +kernel) .nil))
    (by simp only [NulFree]; decide) (by decide)

example : ∃ w1 w2, Ngram.reportWork ⟨[⟨ascii "c", [99], 1, 0⟩, ⟨ascii "a", [97], 1, 0⟩, ⟨ascii "b", [98], 1, 0⟩], 3, 0⟩ = .ok (w1, w2) ∧
    2 * w2.1 = 3 * 2 ∧ w2.2 = 2 := c90_ngram 1 _ (by decide) (by decide) (by decide)

end Ocr.Sort
