import Verif.Spec.Options
import Verif.Spec.Ngram
import Verif.Proof.Tally
import Verif.Props.Compare
import Verif.Props.Word

/-!
# C45: wordfreq
-/

namespace Ocr.Wordfreq
open Text Res

/-- The entry of a word. -/
def entry (words : List (List Nat)) (w : List Nat) : Term := ⟨w, words.count w, 0⟩

theorem add_spec {L : List (List Nat)} {t : List Term} (h : Store.Tallied entry id L t) (w : List Nat) :
    Store.Tallied entry id (L ++ [w]) (Wac.add_term t w 1 0) := by
  refine Store.tallied_add (keyOf := Term.key) (entry := entry) (name := id) L w _ _ ?_ ?_ ?_ ?_ h
  · intro d _ e; exact e
  · intro d _ hd
    unfold entry
    rw [List.count_append, List.count_singleton, if_neg (by simpa using fun e => hd e.symm)]; rfl
  · unfold entry
    simp
  · intro hn
    unfold entry
    rw [List.map_id] at hn
    have h0 : L.count w = 0 := List.count_eq_zero_of_not_mem hn
    simp [h0]

theorem addWords_spec : ∀ (ws : List (List Nat)) (L : List (List Nat)) (t : List Term), Store.Tallied entry id L t →
    ∃ t', addWords (ws.map some) t = .ok t' ∧ Store.Tallied entry id (L ++ ws) t' := by
  intro ws
  induction ws with
  | nil => intro L t h; exact ⟨t, rfl, by simpa using h⟩
  | cons w ws ih =>
    intro L t h
    obtain ⟨t', e, h'⟩ := ih _ _ (add_spec h w)
    exact ⟨t', e, by simpa using h'⟩

theorem process_spec {U : Unicode} {prop : Nat → Word.WB} {nfc : List Nat → Option (List Nat)} {junk : List Nat} {junk' : Nat}
    {opt : Textopt} {files : List (List Nat)} {texts : List (List Ch)} (ht : Texts U junk opt files texts) :
    ∀ (wss : List (List (List Nat))),
    List.Forall₂ (fun text ws => Word.find_words U prop nfc junk' text = .ok (ws.map some)) texts wss →
    ∀ (L : List (List Nat)) (t : List Term), Store.Tallied entry id L t →
    ∃ t', processFiles U prop nfc junk junk' opt files t = .ok t' ∧ Store.Tallied entry id (L ++ wss.flatten) t' := by
  induction ht with
  | nil =>
    intro wss h L t hT
    cases h
    exact ⟨t, rfl, by simpa using hT⟩
  | @cons opt opt' file text files texts hr _ ih =>
    intro wss h L t hT
    cases h with
    | @cons _ ws _ wss h1 h2 =>
      unfold processFiles
      rw [hr, bind_ok]
      simp only
      rw [h1, bind_ok]
      obtain ⟨t', e, h'⟩ := addWords_spec ws L t hT
      rw [e, bind_ok]
      obtain ⟨t'', e', h''⟩ := ih wss h2 _ _ h'
      exact ⟨t'', e', by simpa using h''⟩

theorem foldl_sum (l : List Int) : ∀ a, l.foldl (· + ·) a = a + l.sum := by
  induction l with
  | nil => simp
  | cons x l ih => intro a; rw [List.foldl_cons, ih]; simp; omega

/-- The rows of a table. -/
theorem rows_exist {words : List (List Nat)} {t : List Term} (h : Store.Tallied entry id words t) :
    ∃ rows : List (List Nat × Nat), t = rows.map (fun r => (⟨r.1, r.2, 0⟩ : Term)) ∧ Counted words rows ∧
      (rows.map Prod.snd).sum = words.length := by
  obtain ⟨ds, hnd, hmem, rfl⟩ := h
  rw [List.map_id] at hmem
  have hfst : (ds.map (fun d => (d, words.count d))).map Prod.fst = ds := by
    rw [List.map_map]; exact List.map_id'' (fun _ => rfl) _
  refine ⟨ds.map (fun d => (d, words.count d)), ?_, ⟨by rw [hfst]; exact hnd, ?_, ?_⟩, ?_⟩
  · rw [List.map_map]; rfl
  · intro w; rw [hfst, hmem]
  · intro r hr
    obtain ⟨d, hd, rfl⟩ := List.mem_map.1 hr
    rfl
  · have := Store.sum_counts (id : List Nat → List Nat) (fun _ => true) words ds hnd (fun w hw => (hmem w).2 hw)
    simp only [Bool.and_true, List.countP_true] at this
    rw [← this, List.map_map]
    congr 1
    apply List.map_congr_left
    intro d _
    simp only [Function.comp, List.count]
    apply List.countP_congr
    intro x _
    simp

theorem write_eq (rows : List (List Nat × Nat)) (n : Nat) (h : (rows.map Prod.snd).sum = n) :
    write_array (rows.map (fun r => (⟨r.1, r.2, 0⟩ : Term))) = listing rows n := by
  unfold write_array listing
  rw [foldl_sum, List.map_map, List.flatMap_map, ← h, Store.cast_sum, List.map_map, Int.zero_add]
  simp only [List.append_assoc]
  refine congrArg _ (congr (congrArg _ ?_) rfl)
  refine congrArg (fun f => rows.flatMap f) ?_
  funext r
  unfold writeTerm
  simp only [List.append_assoc]
  rfl

/-- C45.  If the files can be read and their words normalized, the report consists of two listings with one row for each
distinct word and the number of its occurrences in all files; the total is the number of words, which is the sum of the rows.
The first listing is in increasing bytewise order of the words, the second in decreasing order of the counts, words with the
same count in increasing order. -/
theorem c45_report (U : Unicode) (prop : Nat → Word.WB) (nfc : List Nat → Option (List Nat)) (junk : List Nat) (junk' : Nat)
    (files : List (List Nat)) (hne : files ≠ []) (texts : List (List Ch)) (ht : Texts U junk (Spec.pageText true) files texts)
    (wss : List (List (List Nat)))
    (hw : List.Forall₂ (fun text ws => Word.find_words U prop nfc junk' text = .ok (ws.map some)) texts wss)
    (hnul : ∀ w ∈ wss.flatten, NulFree w) (hc : wss.flatten.length < 2^31) :
    ∃ rows1 rows2, wordfreqMain U prop nfc junk junk' files =
        .ok (listing rows1 wss.flatten.length ++ ascii "\n\n" ++ listing rows2 wss.flatten.length) ∧
      Counted wss.flatten rows1 ∧ (rows1.map Prod.snd).sum = wss.flatten.length ∧ rows1.Pairwise (fun x y => x.1 < y.1) ∧
      Counted wss.flatten rows2 ∧ (rows2.map Prod.snd).sum = wss.flatten.length ∧
      rows2.Pairwise (fun x y => y.2 < x.2 ∨ (x.2 = y.2 ∧ x.1 < y.1)) := by
  obtain ⟨t, e, hT⟩ := process_spec (prop := prop) (nfc := nfc) (junk' := junk') (opt := textopt) ht wss hw [] [] (Store.tallied_nil _ _)
  rw [List.nil_append] at hT
  obtain ⟨words, hwe⟩ : ∃ words, wss.flatten = words := ⟨_, rfl⟩
  rw [hwe] at hT hnul hc ⊢
  unfold wordfreqMain
  rw [if_neg (by intro h; exact hne (List.length_eq_zero_iff.1 h)), e, bind_ok]
  have ha : Store.Tallied entry id words (Store.in_array Term.key t) := Store.tallied_perm hT (Store.in_array_perm _ _)
  have hset : ∀ a, Store.Tallied entry id words a → TermSet a ∧ ∀ x ∈ a, 0 ≤ x.count ∧ x.count < 2^31 := by
    rintro a ⟨ds, hnd, hmem, rfl⟩
    rw [List.map_id] at hmem
    refine ⟨⟨?_, ?_⟩, ?_⟩
    · rw [List.map_map, List.map_id'' (f := Term.key ∘ entry words) (fun _ => rfl)]; exact hnd
    · intro t ht
      obtain ⟨d, hd, rfl⟩ := List.mem_map.1 ht
      exact hnul d ((hmem d).1 hd)
    · intro t ht
      obtain ⟨d, hd, rfl⟩ := List.mem_map.1 ht
      have : words.count d ≤ words.length := List.count_le_length
      simp only [entry]
      omega
  obtain ⟨s1, q1, _, p1, o1⟩ := c04_terms_by_key _ _ (List.Perm.refl _) (hset _ ha).1 _ (Nat.le_refl _)
  have h1 := Store.tallied_perm ha p1
  obtain ⟨s2, q2, _, p2, o2⟩ := c04_terms_by_count _ _ (List.Perm.refl _) (hset _ h1).1 (by
    intro x hx y hy
    have a1 := (hset _ h1).2 x hx
    have a2 := (hset _ h1).2 y hy
    omega) _ (Nat.le_refl _)
  have h2 := Store.tallied_perm h1 p2
  obtain ⟨r1, e1, c1, t1⟩ := rows_exist h1
  obtain ⟨r2, e2, c2, t2⟩ := rows_exist h2
  refine ⟨r1, r2, ?_, c1, t1, ?_, c2, t2, ?_⟩
  · unfold write_report
    simp only
    rw [q1, bind_ok, q2, bind_ok, e1, e2, write_eq r1 _ t1, write_eq r2 _ t2]; rfl
  · rw [e1, List.pairwise_map] at o1
    exact o1
  · rw [e2, List.pairwise_map] at o2
    refine o2.imp ?_
    intro x y h
    simp only at h
    rcases h with h | ⟨h, h'⟩
    · exact .inl (by omega)
    · exact .inr ⟨by omega, h'⟩

/-- C45 (uniqueness).  The description determines the rows and their order. -/
theorem c45_unique (words : List (List Nat)) (r s : List (List Nat × Nat)) (hr : Counted words r) (hs : Counted words s) :
    (r.Pairwise (fun x y => x.1 < y.1) → s.Pairwise (fun x y => x.1 < y.1) → r = s) ∧
    (r.Pairwise (fun x y => y.2 < x.2 ∨ (x.2 = y.2 ∧ x.1 < y.1)) →
      s.Pairwise (fun x y => y.2 < x.2 ∨ (x.2 = y.2 ∧ x.1 < y.1)) → r = s) := by
  have hmem : ∀ {r s : List (List Nat × Nat)}, Counted words r → Counted words s → ∀ x ∈ r, x ∈ s := by
    intro r s hr hs x hx
    have := (hs.occur x.1).2 ((hr.occur x.1).1 (List.mem_map.2 ⟨x, hx, rfl⟩))
    obtain ⟨y, hy, e⟩ := List.mem_map.1 this
    have h1 := hr.count x hx
    have h2 := hs.count y hy
    rw [e] at h2
    have : x = y := Prod.ext e.symm (h1.trans h2.symm)
    rw [this]; exact hy
  have hp : r.Perm s := (List.perm_ext_iff_of_nodup (List.Nodup.of_map _ hr.distinct) (List.Nodup.of_map _ hs.distinct)).2
    (fun x => ⟨hmem hr hs x, hmem hs hr x⟩)
  constructor
  · intro h1 h2
    refine hp.eq_of_pairwise ?_ h1 h2
    intro a b _ _ hab hba
    exact absurd (List.lt_trans hab hba) (List.lt_irrefl _)
  · intro h1 h2
    refine hp.eq_of_pairwise ?_ h1 h2
    intro a b _ _ hab hba
    rcases hab with hab | ⟨e, hab⟩ <;> rcases hba with hba | ⟨f, hba⟩ <;> first
      | omega
      | exact absurd (List.lt_trans hab hba) (List.lt_irrefl _)

/-! Non-vacuity -/

def sampleFiles : List (List Nat) := [ascii "b a b", ascii "c"]
def sampleTexts : List (List Ch) := [[98, 32, 97, 32, 98].map (fun v => ⟨false, v⟩), [⟨false, 99⟩]]
def sampleWords : List (List (List Nat)) := [["b", "a", "b"].map ascii, ["c"].map ascii]

example : Texts sampleUnicode [0, 0, 0, 0, 0] textopt sampleFiles sampleTexts :=
  .cons (opt' := textopt) (by decide +kernel) (.cons (opt' := textopt) (by decide +kernel) .nil)
example : List.Forall₂ (fun text ws => Word.find_words sampleUnicode Word.wbProp some 0 text = .ok (ws.map some))
    sampleTexts sampleWords := .cons (by decide +kernel) (.cons (by decide +kernel) .nil)
example : ∀ w ∈ sampleWords.flatten, NulFree w := by simp only [NulFree]; decide
example : wordfreqMain sampleUnicode Word.wbProp some [0, 0, 0, 0, 0] 0 [ascii "b a b", ascii "c"] = .ok (ascii (
    "   Count\n       1   a\n       2   b\n       1   c\n       4   Total\n\n\n" ++
    "   Count\n       2   b\n       1   a\n       1   c\n       4   Total\n")) := by decide +kernel

end Ocr.Wordfreq
