import Verif.Props.Across

/-!
# C104: texts read backwards, reordered, or with other words
-/

namespace Ocr.Across
open Text Res Spec Prog AnyText Ending

variable {U : Unicode} {junk : List Nat} {fs : Fs}

theorem edits_snoc_keep {a b : List Nat} {n c : Nat} (hc : c ≠ 126) (h : Edits a b n) : Edits (a ++ [c]) (b ++ [c]) n := by
  induction h with
  | nil => exact .keep c hc .nil
  | keep d hd _ ih => exact .keep d hd ih
  | subst x y _ ih => exact .subst x y ih
  | del x _ ih => exact .del x ih
  | ins y _ ih => exact .ins y ih

theorem edits_snoc_subst {a b : List Nat} {n : Nat} (c d : Nat) (h : Edits a b n) : Edits (a ++ [c]) (b ++ [d]) (n + 1) := by
  induction h with
  | nil => exact .subst c d .nil
  | keep d hd _ ih => exact .keep d hd ih
  | subst x y _ ih => exact .subst x y ih
  | del x _ ih => exact .del x ih
  | ins y _ ih => exact .ins y ih

theorem edits_snoc_del {a b : List Nat} {n : Nat} (c : Nat) (h : Edits a b n) : Edits (a ++ [c]) b (n + 1) := by
  induction h with
  | nil => exact .del c .nil
  | keep d hd _ ih => exact .keep d hd ih
  | subst x y _ ih => exact .subst x y ih
  | del x _ ih => exact .del x ih
  | ins y _ ih => exact .ins y ih

theorem edits_reverse {a b : List Nat} {n : Nat} (h : Edits a b n) : Edits a.reverse b.reverse n := by
  induction h with
  | nil => exact .nil
  | keep c hc _ ih => rw [List.reverse_cons, List.reverse_cons]; exact edits_snoc_keep hc ih
  | subst x y _ ih => rw [List.reverse_cons, List.reverse_cons]; exact edits_snoc_subst x y ih
  | del x _ ih => rw [List.reverse_cons]; exact edits_snoc_del x ih
  | ins y _ ih => rw [List.reverse_cons]; exact edits_symm (edits_snoc_del y (edits_symm ih))

theorem distance_reverse {a b : List Nat} {d : Nat} (h : IsEditDistance a b d) : IsEditDistance a.reverse b.reverse d :=
  ⟨edits_reverse h.1, fun n e => h.2 n (by simpa using edits_reverse e)⟩

/-- C104 (accuracy backwards).  If both texts are written backwards, accuracy reports the same number of errors. -/
theorem c104_accuracy (F : UnicodeFacts U) (pct : Int → Int → List Nat) (hp : Acc.PctFormat pct) (hj : Bytes junk)
    (hfs : ∀ name file, fs name = some file → Bytes file) (f g f' g' : List Nat) (t u t' u' : List Ch) (hf : TextFile U fs f t)
    (hg : TextFile U fs g u) (hf' : TextFile U fs f' t') (hg' : TextFile U fs g' u')
    (ht : t'.map Ch.value = (t.map Ch.value).reverse) (hu : u'.map Ch.value = (u.map Ch.value).reverse) :
    ∃ e, Accuracy U pct junk fs f g t.length e ∧ Accuracy U pct junk fs f' g' t.length e := by
  obtain ⟨d, h1, h2⟩ := accuracy_run F pct hp hj hfs hf hg
  obtain ⟨d', h1', h2'⟩ := accuracy_run F pct hp hj hfs hf' hg'
  rw [ht, hu] at h2'
  have := edit_distance_unique (distance_reverse h2) h2'
  subst this
  have hl : t'.length = t.length := by simpa using congrArg List.length ht
  exact ⟨d, h1, hl ▸ h1'⟩

/-- C104 (wordacc backwards).  If the words of both texts come in the opposite order, wordacc reports the same numbers. -/
theorem c104_wordacc (L : Lower U) (prop : Nat → Word.WB) (nfc : List Nat → Option (List Nat)) (pct : Int → Int → List Nat)
    (hp : Acc.PctFormat pct) (hj : Bytes junk) (junk' : Nat) (hfs : ∀ name file, fs name = some file → Bytes file) (f g f' g' : List Nat)
    (u v : List (List Nat)) (hf : WordFile U prop nfc fs f u) (hg : WordFile U prop nfc fs g v)
    (hf' : WordFile U prop nfc fs f' u.reverse) (hg' : WordFile U prop nfc fs g' v.reverse) :
    ∃ m, Wordacc U prop nfc pct junk junk' fs f g u.length m ∧ Wordacc U prop nfc pct junk junk' fs f' g' u.length m := by
  obtain ⟨c, h1, h2⟩ := words_run L prop nfc pct hp hj junk' hfs hf hg
  obtain ⟨c', h1', h2'⟩ := words_run L prop nfc pct hp hj junk' hfs hf' hg'
  have k1 := h1.max c'.reverse (by simpa using h1'.left.reverse) (by simpa using h1'.right.reverse)
  have k2 := h1'.max c.reverse h1.left.reverse h1.right.reverse
  rw [List.length_reverse] at k1 k2 h2'
  rw [show c'.length = c.length by omega] at h2'
  exact ⟨_, h2, h2'⟩

/-- C104 (wordacc with other words).  If the words of both texts are replaced, different ones by different ones, wordacc reports the same
numbers. -/
theorem c104_words (L : Lower U) (prop : Nat → Word.WB) (nfc : List Nat → Option (List Nat)) (pct : Int → Int → List Nat)
    (hp : Acc.PctFormat pct) (hj : Bytes junk) (junk' : Nat) (hfs : ∀ name file, fs name = some file → Bytes file) (f g f' g' : List Nat)
    (u v : List (List Nat)) (r : List Nat → List Nat) (hr : ∀ x ∈ u, ∀ y ∈ v, r x = r y → x = y)
    (hf : WordFile U prop nfc fs f u) (hg : WordFile U prop nfc fs g v)
    (hf' : WordFile U prop nfc fs f' (u.map r)) (hg' : WordFile U prop nfc fs g' (v.map r)) :
    ∃ m, Wordacc U prop nfc pct junk junk' fs f g u.length m ∧ Wordacc U prop nfc pct junk junk' fs f' g' u.length m := by
  obtain ⟨c, h1, h2⟩ := words_run L prop nfc pct hp hj junk' hfs hf hg
  obtain ⟨c', h1', h2'⟩ := words_run L prop nfc pct hp hj junk' hfs hf' hg'
  have k2 := h1'.max (c.map r) (h1.left.map r) (h1.right.map r)
  obtain ⟨a, ha, ea⟩ := List.sublist_map_iff.1 h1'.left
  obtain ⟨b, hb, eb⟩ := List.sublist_map_iff.1 h1'.right
  have same : a = b := by
    have e : a.map r = b.map r := ea.symm.trans eb
    have hl : a.length = b.length := by simpa using congrArg List.length e
    refine List.ext_getElem hl (fun i i1 i2 => hr _ (ha.subset (List.getElem_mem i1)) _ (hb.subset (List.getElem_mem i2)) ?_)
    have := congrArg (fun l => l[i]?) e
    simpa [i1, i2] using this
  have k1 := h1.max a ha (same ▸ hb)
  rw [List.length_map] at k2 h2'
  rw [ea, List.length_map] at k2 h2'
  rw [show a.length = c.length by omega] at h2'
  exact ⟨_, h2, h2'⟩

/-- C104 (editop).  The numbers of insertions and deletions that editop reports do not depend on the order of the characters in either
text. -/
theorem c104_editop (hj : Bytes junk) (hfs : ∀ name file, fs name = some file → Bytes file) (f g f' g' : List Nat) (t u t' u' : List Ch)
    (hf : TextFile U fs f t) (hg : TextFile U fs g u) (hf' : TextFile U fs f' t') (hg' : TextFile U fs g' u')
    (ht : (t'.map Ch.value).Perm (t.map Ch.value)) (hu : (u'.map Ch.value).Perm (u.map Ch.value)) :
    ∃ i d, Editop U junk fs f g i d ∧ Editop U junk fs f' g' i d := by
  have h1 := editop_run hj hfs hf hg
  have h2 := editop_run hj hfs hf' hg'
  rw [(ht.diff hu).length_eq, (hu.diff ht).length_eq] at h2
  exact ⟨_, _, h1, h2⟩

/-! ## Non-vacuity -/

def sheets : Fs := fun name =>
  [(ascii "a", ascii "The cat"), (ascii "b", ascii "The hat"), (ascii "c", ascii "tac ehT"), (ascii "d", ascii "tah ^ehT"),
    (ascii "e", ascii "cat the"), (ascii "f", ascii "Hat the"), (ascii "g", ascii "A dog"), (ascii "h", ascii "a ^pig")].lookup name

theorem sheets_bytes : ∀ name file, sheets name = some file → Bytes file := by
  intro name file h
  have : ∀ l : List (List Nat × List Nat), l.all (fun p => p.2.all (fun b => decide (b < 256))) = true → l.lookup name = some file → Bytes file := by
    intro l
    induction l with
    | nil => intro _ h; simp at h
    | cons p l ih =>
      intro hl h
      simp only [List.all_cons, Bool.and_eq_true] at hl
      rw [List.lookup_cons] at h
      split at h
      · cases h; exact bytes_ascii hl.1
      · exact ih hl.2 h
  exact this _ (by decide +kernel) h

theorem sheet {s : String} {file : List Nat} {t : List Ch} (hn : (0 ∉ ascii s ∧ 45 ∉ ascii s)) (e : sheets (ascii s) = some file)
    (hh : ¬ file.take 45 = TITLE.take 45) (hb : file.all (fun b => decide (b < 256)) = true)
    (h : read_text sampleUnicode [] [] file { pageText false with found_header := false } = .ok (t, pageText false))
    (hc : ∀ c ∈ t, c.value ≠ REJECT_CHARACTER ∧ c.value ≠ 0x10FFFF) (hl : t.length < 5 * 10^7) : TextFile sampleUnicode sheets (ascii s) t :=
  ⟨a_name s hn, ⟨file, e, hh, text_of hb _ h⟩, hc, hl⟩

theorem sheet_a : TextFile sampleUnicode sheets (ascii "a") (plain "The cat") := sheet (file := ascii "The cat") (by decide +kernel) (by decide +kernel)
  (by decide +kernel) (by decide +kernel) (by decide +kernel) (by decide +kernel) (by decide +kernel)
theorem sheet_b : TextFile sampleUnicode sheets (ascii "b") (plain "The hat") := sheet (file := ascii "The hat") (by decide +kernel) (by decide +kernel)
  (by decide +kernel) (by decide +kernel) (by decide +kernel) (by decide +kernel) (by decide +kernel)
theorem sheet_c : TextFile sampleUnicode sheets (ascii "c") (plain "tac ehT") := sheet (file := ascii "tac ehT") (by decide +kernel) (by decide +kernel)
  (by decide +kernel) (by decide +kernel) (by decide +kernel) (by decide +kernel) (by decide +kernel)
theorem sheet_d : TextFile sampleUnicode sheets (ascii "d") (plain "tah " ++ ⟨true, 101⟩ :: plain "hT") := sheet (file := ascii "tah ^ehT") (by decide +kernel)
  (by decide +kernel) (by decide +kernel) (by decide +kernel) (by decide +kernel) (by decide +kernel) (by decide +kernel)

theorem word_sheet {s : String} {file : List Nat} {u : List (List Nat)} (hn : (0 ∉ ascii s ∧ 45 ∉ ascii s)) (e : sheets (ascii s) = some file)
    (hh : ¬ file.take 45 = TITLE.take 45) (hr : ReadsWords sampleUnicode Word.wbProp noB file u)
    (hw : ∀ w ∈ u, 1 ≤ w.length ∧ w.length ≤ 50 ∧ 10 ∉ w ∧ 0 ∉ w) (hl : u.length ≤ 65535) :
    WordFile sampleUnicode Word.wbProp noB sheets (ascii s) u :=
  ⟨a_name s hn, ⟨file, e, hh, hr⟩, hw, hl⟩

theorem words_sa : WordFile sampleUnicode Word.wbProp noB sheets (ascii "a") [ascii "the", ascii "cat"] :=
  word_sheet (file := ascii "The cat") (by decide +kernel) (by decide +kernel) (by decide +kernel)
    ⟨plain "the cat", text_of (by decide +kernel) (pageText true) (by decide +kernel), strings_of (by decide +kernel) (by decide +kernel)⟩
    (by decide +kernel) (by decide +kernel)
theorem words_sb : WordFile sampleUnicode Word.wbProp noB sheets (ascii "b") [ascii "the", ascii "hat"] :=
  word_sheet (file := ascii "The hat") (by decide +kernel) (by decide +kernel) (by decide +kernel)
    ⟨plain "the hat", text_of (by decide +kernel) (pageText true) (by decide +kernel), strings_of (by decide +kernel) (by decide +kernel)⟩
    (by decide +kernel) (by decide +kernel)
theorem words_se : WordFile sampleUnicode Word.wbProp noB sheets (ascii "e") [ascii "cat", ascii "the"] :=
  word_sheet (file := ascii "cat the") (by decide +kernel) (by decide +kernel) (by decide +kernel)
    ⟨plain "cat the", text_of (by decide +kernel) (pageText true) (by decide +kernel), strings_of (by decide +kernel) (by decide +kernel)⟩
    (by decide +kernel) (by decide +kernel)
theorem words_sf : WordFile sampleUnicode Word.wbProp noB sheets (ascii "f") [ascii "hat", ascii "the"] :=
  word_sheet (file := ascii "Hat the") (by decide +kernel) (by decide +kernel) (by decide +kernel)
    ⟨plain "hat the", text_of (by decide +kernel) (pageText true) (by decide +kernel), strings_of (by decide +kernel) (by decide +kernel)⟩
    (by decide +kernel) (by decide +kernel)
theorem words_sg : WordFile sampleUnicode Word.wbProp noB sheets (ascii "g") [ascii "a", ascii "dog"] :=
  word_sheet (file := ascii "A dog") (by decide +kernel) (by decide +kernel) (by decide +kernel)
    ⟨plain "a dog", text_of (by decide +kernel) (pageText true) (by decide +kernel), strings_of (by decide +kernel) (by decide +kernel)⟩
    (by decide +kernel) (by decide +kernel)
theorem words_sh : WordFile sampleUnicode Word.wbProp noB sheets (ascii "h") [ascii "a", ascii "pig"] :=
  word_sheet (file := ascii "a ^pig") (by decide +kernel) (by decide +kernel) (by decide +kernel)
    ⟨plain "a " ++ ⟨true, 112⟩ :: plain "ig", text_of (by decide +kernel) (pageText true) (by decide +kernel), strings_of (by decide +kernel) (by decide +kernel)⟩
    (by decide +kernel) (by decide +kernel)

example : ∃ e, Accuracy sampleUnicode Acc.samplePct [] sheets (ascii "a") (ascii "b") 7 e ∧
    Accuracy sampleUnicode Acc.samplePct [] sheets (ascii "c") (ascii "d") 7 e := by
  have := c104_accuracy sampleFacts Acc.samplePct Acc.samplePct_format no_junk sheets_bytes _ _ _ _ _ _ _ _ sheet_a sheet_b sheet_c sheet_d
    (by decide +kernel) (by decide +kernel)
  rwa [show (plain "The cat").length = 7 by decide +kernel] at this

example : ∃ i d, Editop sampleUnicode [] sheets (ascii "a") (ascii "b") i d ∧ Editop sampleUnicode [] sheets (ascii "c") (ascii "b") i d :=
  c104_editop no_junk sheets_bytes _ _ _ _ _ _ _ _ sheet_a sheet_b sheet_c sheet_b (by decide +kernel) (List.Perm.refl _)

example : ∃ m, Wordacc sampleUnicode Word.wbProp noB Acc.samplePct [] 0 sheets (ascii "a") (ascii "b") 2 m ∧
    Wordacc sampleUnicode Word.wbProp noB Acc.samplePct [] 0 sheets (ascii "e") (ascii "f") 2 m :=
  c104_wordacc lower_sample Word.wbProp noB Acc.samplePct Acc.samplePct_format no_junk 0 sheets_bytes _ _ _ _ _ _ words_sa words_sb words_se words_sf

/-- Other words: `a` for `the`, `dog` for `cat`, and `pig` for all others. -/
def other (w : List Nat) : List Nat := if w = ascii "the" then ascii "a" else if w = ascii "cat" then ascii "dog" else ascii "pig"

example : ∃ m, Wordacc sampleUnicode Word.wbProp noB Acc.samplePct [] 0 sheets (ascii "a") (ascii "b") 2 m ∧
    Wordacc sampleUnicode Word.wbProp noB Acc.samplePct [] 0 sheets (ascii "g") (ascii "h") 2 m :=
  c104_words lower_sample Word.wbProp noB Acc.samplePct Acc.samplePct_format no_junk 0 sheets_bytes _ _ _ _ _ _ other (by decide +kernel)
    words_sa words_sb words_sg words_sh

end Ocr.Across
