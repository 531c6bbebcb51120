import Verif.Spec.Across
import Verif.Props.Programs
import Verif.Props.WordEndings
import Mathlib.Data.Multiset.AddSub

/-!
# C82: what runs over the same files say about each other
-/

namespace Ocr

/-! ## Edit scripts -/

theorem edits_symm {a b n} (h : Edits a b n) : Edits b a n := by
  induction h with
  | nil => exact .nil
  | keep c hc _ ih => exact .keep c hc ih
  | subst x y _ ih => exact .subst y x ih
  | del x _ ih => exact .ins x ih
  | ins y _ ih => exact .del y ih

theorem edits_trans {a b n} (h : Edits a b n) : ∀ {c m}, Edits b c m → ∃ k, k ≤ n + m ∧ Edits a c k := by
  induction h with
  | nil => intro c m h2; exact ⟨m, by omega, h2⟩
  | @keep a b n x hx h ih =>
    intro c m h2
    generalize hb : x :: b = b' at h2
    induction h2 with
    | nil => cases hb
    | keep y hy h2 _ =>
      cases hb
      obtain ⟨k, hk, e⟩ := ih h2
      exact ⟨k, hk, .keep _ hx e⟩
    | subst y z h2 _ =>
      cases hb
      obtain ⟨k, hk, e⟩ := ih h2
      exact ⟨k + 1, by omega, .subst _ _ e⟩
    | del y h2 _ =>
      cases hb
      obtain ⟨k, hk, e⟩ := ih h2
      exact ⟨k + 1, by omega, .del _ e⟩
    | ins y h2 ih2 =>
      obtain ⟨k, hk, e⟩ := ih2 hb
      exact ⟨k + 1, by omega, .ins _ e⟩
  | @subst a b n w x h ih =>
    intro c m h2
    generalize hb : x :: b = b' at h2
    induction h2 with
    | nil => cases hb
    | keep y hy h2 _ =>
      cases hb
      obtain ⟨k, hk, e⟩ := ih h2
      exact ⟨k + 1, by omega, .subst _ _ e⟩
    | subst y z h2 _ =>
      cases hb
      obtain ⟨k, hk, e⟩ := ih h2
      exact ⟨k + 1, by omega, .subst _ _ e⟩
    | del y h2 _ =>
      cases hb
      obtain ⟨k, hk, e⟩ := ih h2
      exact ⟨k + 1, by omega, .del _ e⟩
    | ins y h2 ih2 =>
      obtain ⟨k, hk, e⟩ := ih2 hb
      exact ⟨k + 1, by omega, .ins _ e⟩
  | @del a b n x h ih =>
    intro c m h2
    obtain ⟨k, hk, e⟩ := ih h2
    exact ⟨k + 1, by omega, .del _ e⟩
  | @ins a b n x h ih =>
    intro c m h2
    generalize hb : x :: b = b' at h2
    induction h2 with
    | nil => cases hb
    | keep y hy h2 _ =>
      cases hb
      obtain ⟨k, hk, e⟩ := ih h2
      exact ⟨k + 1, by omega, .ins _ e⟩
    | subst y z h2 _ =>
      cases hb
      obtain ⟨k, hk, e⟩ := ih h2
      exact ⟨k + 1, by omega, .ins _ e⟩
    | del y h2 _ =>
      cases hb
      obtain ⟨k, hk, e⟩ := ih h2
      exact ⟨k, by omega, e⟩
    | ins y h2 ih2 =>
      obtain ⟨k, hk, e⟩ := ih2 hb
      exact ⟨k + 1, by omega, .ins _ e⟩

theorem edits_zero {a b n} (h : Edits a b n) (hn : n = 0) : a = b := by
  induction h with
  | nil => rfl
  | keep c _ _ ih => rw [ih hn]
  | _ => omega

theorem edits_same : ∀ {a : List Nat}, 126 ∉ a → Edits a a 0
  | [], _ => .nil
  | c :: a, h => by
    rw [List.mem_cons, not_or] at h
    exact .keep c (fun e => h.1 e.symm) (edits_same h.2)

theorem edits_multiset {a b n} (h : Edits a b n) : ∃ r : Multiset Nat, r.card ≤ n ∧ (a : Multiset Nat) ≤ b + r := by
  induction h with
  | nil => exact ⟨0, by simp, by simp⟩
  | keep c _ _ ih =>
    obtain ⟨r, hr, hl⟩ := ih
    exact ⟨r, hr, by rw [← Multiset.cons_coe, ← Multiset.cons_coe, Multiset.cons_add]; exact Multiset.cons_le_cons c hl⟩
  | subst x y _ ih =>
    obtain ⟨r, hr, hl⟩ := ih
    refine ⟨x ::ₘ r, by rw [Multiset.card_cons]; omega, ?_⟩
    rw [← Multiset.cons_coe, ← Multiset.cons_coe, Multiset.add_cons, Multiset.cons_add]
    exact Multiset.cons_le_cons x (hl.trans (Multiset.le_cons_self _ _))
  | del x _ ih =>
    obtain ⟨r, hr, hl⟩ := ih
    refine ⟨x ::ₘ r, by rw [Multiset.card_cons]; omega, ?_⟩
    rw [← Multiset.cons_coe, Multiset.add_cons]
    exact Multiset.cons_le_cons x hl
  | ins y _ ih =>
    obtain ⟨r, hr, hl⟩ := ih
    refine ⟨r, by omega, ?_⟩
    rw [← Multiset.cons_coe, Multiset.cons_add]
    exact hl.trans (Multiset.le_cons_self _ _)

theorem edits_diff {a b n} (h : Edits a b n) : (a.diff b).length ≤ n := by
  obtain ⟨r, hr, hl⟩ := edits_multiset h
  have : ((a.diff b : List Nat) : Multiset Nat) ≤ r := by
    rw [← Multiset.coe_sub]
    exact tsub_le_iff_left.2 hl
  have := Multiset.card_le_card this
  rw [Multiset.coe_card] at this
  omega

theorem diff_balance (a b : List Nat) : a.length + (b.diff a).length = b.length + (a.diff b).length := by
  have h : ((b.diff a : List Nat) : Multiset Nat) + a = (a.diff b : List Nat) + b := by
    rw [← Multiset.coe_sub, ← Multiset.coe_sub, ← Multiset.union_def, ← Multiset.union_def, Multiset.union_comm]
  have := congrArg Multiset.card h
  simp only [Multiset.card_add, Multiset.coe_card] at this
  omega

theorem distance_symm {a b d e} (h : IsEditDistance a b d) (h' : IsEditDistance b a e) : d = e :=
  le_antisymm (h.2 _ (edits_symm h'.1)) (h'.2 _ (edits_symm h.1))

end Ocr

namespace Ocr.Across
open Text Res Spec Prog AnyText Ending

variable {U : Unicode} {junk : List Nat} {fs : Fs}

/-! ## The runs -/

theorem two_names (T : List (Nat × Args.Kind)) (prog : String) (hp : (ascii prog).length ≤ 32768) {f g : List Nat} (hf : Name f) (hg : Name g) :
    CommandLine T (ascii prog) [f, g] [f, g] [] :=
  ⟨hp, by simp, by intro x hx; simp at hx; rcases hx with rfl | rfl; exact hf.1; exact hg.1, by simp,
    .operand hf.2 (.operand hg.2 .nil), by simp [Args.Once]⟩

theorem both_read (hj : Bytes junk) (hfs : ∀ name file, fs name = some file → Bytes file) {f g : List Nat} {t u : List Ch}
    (hf : TextFile U fs f t) (hg : TextFile U fs g u) : readPair U junk fs [f, g] = .ok (t, u) := by
  obtain ⟨_, ⟨file, e, hh, ht⟩, _⟩ := hf
  obtain ⟨_, ⟨file', e', _, ht'⟩, _⟩ := hg
  exact ((readPair_gives U hj hfs f g []).value (t, u)).2 ⟨file, file', e, hh, ht, e', ht'⟩

theorem text_value (hfs : ∀ name file, fs name = some file → Bytes file) {f : List Nat} {t : List Ch}
    (hf : TextFile U fs f t) : ∀ c ∈ t, c.value < 0x110000 := by
  obtain ⟨_, ⟨file, e, hh, ht⟩, _⟩ := hf
  exact textOf_value (hfs _ _ e) ht

theorem nonreject_length {t : List Ch} (h : ∀ c ∈ t, c.value ≠ REJECT_CHARACTER) : (Acc.nonreject t).length = t.length := by
  unfold Acc.nonreject
  rw [List.filter_eq_self.2 ?_, List.length_map]
  intro a ha
  obtain ⟨c, hc, rfl⟩ := List.mem_map.1 ha
  simpa using h c hc

theorem accuracy_run (F : UnicodeFacts U) (pct : Int → Int → List Nat) (hp : Acc.PctFormat pct) (hj : Bytes junk)
    (hfs : ∀ name file, fs name = some file → Bytes file) {f g : List Nat} {t u : List Ch} (hf : TextFile U fs f t) (hg : TextFile U fs g u) :
    ∃ d, Accuracy U pct junk fs f g t.length d ∧ IsEditDistance (t.map Ch.value) (u.map Ch.value) d := by
  obtain ⟨b, V, e⟩ := init_none (two_names [] "accuracy" (by decide +kernel) hf.1 hg.1)
  have i0 : Acc.InTables t := fun c hm => by have := text_value hfs hf c hm; have := (hf.2.2.1 c hm).2; omega
  obtain ⟨D, e1, hC, hR, hE⟩ := Acc.accuracy_data F i0 (text_value hfs hg) (by have := hf.2.2.2; have := hg.2.2.2; omega)
  obtain ⟨bytes, E, e2, e3, e4⟩ := Acc.c28_round_trip U F pct hp D hR
  obtain ⟨d, h2, h3⟩ := hE (fun c hc => (hf.2.2.1 c hc).1)
  refine ⟨d, ⟨bytes, E, ?_, e3, ?_, ?_⟩, h3⟩
  · unfold accuracyMain
    rw [e, bind_ok]
    simp only
    rw [if_neg (by simp), both_read hj hfs hf hg, bind_ok]
    simp only
    rw [e1, bind_ok, e2, bind_ok]
    rfl
  · rw [e4.1]; exact hC.characters.trans (by rw [nonreject_length (fun c hc => (hf.2.2.1 c hc).1)])
  · rw [e4.1]; exact h2

theorem accuracy_one {pct : Int → Int → List Nat} {f g : List Nat} {n n' e e' : Nat} (h : Accuracy U pct junk fs f g n e)
    (h' : Accuracy U pct junk fs f g n' e') : n = n' ∧ e = e' := by
  obtain ⟨b, E, h1, h2, h3, h4⟩ := h
  obtain ⟨b', E', h1', h2', h3', h4'⟩ := h'
  rw [h1] at h1'
  cases h1'
  rw [h2] at h2'
  cases h2'
  omega

theorem editop_run (hj : Bytes junk) (hfs : ∀ name file, fs name = some file → Bytes file) {f g : List Nat} {t u : List Ch}
    (hf : TextFile U fs f t) (hg : TextFile U fs g u) :
    Editop U junk fs f g ((t.map Ch.value).diff (u.map Ch.value)).length ((u.map Ch.value).diff (t.map Ch.value)).length := by
  obtain ⟨b, V, e, _⟩ := init_args table_editop (two_names [(68, .flag 0)] "editop" (by decide +kernel) hf.1 hg.1)
  have l0 := hf.2.2.2
  have l1 := hg.2.2.2
  obtain ⟨r, D, ls, S, e1, e2, hb, hv, _⟩ := Edo.c49_editop (t.map Ch.value) (u.map Ch.value) (by rw [List.length_map]; omega)
    (by rw [List.length_map]; omega)
  obtain ⟨D', e3, h6, h7⟩ := Edo.c56_differences (t.map Ch.value) (u.map Ch.value)
  rw [e2] at e3
  cases e3
  have hn : (t.map Ch.value).filter (fun c => c ≠ 126) = t.map Ch.value := by
    refine List.filter_eq_self.2 ?_
    intro a ha
    obtain ⟨c, hc, rfl⟩ := List.mem_map.1 ha
    have := (hf.2.2.1 c hc).1
    unfold REJECT_CHARACTER at this
    simpa using this
  rw [hn] at h6 h7
  refine ⟨Edo.write_edorpt D, D, ?_, Edo.c26_round_trip D hv, h6, h7⟩
  unfold editopMain
  rw [show Args.initialize_ (some Args.editopOptions) true (ascii "editop" :: [f, g]) start = _ from e, bind_ok]
  simp only
  rw [if_neg (by simp), both_read hj hfs hf hg, bind_ok]
  simp only
  rw [e2, bind_ok]
  rfl

theorem words_run (L : Lower U) (prop : Nat → Word.WB) (nfc : List Nat → Option (List Nat)) (pct : Int → Int → List Nat)
    (hp : Acc.PctFormat pct) (hj : Bytes junk) (junk' : Nat) (hfs : ∀ name file, fs name = some file → Bytes file) {f g : List Nat}
    {u v : List (List Nat)} (hf : WordFile U prop nfc fs f u) (hg : WordFile U prop nfc fs g v) :
    ∃ c, Wordacc.IsLCS c u v ∧ Wordacc U prop nfc pct junk junk' fs f g u.length (u.length - c.length) := by
  have hc := two_names [(83, .value 0)] "wordacc" (by decide +kernel) hf.1 hg.1
  obtain ⟨b, V, e, hV⟩ := init_args table_wordacc hc
  have hs : V.string 0 = none := by
    cases h : V.string 0 with
    | none => rfl
    | some s => have := (hV.1 0 s).1 h; simp at this
  obtain ⟨_, ⟨file, e0, hh, ht⟩, hw, hl⟩ := hf
  obtain ⟨_, ⟨file', e0', _, ht'⟩, _⟩ := hg
  have hr := ((readWords_gives U L hj prop nfc junk' hfs f g []).value (u, v)).2 ⟨file, ⟨e0, hh⟩, ht, file', e0', ht'⟩
  obtain ⟨S, eS⟩ : ∃ S, initStopwords U prop nfc junk junk' fs none = .ok S := ⟨_, rfl⟩
  obtain ⟨flags, D, h1, h2, h3, h4, h5⟩ := Wordacc.wordacc_data (fun w => decide (Stopword.is_stopword w S = .ok true)) u v hw
    ((List.length_filter_le _ _).trans hl) (by omega)
  obtain ⟨bytes, E, e2, e3, e4⟩ := Wac.c30_round_trip pct hp D h5
  have h6 := Wordacc.flagged_length u flags h1
  refine ⟨_, h2, bytes, E, ?_, e3, ?_, ?_⟩
  · unfold wordaccMain
    rw [show Args.initialize_ (some Args.wordaccOptions) true (ascii "wordacc" :: [f, g]) start = _ from e, bind_ok]
    simp only
    rw [if_neg (by simp), hs, eS, bind_ok, hr, bind_ok]
    simp only
    rw [h3, bind_ok, e2, bind_ok]
    rfl
  · rw [e4.1]
    show D.total.count = _
    rw [h4.total]
    simp [Wordacc.tally, h1]
  · rw [e4.1]
    show D.total.missed = _
    rw [h4.total]
    simp only [Wordacc.tally, Bool.true_and]
    omega

theorem folded {file : List Nat} {t : List Ch} (h : TextOf U false file t) :
    TextOf U true file (t.map (fun c => { c with value := U.tolower c.value })) := by
  obtain ⟨cs, g0, parts, h1, h2, h3, h4, rfl⟩ := h
  exact ⟨cs, g0, parts, h1, h2, h3, h4, by simp⟩

theorem strings_same {prop : Nat → Word.WB} {nfc : List Nat → Option (List Nat)} {t u : List Ch} (h : t.map Ch.value = u.map Ch.value)
    {ws : List (Option (List Nat))} (hs : Strings U prop nfc t ws) : Strings U prop nfc u ws := by
  have all : ∀ P : Nat → Prop, (∀ c ∈ t, P c.value) ↔ ∀ c ∈ u, P c.value := by
    intro P
    have e : ∀ l : List Ch, (∀ c ∈ l, P c.value) ↔ ∀ x ∈ l.map Ch.value, P x := by intro l; simp
    rw [e, e, h]
  have any : ∀ P : Nat → Prop, (∃ c ∈ t, P c.value) ↔ ∃ c ∈ u, P c.value := by
    intro P
    have e : ∀ l : List Ch, (∃ c ∈ l, P c.value) ↔ ∃ x ∈ l.map Ch.value, P x := by intro l; simp
    rw [e, e, h]
  rcases hs with ⟨h1, h2⟩ | ⟨h1, segs, h2, h3⟩
  · exact .inl ⟨(all (fun v => Word.isExt (prop v) = true)).1 h1, h2⟩
  · refine .inr ⟨(any (fun v => Word.isExt (prop v) = false)).1 h1, segs, ?_, h3⟩
    rw [← h]
    exact h2

/-! ## C82 -/

/-- C82 (accuracy).  Exchanging the two files does not change the number of errors, which is at least the difference of the lengths and
at most the larger of them; there are none exactly if the texts are the same. -/
theorem c82_accuracy (F : UnicodeFacts U) (pct : Int → Int → List Nat) (hp : Acc.PctFormat pct) (hj : Bytes junk)
    (hfs : ∀ name file, fs name = some file → Bytes file) (f g : List Nat) (t u : List Ch) (hf : TextFile U fs f t) (hg : TextFile U fs g u) :
    ∃ e, Accuracy U pct junk fs f g t.length e ∧ Accuracy U pct junk fs g f u.length e ∧
      (e = 0 ↔ t.map Ch.value = u.map Ch.value) ∧ t.length ≤ u.length + e ∧ u.length ≤ t.length + e ∧ e ≤ max t.length u.length := by
  obtain ⟨d, h1, h2⟩ := accuracy_run F pct hp hj hfs hf hg
  obtain ⟨d', h1', h2'⟩ := accuracy_run F pct hp hj hfs hg hf
  have := distance_symm h2 h2'
  subst this
  have hd := edit_distance_unique h2 (lev_isEditDistance _ _)
  have hl := lev_ge_len (t.map Ch.value) (u.map Ch.value)
  have hm := lev_le_max (t.map Ch.value) (u.map Ch.value)
  rw [← hd] at hl hm
  simp only [List.length_map] at hl hm
  refine ⟨d, h1, h1', ⟨fun h => edits_zero h2.1 h, fun h => ?_⟩, hl.1, hl.2, hm⟩
  rw [h] at h2
  have := h2.2 0 (edits_same (by
    intro hm
    obtain ⟨c, hc, e⟩ := List.mem_map.1 hm
    exact (hg.2.2.1 c hc).1 e))
  omega

/-- C82 (triangle).  If a text is compared by way of another, the errors add up to at least those of the direct comparison. -/
theorem c82_triangle (F : UnicodeFacts U) (pct : Int → Int → List Nat) (hp : Acc.PctFormat pct) (hj : Bytes junk)
    (hfs : ∀ name file, fs name = some file → Bytes file) (f g h : List Nat) (t u v : List Ch) (hf : TextFile U fs f t)
    (hg : TextFile U fs g u) (hh : TextFile U fs h v) :
    ∃ a b c, Accuracy U pct junk fs f g t.length a ∧ Accuracy U pct junk fs g h u.length b ∧ Accuracy U pct junk fs f h t.length c ∧
      c ≤ a + b := by
  obtain ⟨a, h1, e1⟩ := accuracy_run F pct hp hj hfs hf hg
  obtain ⟨b, h2, e2⟩ := accuracy_run F pct hp hj hfs hg hh
  obtain ⟨c, h3, e3⟩ := accuracy_run F pct hp hj hfs hf hh
  obtain ⟨k, hk, e⟩ := edits_trans e1.1 e2.1
  exact ⟨a, b, c, h1, h2, h3, (e3.2 _ e).trans hk⟩

/-- C82 (pages).  If two pages are compared as one text, there are at most as many errors as for the pages one by one, and at least
as many as for either page, less the characters of the other page in the two texts. -/
theorem c82_pages (F : UnicodeFacts U) (pct : Int → Int → List Nat) (hp : Acc.PctFormat pct) (hj : Bytes junk)
    (hfs : ∀ name file, fs name = some file → Bytes file) (f g f1 g1 f2 g2 : List Nat) (t1 t2 u1 u2 : List Ch)
    (hf : TextFile U fs f (t1 ++ t2)) (hg : TextFile U fs g (u1 ++ u2)) (hf1 : TextFile U fs f1 t1) (hg1 : TextFile U fs g1 u1)
    (hf2 : TextFile U fs f2 t2) (hg2 : TextFile U fs g2 u2) :
    ∃ e e1 e2, Accuracy U pct junk fs f g (t1.length + t2.length) e ∧ Accuracy U pct junk fs f1 g1 t1.length e1 ∧
      Accuracy U pct junk fs f2 g2 t2.length e2 ∧ e ≤ e1 + e2 ∧ e1 ≤ e + t2.length + u2.length ∧
      e2 ≤ e + t1.length + u1.length := by
  obtain ⟨e, h, d⟩ := accuracy_run F pct hp hj hfs hf hg
  obtain ⟨e1, h1, d1⟩ := accuracy_run F pct hp hj hfs hf1 hg1
  obtain ⟨e2, h2, d2⟩ := accuracy_run F pct hp hj hfs hf2 hg2
  rw [List.length_append] at h
  have plain : ∀ {f : List Nat} {t : List Ch}, TextFile U fs f t → 126 ∉ t.map Ch.value := by
    intro f t h hm
    obtain ⟨c, hc, e⟩ := List.mem_map.1 hm
    exact (h.2.2.1 c hc).1 e
  have via : ∀ {a b c d : List Nat} {m n : Nat}, Edits a b m → Edits b c e → Edits c d n → ∃ k, k ≤ m + e + n ∧ Edits a d k := by
    intro a b c d m n x y z
    obtain ⟨k, hk, c1⟩ := edits_trans x y
    obtain ⟨l, hl, c2⟩ := edits_trans c1 z
    exact ⟨l, by omega, c2⟩
  refine ⟨e, e1, e2, h, h1, h2, ?_, ?_, ?_⟩
  · refine d.2 _ ?_
    rw [List.map_append, List.map_append]
    exact edits_append d1.1 d2.1
  · obtain ⟨k, hk, c⟩ := via (a := t1.map Ch.value) (d := u1.map Ch.value) (m := t2.length) (n := u2.length)
      (by simpa using edits_append (edits_same (plain hf1)) (edits_lev [] (t2.map Ch.value))) d.1
      (by simpa using edits_append (edits_same (plain hg1)) (edits_lev (u2.map Ch.value) []))
    have := d1.2 _ c
    omega
  · obtain ⟨k, hk, c⟩ := via (a := t2.map Ch.value) (d := u2.map Ch.value) (m := t1.length) (n := u1.length)
      (by simpa using edits_append (edits_lev [] (t1.map Ch.value)) (edits_same (plain hf2))) d.1
      (by simpa using edits_append (edits_lev (u1.map Ch.value) []) (edits_same (plain hg2)))
    have := d2.2 _ c
    omega

/-- C82 (editop and accuracy).  Neither the insertions nor the deletions reported by editop are more than the errors reported by
accuracy; exchanging the files exchanges them; and they account for the difference of the lengths. -/
theorem c82_editop (F : UnicodeFacts U) (pct : Int → Int → List Nat) (hp : Acc.PctFormat pct) (hj : Bytes junk)
    (hfs : ∀ name file, fs name = some file → Bytes file) (f g : List Nat) (t u : List Ch) (hf : TextFile U fs f t) (hg : TextFile U fs g u) :
    ∃ e i d, Accuracy U pct junk fs f g t.length e ∧ Editop U junk fs f g i d ∧ Editop U junk fs g f d i ∧
      i ≤ e ∧ d ≤ e ∧ t.length + d = u.length + i := by
  obtain ⟨e, h1, h2⟩ := accuracy_run F pct hp hj hfs hf hg
  refine ⟨e, _, _, h1, editop_run hj hfs hf hg, editop_run hj hfs hg hf, edits_diff h2.1, edits_diff (edits_symm h2.1), ?_⟩
  have := diff_balance (t.map Ch.value) (u.map Ch.value)
  simpa using this

/-- C82 (wordacc).  Exchanging the two files does not change the number of words recognized; none is misrecognized exactly if all words
of the correct text occur in the other one in the same order. -/
theorem c82_wordacc (L : Lower U) (prop : Nat → Word.WB) (nfc : List Nat → Option (List Nat)) (pct : Int → Int → List Nat)
    (hp : Acc.PctFormat pct) (hj : Bytes junk) (junk' : Nat) (hfs : ∀ name file, fs name = some file → Bytes file) (f g : List Nat)
    (u v : List (List Nat)) (hf : WordFile U prop nfc fs f u) (hg : WordFile U prop nfc fs g v) :
    ∃ m n, Wordacc U prop nfc pct junk junk' fs f g u.length m ∧ Wordacc U prop nfc pct junk junk' fs g f v.length n ∧
      m ≤ u.length ∧ u.length - m = v.length - n ∧ (m = 0 ↔ u.Sublist v) := by
  obtain ⟨c, h1, h2⟩ := words_run L prop nfc pct hp hj junk' hfs hf hg
  obtain ⟨c', h1', h2'⟩ := words_run L prop nfc pct hp hj junk' hfs hg hf
  have k1 := h1.max c' h1'.right h1'.left
  have k2 := h1'.max c h1.right h1.left
  have l1 := h1.left.length_le
  have l2 := h1'.left.length_le
  refine ⟨_, _, h2, h2', by omega, by omega, ?_⟩
  constructor
  · intro h
    have : c = u := h1.left.eq_of_length (by omega)
    exact this ▸ h1.right
  · intro h
    have := h1.max u (List.Sublist.refl u) h
    omega

/-- C82 (accuracy and wordacc).  If accuracy reports no errors, wordacc reports no misrecognized words. -/
theorem c82_perfect (F : UnicodeFacts U) (L : Lower U) (prop : Nat → Word.WB) (nfc : List Nat → Option (List Nat))
    (pct : Int → Int → List Nat) (hp : Acc.PctFormat pct) (hj : Bytes junk) (junk' : Nat)
    (hfs : ∀ name file, fs name = some file → Bytes file) (f g : List Nat) (t u : List Ch) (w : List (List Nat))
    (hf : TextFile U fs f t) (hg : TextFile U fs g u) (hw : WordFile U prop nfc fs f w) (n : Nat)
    (h0 : Accuracy U pct junk fs f g n 0) : Wordacc U prop nfc pct junk junk' fs f g w.length 0 := by
  obtain ⟨d, h1, h2⟩ := accuracy_run F pct hp hj hfs hf hg
  have hd : d = 0 := (accuracy_one h1 h0).2
  have same := edits_zero h2.1 hd
  have hw' : WordFile U prop nfc fs g w := by
    refine ⟨hg.1, ?_, hw.2.2⟩
    obtain ⟨_, ⟨file, e, hh, ht⟩, _⟩ := hf
    obtain ⟨_, ⟨file', e', hh', ht'⟩, _⟩ := hg
    obtain ⟨_, ⟨file2, e2, _, t2, ht2, hs⟩, _⟩ := hw
    rw [e] at e2
    cases e2
    refine ⟨file', e', hh', _, folded ht', ?_⟩
    refine strings_same ?_ hs
    rw [textOf_unique ht2 (folded ht), List.map_map, List.map_map]
    have : (Ch.value ∘ fun c : Ch => ({ c with value := U.tolower c.value } : Ch)) = U.tolower ∘ Ch.value := rfl
    rw [this, ← List.map_map, ← List.map_map, same]
  obtain ⟨c, k1, k2⟩ := words_run L prop nfc pct hp hj junk' hfs hw hw'
  have := k1.max w (List.Sublist.refl w) (List.Sublist.refl w)
  rw [show w.length - c.length = 0 by omega] at k2
  exact k2

/-! ## Non-vacuity -/

/-- Two pages and what was recognized of them, one by one and together; `e` is `a` with a mark. -/
def pages (name : List Nat) : Option (List Nat) :=
  [(ascii "a", ascii "The cat"), (ascii "b", ascii "sat"), (ascii "c", ascii "The catsat"), (ascii "d", ascii "The hat"),
    (ascii "e", ascii "The ^cat"), (ascii "f", ascii "ssat"), (ascii "g", ascii "The hatssat")].lookup name

theorem pages_bytes : ∀ name file, pages name = some file → Bytes file := by
  intro name file h
  unfold pages at h
  have : ∀ l : List (List Nat × List Nat), l.all (fun p => p.2.all (fun b => decide (b < 256))) = true → l.lookup name = some file → Bytes file := by
    intro l
    induction l with
    | nil => intro _ h; simp at h
    | cons p l ih =>
      intro hl h
      simp only [List.all_cons, Bool.and_eq_true] at hl
      rw [List.lookup_cons] at h
      split at h
      · cases h; exact bytes_ascii hl.1
      · exact ih hl.2 h
  exact this _ (by decide +kernel) h

theorem a_name (s : String) (h : (0 ∉ ascii s ∧ 45 ∉ ascii s)) : Name (ascii s) :=
  ⟨h.1, by rintro ⟨c, r, e⟩; rw [e] at h; simp at h⟩

theorem a_file {s : String} {file : List Nat} {t : List Ch} (hn : (0 ∉ ascii s ∧ 45 ∉ ascii s)) (e : pages (ascii s) = some file)
    (hh : ¬ file.take 45 = TITLE.take 45) (hb : file.all (fun b => decide (b < 256)) = true)
    (h : read_text sampleUnicode [] [] file { pageText false with found_header := false } = .ok (t, pageText false))
    (hc : ∀ c ∈ t, c.value ≠ REJECT_CHARACTER ∧ c.value ≠ 0x10FFFF) (hl : t.length < 5 * 10^7) : TextFile sampleUnicode pages (ascii s) t :=
  ⟨a_name s hn, ⟨file, e, hh, text_of hb _ h⟩, hc, hl⟩

theorem file_a : TextFile sampleUnicode pages (ascii "a") (plain "The cat") := a_file (file := ascii "The cat") (by decide +kernel) (by decide +kernel)
  (by decide +kernel) (by decide +kernel) (by decide +kernel) (by decide +kernel) (by decide +kernel)
theorem file_b : TextFile sampleUnicode pages (ascii "b") (plain "sat") := a_file (file := ascii "sat") (by decide +kernel) (by decide +kernel)
  (by decide +kernel) (by decide +kernel) (by decide +kernel) (by decide +kernel) (by decide +kernel)
theorem file_c : TextFile sampleUnicode pages (ascii "c") (plain "The cat" ++ plain "sat") := a_file (file := ascii "The catsat") (by decide +kernel) (by decide +kernel)
  (by decide +kernel) (by decide +kernel) (by decide +kernel) (by decide +kernel) (by decide +kernel)
theorem file_d : TextFile sampleUnicode pages (ascii "d") (plain "The hat") := a_file (file := ascii "The hat") (by decide +kernel) (by decide +kernel)
  (by decide +kernel) (by decide +kernel) (by decide +kernel) (by decide +kernel) (by decide +kernel)
theorem file_e : TextFile sampleUnicode pages (ascii "e") (plain "The " ++ ⟨true, 99⟩ :: plain "at") := a_file (file := ascii "The ^cat") (by decide +kernel)
  (by decide +kernel) (by decide +kernel) (by decide +kernel) (by decide +kernel) (by decide +kernel) (by decide +kernel)
theorem file_f : TextFile sampleUnicode pages (ascii "f") (plain "ssat") := a_file (file := ascii "ssat") (by decide +kernel) (by decide +kernel)
  (by decide +kernel) (by decide +kernel) (by decide +kernel) (by decide +kernel) (by decide +kernel)
theorem file_g : TextFile sampleUnicode pages (ascii "g") (plain "The hat" ++ plain "ssat") := a_file (file := ascii "The hatssat") (by decide +kernel) (by decide +kernel)
  (by decide +kernel) (by decide +kernel) (by decide +kernel) (by decide +kernel) (by decide +kernel)

theorem a_words {s : String} {file : List Nat} {u : List (List Nat)} (hn : (0 ∉ ascii s ∧ 45 ∉ ascii s)) (e : pages (ascii s) = some file)
    (hh : ¬ file.take 45 = TITLE.take 45) (h : ReadsWords sampleUnicode Word.wbProp noB file u)
    (hw : ∀ w ∈ u, 1 ≤ w.length ∧ w.length ≤ 50 ∧ 10 ∉ w ∧ 0 ∉ w) (hl : u.length ≤ 65535) :
    WordFile sampleUnicode Word.wbProp noB pages (ascii s) u :=
  ⟨a_name s hn, ⟨file, e, hh, h⟩, hw, hl⟩

theorem words_a : WordFile sampleUnicode Word.wbProp noB pages (ascii "a") [ascii "the", ascii "cat"] :=
  a_words (file := ascii "The cat") (by decide +kernel) (by decide +kernel) (by decide +kernel) words_x' (by decide +kernel) (by decide +kernel)
theorem words_d : WordFile sampleUnicode Word.wbProp noB pages (ascii "d") [ascii "the", ascii "hat"] :=
  a_words (file := ascii "The hat") (by decide +kernel) (by decide +kernel) (by decide +kernel)
    ⟨plain "the hat", text_of (by decide +kernel) (pageText true) (by decide +kernel), strings_of (by decide +kernel) (by decide +kernel)⟩
    (by decide +kernel) (by decide +kernel)

theorem no_junk : Bytes [] := by simp [Bytes]

/-- One error either way, which is one insertion and one deletion for editop, and one misrecognized word. -/
example : (∃ e, Accuracy sampleUnicode Acc.samplePct [] pages (ascii "a") (ascii "d") 7 e ∧
    Accuracy sampleUnicode Acc.samplePct [] pages (ascii "d") (ascii "a") 7 e ∧ e ≠ 0 ∧ e ≤ 7) ∧
    (∃ i d, Editop sampleUnicode [] pages (ascii "a") (ascii "d") i d ∧ Editop sampleUnicode [] pages (ascii "d") (ascii "a") d i ∧ i = d) ∧
    (∃ m n, Wordacc sampleUnicode Word.wbProp noB Acc.samplePct [] 0 pages (ascii "a") (ascii "d") 2 m ∧
      Wordacc sampleUnicode Word.wbProp noB Acc.samplePct [] 0 pages (ascii "d") (ascii "a") 2 n ∧ m = n ∧ m ≠ 0) := by
  obtain ⟨e, h1, h2, h3, _, _, h4⟩ := c82_accuracy sampleFacts Acc.samplePct Acc.samplePct_format no_junk pages_bytes _ _ _ _ file_a file_d
  obtain ⟨_, i, d, _, h5, h6, _, _, h7⟩ := c82_editop sampleFacts Acc.samplePct Acc.samplePct_format no_junk pages_bytes _ _ _ _ file_a file_d
  obtain ⟨m, n, k1, k2, k3, k4, k5⟩ := c82_wordacc lower_sample Word.wbProp noB Acc.samplePct Acc.samplePct_format no_junk 0 pages_bytes _ _ _ _
    words_a words_d
  obtain ⟨m', n', l1, l2, l3, l4, l5⟩ := c82_wordacc lower_sample Word.wbProp noB Acc.samplePct Acc.samplePct_format no_junk 0 pages_bytes _ _ _ _
    words_d words_a
  have ne : ¬ (plain "The cat").map Ch.value = (plain "The hat").map Ch.value := by decide +kernel
  have l0 : (plain "The cat").length = 7 := by decide +kernel
  have l0' : (plain "The hat").length = 7 := by decide +kernel
  rw [l0, l0'] at h4 h7
  rw [l0] at h1
  rw [l0'] at h2
  have ns : ¬ [ascii "the", ascii "cat"].Sublist [ascii "the", ascii "hat"] := by decide +kernel
  refine ⟨⟨e, h1, h2, fun h => ne (h3.1 h), by omega⟩, ⟨i, d, h5, h6, by omega⟩, m, n, k1, k2, ?_, fun h => ns (k5.1 h)⟩
  simp only [List.length_cons, List.length_nil] at k3 k4
  have : n ≤ 2 := by
    obtain ⟨b, E, x1, x2, x3, x4⟩ := k2
    obtain ⟨b', E', y1, y2, y3, y4⟩ := l1
    rw [x1] at y1
    cases y1
    rw [x2] at y2
    cases y2
    simp only [List.length_cons, List.length_nil] at l3
    omega
  omega

example : ∃ a b c, Accuracy sampleUnicode Acc.samplePct [] pages (ascii "a") (ascii "d") 7 a ∧
    Accuracy sampleUnicode Acc.samplePct [] pages (ascii "d") (ascii "b") 7 b ∧ Accuracy sampleUnicode Acc.samplePct [] pages (ascii "a") (ascii "b") 7 c ∧
    c ≤ a + b := c82_triangle sampleFacts Acc.samplePct Acc.samplePct_format no_junk pages_bytes _ _ _ _ _ _ file_a file_d file_b

example : ∃ e e1 e2, Accuracy sampleUnicode Acc.samplePct [] pages (ascii "c") (ascii "g") 10 e ∧
    Accuracy sampleUnicode Acc.samplePct [] pages (ascii "a") (ascii "d") 7 e1 ∧
    Accuracy sampleUnicode Acc.samplePct [] pages (ascii "b") (ascii "f") 3 e2 ∧ e ≤ e1 + e2 ∧ e1 ≤ e + 3 + 4 ∧ e2 ≤ e + 7 + 7 :=
  c82_pages sampleFacts Acc.samplePct Acc.samplePct_format no_junk pages_bytes _ _ _ _ _ _ _ _ _ _ file_c file_g file_a file_d file_b file_f

/-- A mark is no error. -/
example : Wordacc sampleUnicode Word.wbProp noB Acc.samplePct [] 0 pages (ascii "a") (ascii "e") 2 0 := by
  obtain ⟨e, h1, _, h2, _⟩ := c82_accuracy sampleFacts Acc.samplePct Acc.samplePct_format no_junk pages_bytes _ _ _ _ file_a file_e
  rw [h2.2 (by decide +kernel)] at h1
  exact c82_perfect sampleFacts lower_sample _ _ _ Acc.samplePct_format no_junk 0 pages_bytes _ _ _ _ _ file_a file_e words_a _ h1

end Ocr.Across
