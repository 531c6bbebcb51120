import Verif.Spec.Reports
import Verif.Proof.Confusions
import Verif.Props.Accrpt
import Verif.Props.Compare
import Verif.Props.Wacrpt

namespace Ocr.Charclass
open Text Res Spec

theorem initStep_names {t t' : CTab} {r : Range} (h : initStep t r = .ok t') :
    t'.names = if r.name ∈ t.names then t.names else t.names ++ [r.name] := by
  unfold initStep at h
  simp only at h
  obtain ⟨names, h1, h⟩ := bind_eq_ok.1 h
  obtain ⟨cls, h2, h⟩ := bind_eq_ok.1 h
  have := Res.ok.inj h
  subst this
  simp only
  by_cases hm : r.name ∈ t.names
  · have := List.findIdx_lt_length_of_exists (p := fun x => decide (x = r.name)) ⟨r.name, hm, by simp⟩
    rw [if_neg (by omega)] at h1
    rw [if_pos hm]
    exact (Res.ok.inj h1).symm
  · have : t.names.findIdx (· = r.name) = t.names.length := by
      rw [List.findIdx_eq_length]
      intro x hx
      simp only [decide_eq_false_iff_not]
      intro e
      exact hm (e ▸ hx)
    rw [if_pos this] at h1
    rw [if_neg hm]
    split at h1
    · cases h1
    · exact (Res.ok.inj h1).symm

theorem initLoop_names : ∀ (rs : List Range) (t t' : CTab), initLoop rs t = .ok t' →
    t'.names = (rs.map Range.name).foldl (fun ns n => if n ∈ ns then ns else ns ++ [n]) t.names := by
  intro rs
  induction rs with
  | nil => intro t t' h; cases h; rfl
  | cons r rs ih =>
    intro t t' h
    rw [initLoop] at h
    obtain ⟨t1, h1, h⟩ := bind_eq_ok.1 h
    rw [ih _ _ h, initStep_names h1]
    rfl

theorem names_eq {t : CTab} (h : initialize_charclass = .ok t) : t.names = classOrder := by
  unfold initialize_charclass at h
  rw [initLoop_names _ _ _ h]
  decide +kernel

theorem charclass_name_eq (i : Nat) :
    charclass_name i = if i < classOrder.length then .ok (classOrder.getD i "") else .err "invalid character class" := by
  obtain ⟨t, e, _, _⟩ := initialize_spec
  unfold charclass_name
  rw [e, bind_ok, names_eq e]
  by_cases h : i < classOrder.length
  · rw [if_neg (by omega), if_pos h]
    unfold rd
    rw [List.getElem?_eq_getElem h]
    simp only
    rw [List.getD_eq_getElem?_getD, List.getElem?_eq_getElem h]
    rfl
  · rw [if_pos (by omega), if_neg h]

theorem charclass_lt {v i : Nat} (h : charclass v = .ok i) : i < classOrder.length := by
  obtain ⟨t, e, _, hg⟩ := initialize_spec
  unfold charclass at h
  rw [e, bind_ok] at h
  split at h
  · have := Res.ok.inj h
    subst this
    rw [← names_eq e]
    exact (List.getElem?_eq_some_iff.1 (hg.name v)).1
  · cases h

theorem classOrder_len : classOrder.length ≤ 256 := by decide +kernel

end Ocr.Charclass

namespace Ocr.Acc
open Text Res Spec Charclass

variable {pct : Int → Int → List Nat}

theorem write_class_row (c : Accclass) (s : List Nat) : write_class pct c s = countRow pct c.count c.missed s := by
  simp [write_class, countRow, row, num, share, write_pct, List.intercalate]

theorem write_ops_row (o : Accops) (s : String) : write_ops o s = opsRow o s := by
  simp [write_ops, opsRow, row, num, List.intercalate]

theorem write_value_row (v : Int) (s : String) : Report.write_value v s = row [num v] (ascii s) := by
  simp [Report.write_value, row, num, List.intercalate]

theorem write_large_rows (D : Accdata) : ∀ is : List Nat, (∀ i ∈ is, 0 < (D.large_class i).count → i < classOrder.length) →
    write_large pct D is = .ok ((is.filter (fun i => 0 < (D.large_class i).count)).flatMap (fun i =>
      countRow pct (D.large_class i).count (D.large_class i).missed (ascii (classOrder.getD i "")))) := by
  intro is
  induction is with
  | nil => intro _; rfl
  | cons i is ih =>
    intro h
    rw [write_large, ih (fun j hj => h j (by simp [hj])), List.filter_cons]
    by_cases hc : 0 < (D.large_class i).count
    · rw [if_pos hc, if_pos (by simpa using hc), charclass_name_eq, if_pos (h i (by simp) hc)]
      simp only [bind_ok, pure_eq, List.flatMap_cons, write_class_row]
    · rw [if_neg hc, if_neg (by simpa using hc)]
      rfl

theorem write_small_rows {U : Unicode} (F : UnicodeFacts U) (D : Accdata) : ∀ is : List Nat, (∀ i ∈ is, i < 0x110000) →
    write_small U pct D is = .ok ((is.filter (fun i => 0 < (D.small_class i).count)).flatMap (fun v =>
      countRow pct (D.small_class v).count (D.small_class v).missed (ascii "{" ++ named U v ++ ascii "}"))) := by
  intro is
  induction is with
  | nil => intro _; rfl
  | cons i is ih =>
    intro h
    rw [write_small, ih (fun j hj => h j (by simp [hj])), List.filter_cons]
    by_cases hc : 0 < (D.small_class i).count
    · rw [if_pos hc, if_pos (by simpa using hc), (named_eq F (h i (by simp))).1]
      simp only [bind_ok, pure_eq, List.flatMap_cons, write_class_row]
    · rw [if_neg hc, if_neg (by simpa using hc)]
      rfl

theorem filter_range_le (p : Nat → Bool) {n m : Nat} (h : n ≤ m) (hp : ∀ i, n ≤ i → i < m → p i = false) :
    (List.range m).filter p = (List.range n).filter p := by
  obtain ⟨k, rfl⟩ := Nat.exists_eq_add_of_le h
  rw [List.range_add, List.filter_append]
  have : ((List.range k).map (n + ·)).filter p = [] := by
    rw [List.filter_eq_nil_iff]
    intro x hx
    obtain ⟨j, hj, rfl⟩ := List.mem_map.1 hx
    rw [hp (n + j) (by omega) (by have := List.mem_range.1 hj; omega)]
    simp
  rw [this, List.append_nil]

theorem layout {U : Unicode} (F : UnicodeFacts U) (D : Accdata) (hk : (D.conftable.map Conf.key).Nodup)
    (hn : ∀ c ∈ D.conftable, NulFree c.key) (hr : IntCounts D)
    (hl : ∀ i, i < 256 → 0 < (D.large_class i).count → i < classOrder.length) :
    ∃ confs chars, confs.Perm D.conftable ∧ confs.Pairwise ConfBefore ∧ chars.Pairwise (· < ·) ∧
      (∀ v, v ∈ chars ↔ v < 0x10FFFF ∧ 0 < (D.small_class v).count) ∧
      write_accrpt U pct D = .ok (accuracyText U pct D confs chars) := by
  have hp := Store.in_array_perm Conf.key D.conftable
  obtain ⟨s, h1, _, h3, h4⟩ := c04_confusions (Store.in_array Conf.key D.conftable) _ (.refl _)
    (((hp.map Conf.key).nodup_iff).2 hk) (fun c hc => hn c (hp.mem_iff.1 hc))
    (fun x hx y hy => by
      have a := hr x (hp.mem_iff.1 hx)
      have b := hr y (hp.mem_iff.1 hy)
      omega) _ (le_refl _)
  refine ⟨s, (List.range NUM_CHARVALUES).filter (fun i => 0 < (D.small_class i).count), h3.trans hp, h4,
    List.pairwise_lt_range.filter _, ?_, ?_⟩
  · intro v
    rw [List.mem_filter, List.mem_range]
    simp [NUM_CHARVALUES]
  · unfold write_accrpt
    rw [write_large_rows D (List.range MAX_CHARCLASSES) (fun i hi => hl i (List.mem_range.1 hi)), bind_ok,
      filter_range_le _ (n := classOrder.length) (m := MAX_CHARCLASSES) classOrder_len (by
        intro i hi hi'
        by_contra hc
        have := hl i hi' (by simpa using hc)
        omega)]
    have hcf : (if D.errors > 0 then write_confs D else pure []) = Res.ok (if 0 < D.errors then
        ascii "\n  Errors   Marked   Correct-Generated\n" ++ s.flatMap (fun c => num c.errors ++ [32] ++ num c.marked ++ ascii "   " ++ c.key)
        else []) := by
      by_cases he : D.errors > 0
      · rw [if_pos he, if_pos he]
        unfold write_confs
        simp only [h1, bind_ok, pure_eq]
        rfl
      · rw [if_neg he, if_neg he]; rfl
    have hsf : (if D.characters > 0 then do
        let s ← write_small U pct D (List.range NUM_CHARVALUES)
        pure (ascii "\n   Count   Missed   %Right\n" ++ s)
        else pure []) = Res.ok (if 0 < D.characters then
        ascii "\n   Count   Missed   %Right\n" ++ ((List.range NUM_CHARVALUES).filter (fun i => 0 < (D.small_class i).count)).flatMap (fun v =>
          countRow pct (D.small_class v).count (D.small_class v).missed (ascii "{" ++ named U v ++ ascii "}"))
        else []) := by
      rw [write_small_rows F D _ (by
        intro i hi
        have := List.mem_range.1 hi
        unfold NUM_CHARVALUES at this
        omega)]
      by_cases he : D.characters > 0
      · rw [if_pos he, if_pos he, bind_ok, pure_eq]
      · rw [if_neg he, if_neg he]; rfl
    rw [hcf, bind_ok, hsf, bind_ok, pure_eq]
    refine congrArg Res.ok ?_
    generalize (List.range NUM_CHARVALUES).filter (fun i => decide (0 < (D.small_class i).count)) = chars
    unfold write_head accuracyText
    simp only [write_value_row, write_ops_row, write_class_row]
    have e1 : ascii "%  Accuracy After Correction\n\n" = ascii "%  Accuracy After Correction\n" ++ [10] := by decide
    have e2 : ascii "\n     Ins    Subst      Del   Errors\n" = [10] ++ ascii "     Ins    Subst      Del   Errors\n" := by decide
    rw [e1, e2]
    have e3 : ∀ n d, write_pct pct n d = share pct n d := fun _ _ => rfl
    simp only [List.append_assoc, e3, TITLE, DIVIDER]

/-- Only classes that exist have been counted. -/
def Known (D : Accdata) : Prop := ∀ i, classOrder.length ≤ i → D.large_class i = ⟨0, 0⟩

theorem readConfLoop_large : ∀ (fuel : Nat) (file : List Nat) (D : Accdata) (r : Accdata × List Nat),
    readConfLoop fuel file D = .ok r → r.1.large_class = D.large_class := by
  intro fuel
  induction fuel with
  | zero =>
    intro file D r h
    rw [readConfLoop.eq_def] at h
    simp only at h
    split at h
    · have := Res.ok.inj h; subst this; rfl
    · simp at h
  | succ fuel ih =>
    intro file D r h
    rw [readConfLoop.eq_def] at h
    simp only at h
    split at h
    · have := Res.ok.inj h; subst this; rfl
    · obtain ⟨key, hkey, h⟩ := bind_eq_ok.1 h
      exact (ih _ _ _ h).trans rfl

theorem Known.add_class {D D' : Accdata} (h : Known D) {v : Nat} {c m : Int} (e : add_class D v c m = .ok D') : Known D' := by
  unfold Acc.add_class at e
  obtain ⟨k, hk, e⟩ := bind_eq_ok.1 e
  have hlt := charclass_lt hk
  split at e
  · have := Res.ok.inj e
    subst this
    intro i hi
    simp only
    rw [if_neg (by omega)]
    exact h i hi
  · cases e

theorem readClassLoop_known : ∀ (fuel : Nat) (file : List Nat) (D D' : Accdata),
    readClassLoop fuel file D = .ok D' → Known D → Known D' := by
  intro fuel
  induction fuel with
  | zero =>
    intro file D r h hk
    rw [readClassLoop.eq_def] at h
    simp only at h
    split at h
    · have := Res.ok.inj h; subst this; exact hk
    · simp at h
  | succ fuel ih =>
    intro file D r h hk
    rw [readClassLoop.eq_def] at h
    simp only at h
    split at h
    · have := Res.ok.inj h; subst this; exact hk
    · obtain ⟨_, _, h⟩ := bind_eq_ok.1 h
      obtain ⟨_, _, h⟩ := bind_eq_ok.1 h
      split at h
      · simp at h
      · obtain ⟨D1, h1, h⟩ := bind_eq_ok.1 h
        exact ih _ _ _ h (hk.add_class h1)

theorem read_known {D E : Accdata} {file : List Nat} (h : read_accrpt D file = .ok E) (hk : Known D) : Known E := by
  unfold read_accrpt at h
  split at h
  · simp at h
  · obtain ⟨f, _, h⟩ := bind_eq_ok.1 h
    obtain ⟨⟨D1, f1⟩, h1, h⟩ := bind_eq_ok.1 h
    simp only at h
    have k1 : Known D1 := by
      unfold readConfs at h1
      split at h1
      · split at h1
        · have := readConfLoop_large _ _ _ _ h1
          intro i hi
          rw [show D1.large_class = _ from this]
          exact hk i hi
        · have := Res.ok.inj h1; simp only [Prod.mk.injEq] at this; rw [← this.1]; exact hk
      · have := Res.ok.inj h1; simp only [Prod.mk.injEq] at this; rw [← this.1]; exact hk
    unfold readClasses at h
    split at h
    · split at h
      · exact readClassLoop_known _ _ _ _ h k1
      · have := Res.ok.inj h; rw [← this]; exact k1
    · have := Res.ok.inj h; rw [← this]; exact k1

theorem readAll_known : ∀ (files : List (List Nat)) (D E : Accdata), readAll D files = .ok E → Known D → Known E := by
  intro files
  induction files with
  | nil => intro D E h hk; have := Res.ok.inj h; subst this; exact hk
  | cons f fs ih =>
    intro D E h hk
    rw [readAll] at h
    obtain ⟨D1, h1, h⟩ := bind_eq_ok.1 h
    exact ih _ _ h (read_known h1 hk)

end Ocr.Acc

namespace Ocr.Wac
open Text Res Spec

variable {pct : Int → Int → List Nat}

theorem write_wac_row (w : Wac) (s : List Nat) : write_wac pct w ++ s ++ [10] = countRow pct w.count w.missed s := by
  simp [write_wac, countRow, row, num, share, write_pct, List.intercalate]

theorem filter_flatMap {α β : Type} (p : α → Prop) [DecidablePred p] (f : α → List β) (l : List α) :
    l.flatMap (fun x => if p x then f x else []) = (l.filter (fun x => decide (p x))).flatMap f := by
  induction l with
  | nil => rfl
  | cons x l ih =>
    rw [List.flatMap_cons, ih, List.filter_cons]
    by_cases h : p x
    · rw [if_pos h, if_pos (by simpa using h), List.flatMap_cons]
    · rw [if_neg h, if_neg (by simpa using h)]; rfl

theorem write_numbers_text (wac : Nat → Wac) (limit : Nat) (title : String) (excess total : Bool) :
    write_numbers pct wac limit title excess total = numbersText pct title (if excess then "Occurs" else "Length") wac limit
      (if excess then some (wac (limit + 1)) else none) (if total then some (wac 0) else none) := by
  unfold write_numbers numbersText
  have e1 : ascii "\n" = [10] := by decide
  have e2 : ascii "\n   Count   Missed   %Right   " = [10] ++ write_heading := by decide
  have e3 : TOTAL = ascii " Total" ++ [10] := by decide
  have e4 : ∀ (w : Wac) (a b : List Nat), write_wac pct w ++ a ++ b ++ [10] = countRow pct w.count w.missed (a ++ b) := by
    intro w a b
    rw [List.append_assoc (write_wac pct w), write_wac_row]
  simp only [e4]
  rw [filter_flatMap (fun i => 0 < (wac i).count) (fun i : Nat => countRow pct (wac i).count (wac i).missed (ascii "    " ++ fmtLong 2 i))]
  rw [e1, e2, e3, ← List.append_assoc (write_wac pct (wac 0)), write_wac_row]
  cases excess <;> cases total <;> simp only [List.append_assoc] <;> simp

theorem write_terms_text {t : List Term} (hk : (t.map Term.key).Nodup) (hn : NulTable t) (title : String) :
    ∃ s, s.Perm t ∧ s.Pairwise (fun x y => x.key < y.key) ∧ write_terms pct t title = .ok (termsText pct title s) := by
  have p1 := Store.in_array_perm Term.key t
  obtain ⟨s, s1, _, s3, s4⟩ := c04_terms_by_key (Store.in_array Term.key t) _ (.refl _)
    ⟨(p1.map Term.key).nodup_iff.2 hk, fun c hc => hn c (p1.mem_iff.1 hc)⟩ _ (Nat.le_refl _)
  refine ⟨s, s3.trans p1, s4, ?_⟩
  unfold write_terms
  simp only [s1, bind_ok, pure_eq]
  refine congrArg Res.ok ?_
  unfold termsText
  have e1 : ascii "\n" = [10] := by decide
  have e2 : ascii "\n   Count   Missed   %Right   \n" = [10] ++ write_heading ++ [10] := by decide
  simp only [write_wac_row]
  simp only [e1, e2, List.append_assoc]

theorem layout (D : Wacdata) (k1 : (D.stopword_table.map Term.key).Nodup) (k2 : (D.non_stopword_table.map Term.key).Nodup)
    (n1 : NulTable D.stopword_table) (n2 : NulTable D.non_stopword_table) :
    ∃ s1 s2, s1.Perm D.stopword_table ∧ s1.Pairwise (fun x y => x.key < y.key) ∧ s2.Perm D.non_stopword_table ∧
      s2.Pairwise (fun x y => x.key < y.key) ∧ write_wacrpt pct D = .ok (wordaccText pct D s1 s2) := by
  obtain ⟨s1, a1, a2, a3⟩ := write_terms_text (pct := pct) k1 n1 "Stopwords"
  obtain ⟨s2, b1, b2, b3⟩ := write_terms_text (pct := pct) k2 n2 "Non-stopwords"
  refine ⟨s1, s2, a1, a2, b1, b2, ?_⟩
  have ht : write_top pct D = ascii "ocreval Word Accuracy Report Version 7.0\n" ++
      ascii "----------------------------------------\n" ++
      row [num D.total.count] (ascii "Words") ++
      row [num D.total.missed] (ascii "Misrecognized") ++
      share pct (D.total.count - D.total.missed) D.total.count ++ ascii "%  Accuracy\n" ++
      numbersText pct "Stopwords" "Length" D.stopword 50 none (some (D.stopword 0)) ++
      numbersText pct "Non-stopwords" "Length" D.non_stopword 50 none (some (D.non_stopword 0)) ++
      numbersText pct "Distinct Non-stopwords" "Occurs" D.distinct_non_stopword 10 (some (D.distinct_non_stopword 11))
        (some (D.distinct_non_stopword 0)) := by
    unfold write_top
    simp only [write_numbers_text, Acc.write_value_row]
    rfl
  unfold write_wacrpt wordaccText
  rw [ht]
  by_cases hc : D.total.count > 0
  · rw [if_pos hc, if_pos hc]
    have hp : write_numbers pct D.phrase MAX_PHRASELENGTH "Phrases" false false = numbersText pct "Phrases" "Length" D.phrase 8 none none := by
      rw [write_numbers_text]; rfl
    rw [hp]
    by_cases h1 : (D.stopword 0).count > 0 <;> by_cases h2 : (D.non_stopword 0).count > 0
    · simp only [if_pos h1, if_pos h2, a3, b3, bind_ok, pure_eq, List.append_assoc]
    · simp only [if_pos h1, if_neg h2, a3, bind_ok, pure_eq, List.append_assoc]
    · simp only [if_neg h1, if_pos h2, b3, bind_ok, pure_eq, List.append_assoc, List.nil_append]
    · simp only [if_neg h1, if_neg h2, bind_ok, pure_eq, List.append_assoc, List.nil_append]
  · rw [if_neg hc, if_neg hc, List.append_nil]
    rfl

end Ocr.Wac

namespace Ocr.Edo
open Text Res Spec

theorem layout (D : Edodata) : write_edorpt D = editopText D := by
  have hm : ∀ is : List Nat, write_moves D is = (is.filter (fun i => 0 < D.moves i)).flatMap (fun i =>
      num (D.moves i) ++ [32] ++ num i ++ [10]) := by
    intro is
    induction is with
    | nil => rfl
    | cons i is ih =>
      rw [write_moves, ih, List.filter_cons]
      by_cases h : D.moves i > 0
      · rw [if_pos h, if_pos (by simpa using h), List.flatMap_cons]; rfl
      · rw [if_neg h, if_neg (by simpa using h)]; rfl
  unfold write_edorpt editopText
  rw [hm]
  simp only [Acc.write_value_row]
  rfl

end Ocr.Edo
