import Verif.Spec.Options
import Verif.Spec.Groupacc
import Verif.Proof.Ngram
import Verif.Proof.ReadValues
import Verif.Props.Accrpt
import Verif.Props.Word
import Verif.Props.Wacrpt
import Verif.Props.Wordacc
import Verif.Proof.Tally

/-!
# C50: nonstopacc.  C51: groupacc.
-/

namespace Ocr.Groupacc
open Text Charclass Acc Res

theorem loop_spec {U} (F : UnicodeFacts U) (pct : Int → Int → List Nat) (D : Accdata) (str : Nat → List Nat)
    (hstr : ∀ v, v < 0x110000 → char_to_string U STRING_SIZE false v true = .ok (str v)) : ∀ (text : List Ch) (a b : Int),
    (∀ c ∈ text, c.value < 0x10FFFF) →
    reportLoop U pct D text a b = .ok ((listed D (text.map Ch.value)).flatMap (fun v => line pct D (str v) v) ++
      totalLine pct (a + ((listed D (text.map Ch.value)).map (fun v => (D.small_class v).count)).sum)
        (b + ((listed D (text.map Ch.value)).map (fun v => (D.small_class v).missed)).sum)) := by
  intro text
  induction text with
  | nil =>
    intro a b _
    unfold reportLoop write_line totalLine
    simp only [List.map_nil, listed, List.filter_nil, List.flatMap_nil, List.nil_append, List.sum_nil, Int.add_zero]
    split
    · rw [show ascii "  ------   " = ascii "  ------" ++ ascii "   " from rfl]
      simp only [List.append_assoc]
      rfl
    · simp only [List.append_assoc]
      rfl
  | cons c text ih =>
    intro a b hv
    have hc := hv c (by simp)
    have ih := fun a b => ih a b (fun x hx => hv x (by simp [hx]))
    unfold reportLoop
    rw [if_pos (show c.value < NUM_CHARVALUES from hc)]
    by_cases h : (D.small_class c.value).count > 0 ∧ c.value ≠ BLANK ∧ c.value ≠ NEWLINE
    · rw [if_pos h, hstr c.value (by omega), bind_ok, ih, bind_ok]
      have hl : listed D ((c :: text).map Ch.value) = c.value :: listed D (text.map Ch.value) := by
        unfold listed
        rw [List.map_cons, List.filter_cons_of_pos]
        simp only [ne_eq, Bool.and_eq_true, decide_eq_true_eq]
        exact ⟨⟨h.2.1, h.2.2⟩, h.1⟩
      rw [hl]
      simp only [List.flatMap_cons, List.map_cons, List.sum_cons, pure_eq, ← Int.add_assoc]
      have hb : cstr (str c.value) = str c.value := by
        have h1 := (Ngram.char_to_string_plain (U := U) (v := c.value) (by omega)).1
        rw [hstr c.value (by omega)] at h1
        rw [Res.ok.inj h1]
        exact Ngram.tok_cstr F (by omega)
      rw [hb]
      refine congrArg Res.ok ?_
      rw [List.append_assoc _ _ (totalLine _ _ _)]
      refine congr (congrArg _ ?_) rfl
      unfold write_line line
      rw [if_neg (by omega), show ascii "   {" = ascii "   " ++ ascii "{" from rfl]
      simp only [List.append_assoc]
      rfl
    · rw [if_neg h, ih]
      have hl : listed D ((c :: text).map Ch.value) = listed D (text.map Ch.value) := by
        unfold listed
        rw [List.map_cons, List.filter_cons_of_neg]
        simp only [ne_eq, Bool.and_eq_true, decide_eq_true_eq]
        intro h'
        exact h ⟨h'.2, h'.1.1, h'.1.2⟩
      rw [hl]

theorem strings_exist (U : Unicode) : ∃ str : Nat → List Nat, ∀ v, v < 0x110000 →
    char_to_string U STRING_SIZE false v true = .ok (str v) :=
  ⟨fun v => (Ngram.tok U v).flatMap encode_char, fun _ hv => (Ngram.char_to_string_plain hv).1⟩

/-- C51.  For every group text without U+10FFFF and all figures, the report has one line for each character of the group that
is neither blank nor newline and occurs in the accuracy report, in the order of the group and with the figures of the
character, and a last line with the sums of the listed figures. -/
theorem c51_report (U : Unicode) (F : UnicodeFacts U) (pct : Int → Int → List Nat) (text : List Ch) (D : Accdata)
    (hv : ∀ c ∈ text, c.value < 0x10FFFF) (str : Nat → List Nat)
    (hstr : ∀ v, v < 0x110000 → char_to_string U STRING_SIZE false v true = .ok (str v)) :
    write_report U pct text D = .ok (report pct D str (listed D (text.map Ch.value))) := by
  unfold write_report
  rw [loop_spec F pct D str hstr text 0 0 hv, bind_ok]
  unfold report
  simp only [Int.zero_add, pure_eq, List.append_assoc]

/-- C51 (program).  For the report written for any reportable data, and any group file that can be read and does not contain
U+10FFFF, the program prints the figures of that data. -/
theorem c51_program (U : Unicode) (F : UnicodeFacts U) (pct : Int → Int → List Nat) (hp : PctFormat pct) (junk : List Nat)
    (D : Accdata) (h : Reportable D) (group : List Nat) (text : List Ch) (opt : Textopt)
    (hr : read_text U junk [] group Spec.charList = .ok (text, opt)) (hv : ∀ c ∈ text, c.value < 0x10FFFF) (str : Nat → List Nat)
    (hstr : ∀ v, v < 0x110000 → char_to_string U STRING_SIZE false v true = .ok (str v)) :
    ∃ file, write_accrpt U pct D = .ok file ∧
      groupaccMain U pct junk group file = .ok (report pct D str (listed D (text.map Ch.value))) := by
  obtain ⟨file, E, h1, h2, h3⟩ := c28_round_trip U F pct hp D h
  refine ⟨file, h1, ?_⟩
  have hs : E.small_class = D.small_class := by rw [h3.1]
  unfold groupaccMain
  rw [show read_text U junk [] group textopt = _ from hr, bind_ok]
  simp only
  rw [h2, bind_ok, c51_report U F pct text E hv str hstr]
  unfold report listed line
  rw [hs]

/-- C51 (exception).  A group that contains U+10FFFF is looked up beyond the end of the array. -/
theorem c51_last (U : Unicode) (pct : Int → Int → List Nat) (D : Accdata) (s : Bool) (text : List Ch) :
    write_report U pct (⟨s, 0x10FFFF⟩ :: text) D = .ub := by
  unfold write_report reportLoop
  rw [if_neg (show ¬ 0x10FFFF < NUM_CHARVALUES by decide)]
  rfl

/-- C51 (repetitions).  A character listed `k` times counts `k` times. -/
theorem c51_repeated (pct : Int → Int → List Nat) (D : Accdata) (str : Nat → List Nat) (v k : Nat) :
    report pct D str (List.replicate k v) = ascii "   Count   Missed   %Right\n" ++
      (List.replicate k (line pct D (str v) v)).flatten ++
      totalLine pct (k * (D.small_class v).count) (k * (D.small_class v).missed) := by
  unfold report
  have hsum : ∀ x : Int, (List.replicate k x).sum = k * x := by
    intro x
    induction k with
    | zero => simp
    | succ k ih =>
      rw [List.replicate_succ, List.sum_cons, ih]
      push_cast
      rw [Int.add_mul]; omega
  rw [List.flatMap_replicate, List.map_replicate, List.map_replicate, hsum, hsum]

/-! Non-vacuity -/

/-- `e` occurs 5 times, twice wrong; `q` does not occur. -/
def sampleGroupData : Accdata :=
  { Accdata.zero with small_class := fun v => if v = 101 then ⟨5, 2⟩ else ⟨0, 0⟩ }

example : listed sampleGroupData (ascii "q e\n") = [101] := by decide
example : ∀ c ∈ (ascii "q e\n").map (fun v => (⟨false, v⟩ : Ch)), c.value < 0x10FFFF := by decide
example : read_text sampleUnicode [] [] (ascii "q e\n") textopt = .ok ((ascii "q e\n").map (fun v => ⟨false, v⟩), textopt) := by
  decide +kernel
example : ∃ str : Nat → List Nat, ∀ v, v < 0x110000 →
    char_to_string sampleUnicode STRING_SIZE false v true = .ok (str v) := strings_exist _
example : write_report sampleUnicode samplePct ((ascii "q e\n").map (fun v => ⟨false, v⟩)) sampleGroupData =
    .ok (ascii "   Count   Missed   %Right\n       5        2 " ++ samplePct 3 5 ++ ascii "   {e}\n       5        2 " ++
      samplePct 3 5 ++ ascii "   Total\n") := by decide +kernel

end Ocr.Groupacc

namespace Ocr.Nonstopacc
open Text Wac Res

theorem lookup_figures {t : List Term} (hnd : (t.map Term.key).Nodup) (w : List Nat) (count missed : Int) :
    find_stopword t w count missed = (count - termCount w t, missed - termMissed w t) := by
  unfold find_stopword termCount termMissed Store.lookup
  induction t with
  | nil => simp
  | cons x t ih =>
    rw [List.map_cons, List.nodup_cons] at hnd
    rw [List.find?_cons]
    by_cases h : x.key = w
    · have h0 : ∀ g : Term → Int, (t.map (fun c => if c.key = w then g c else 0)).sum = 0 := by
        intro g
        have : t.map (fun c => if c.key = w then g c else 0) = t.map (fun _ => (0 : Int)) := by
          apply List.map_congr_left
          intro c hc
          rw [if_neg]
          rintro rfl
          exact hnd.1 (h ▸ List.mem_map.2 ⟨c, hc, rfl⟩)
        rw [this]
        clear this ih hnd
        induction t with
        | nil => rfl
        | cons y t ih => simp
      simp [h, h0]
    · simpa [h] using ih hnd.2

/-- `takeWhile` on a range that starts later. -/
theorem lines_from (P : Nat → Bool) : ∀ (n i : Nat), (List.range' i (n + 1)).takeWhile P =
    if P i then i :: (List.range' (i + 1) n).takeWhile P else [] := by
  intro n i
  rw [List.range'_succ, List.takeWhile_cons]

theorem loop_spec (pct : Int → Int → List Nat) (D : Wacdata) (h1 : (D.stopword_table.map Term.key).Nodup)
    (h2 : (D.non_stopword_table.map Term.key).Nodup) (words : List (List Nat)) (f : Nat → Wac)
    (hf : ∀ i, f i = ⟨D.total.count - (figures D (words.take i)).count, D.total.missed - (figures D (words.take i)).missed⟩) :
    ∀ (rest : List (List Nat)) (i : Nat), i + rest.length = words.length → rest = words.drop i →
    resultLoop pct D (rest.map some) (i + 1) (f i).count (f i).missed = .ok
      (((List.range' (i + 1) rest.length).takeWhile (fun i => decide ((f i).count ≠ 0))).flatMap
        (fun i : Nat => fmtLong 3 i ++ ascii " " ++ pct ((f i).count - (f i).missed) (f i).count ++ ascii "\n")) := by
  intro rest
  induction rest with
  | nil => intro i _ _; rfl
  | cons w rest ih =>
    intro i hi hd
    have hfi : f (i + 1) = ⟨(f i).count - termCount w D.stopword_table - termCount w D.non_stopword_table,
        (f i).missed - termMissed w D.stopword_table - termMissed w D.non_stopword_table⟩ := by
      have hlt : i < words.length := by simp only [List.length_cons] at hi; omega
      have hw : words[i] = w := by
        have := List.getElem_cons_drop hlt
        rw [← hd] at this
        exact (List.cons.inj this).1
      rw [hf, hf, List.take_succ_eq_append_getElem hlt, hw]
      unfold figures
      simp only [List.map_append, List.map_cons, List.map_nil, List.sum_append, List.sum_cons, List.sum_nil]
      refine congr (congrArg _ ?_) ?_ <;> omega
    rw [List.map_cons]
    unfold resultLoop
    rw [lookup_figures h1]
    simp only
    rw [lookup_figures h2]
    simp only
    have hc : (f i).count - termCount w D.stopword_table - termCount w D.non_stopword_table = (f (i + 1)).count := by rw [hfi]
    have hm : (f i).missed - termMissed w D.stopword_table - termMissed w D.non_stopword_table = (f (i + 1)).missed := by rw [hfi]
    rw [hc, hm, List.length_cons, lines_from]
    by_cases h0 : (f (i + 1)).count = 0
    · rw [if_pos h0, if_neg (by simp [h0])]; rfl
    · rw [if_neg h0, if_pos (by simp [h0]), ih (i + 1) (by simp only [List.length_cons] at hi; omega) (by
        rw [← List.drop_drop, ← hd]; rfl), bind_ok]
      rfl

/-- C50 (general).  If no word is twice in a table of the report, line `i` shows the accuracy for the totals minus the figures
of the first `i` listed words, each subtracted as often as it is listed; the lines end before the first with no words
left. -/
theorem c50_general (pct : Int → Int → List Nat) (D : Wacdata) (h1 : (D.stopword_table.map Term.key).Nodup)
    (h2 : (D.non_stopword_table.map Term.key).Nodup) (words : List (List Nat)) :
    write_results pct D (words.map some) = .ok (lines pct (fun i =>
      ⟨D.total.count - (figures D (words.take i)).count, D.total.missed - (figures D (words.take i)).missed⟩) words.length) := by
  have h := loop_spec pct D h1 h2 words _ (fun _ => rfl) words 0 (by simp) rfl
  have e0 : (⟨D.total.count - (figures D (words.take 0)).count, D.total.missed - (figures D (words.take 0)).missed⟩ : Wac) = D.total := by
    simp [figures]
  unfold write_results lines
  rw [List.range_eq_range', lines_from]
  by_cases h0 : D.total.count = 0
  · rw [if_pos h0, if_neg]
    · rfl
    · simp [figures, h0]
  · rw [if_neg h0, if_pos (by simp [figures, h0])]
    have e1 : D.total.count - (figures D (words.take 0)).count = D.total.count := congrArg Wac.count e0
    have e2 : D.total.missed - (figures D (words.take 0)).missed = D.total.missed := congrArg Wac.missed e0
    simp only at h
    rw [e1, e2] at h
    simp only [Nat.zero_add] at h ⊢
    rw [h, bind_ok, List.flatMap_cons]
    simp only [e1, e2]
    rfl

theorem filter_sum (g : Term → Int) (ws : List (List Nat)) (hnd : ws.Nodup) : ∀ (t : List Term),
    (t.map g).sum - (ws.map (fun w => (t.map (fun c => if c.key = w then g c else 0)).sum)).sum =
      ((t.filter (fun c => decide (c.key ∉ ws))).map g).sum := by
  intro t
  induction t with
  | nil =>
    have : ∀ ws : List (List Nat), (ws.map (fun _ => (0 : Int))).sum = 0 := by
      intro ws; induction ws with
      | nil => rfl
      | cons w ws ih => simp
    simp
  | cons x t ih =>
    have hs : (ws.map (fun w => ((x :: t).map (fun c => if c.key = w then g c else 0)).sum)).sum =
        (if x.key ∈ ws then g x else 0) + (ws.map (fun w => (t.map (fun c => if c.key = w then g c else 0)).sum)).sum := by
      clear ih
      induction ws with
      | nil => simp
      | cons w ws ih =>
        rw [List.nodup_cons] at hnd
        have ih := ih hnd.2
        simp only [List.map_cons, List.sum_cons] at ih ⊢
        rw [ih]
        by_cases hx : x.key = w
        · rw [if_pos hx, if_neg (by rw [hx]; exact hnd.1), if_pos (by simp [hx])]; omega
        · rw [if_neg hx]
          by_cases hm : x.key ∈ ws
          · rw [if_pos hm, if_pos (by simp [hm])]; omega
          · rw [if_neg hm, if_neg (by simp [hm, hx])]; omega
    rw [hs, List.map_cons, List.sum_cons]
    by_cases hm : x.key ∈ ws
    · rw [if_pos hm, List.filter_cons_of_neg (by simpa using hm), ← ih]; omega
    · rw [if_neg hm, List.filter_cons_of_pos (by simpa using hm), List.map_cons, List.sum_cons, ← ih]; omega

theorem others_eq {D : Wacdata} (h : Consistent D) {ws : List (List Nat)} (hnd : ws.Nodup) :
    others D ws = ⟨D.total.count - (figures D ws).count, D.total.missed - (figures D ws).missed⟩ := by
  rw [h.total]
  unfold others figures termCount termMissed
  have hsum : ∀ (a b : List Nat → Int), (ws.map (fun w => a w + b w)).sum = (ws.map a).sum + (ws.map b).sum := by
    intro a b
    clear hnd
    induction ws with
    | nil => rfl
    | cons w ws ih => simp only [List.map_cons, List.sum_cons, ih]; omega
  have key : ∀ g : Term → Int, (((D.stopword_table ++ D.non_stopword_table).filter (fun t => decide (t.key ∉ ws))).map g).sum =
      (((D.stopword_table ++ D.non_stopword_table).filter (fun t => decide (t.key ∉ ([] : List (List Nat))))).map g).sum -
      (ws.map (fun w => (D.stopword_table.map (fun c => if c.key = w then g c else 0)).sum +
        (D.non_stopword_table.map (fun c => if c.key = w then g c else 0)).sum)).sum := by
    intro g
    have e : (D.stopword_table ++ D.non_stopword_table).filter (fun t => decide (t.key ∉ ([] : List (List Nat)))) =
        D.stopword_table ++ D.non_stopword_table := by
      rw [List.filter_eq_self]; simp
    rw [e, ← filter_sum g ws hnd, hsum]
    have hsum2 : (ws.map (fun w => ((D.stopword_table ++ D.non_stopword_table).map (fun c => if c.key = w then g c else 0)).sum)).sum =
        (ws.map (fun w => (D.stopword_table.map (fun c => if c.key = w then g c else 0)).sum)).sum +
        (ws.map (fun w => (D.non_stopword_table.map (fun c => if c.key = w then g c else 0)).sum)).sum := by
      rw [← hsum]
      simp only [List.map_append, List.sum_append]
    rw [hsum2]
  exact congr (congrArg _ (key Term.count)) (key Term.missed)

/-- C50.  If the stopword file lists no word twice, line `i` shows the accuracy over all words other than the first `i`
listed; the lines end before the first for which no word is left. -/
theorem c50_exact (pct : Int → Int → List Nat) (D : Wacdata) (h : Consistent D) (words : List (List Nat)) (hnd : words.Nodup) :
    write_results pct D (words.map some) = .ok (lines pct (fun i => others D (words.take i)) words.length) := by
  rw [c50_general pct D h.nodup1 h.nodup2 words]
  refine congrArg (fun f => Res.ok (lines pct f words.length)) ?_
  funext i
  exact (others_eq h ((List.take_sublist i words).nodup hnd)).symm

theorem others_perm {D E : Wacdata} (h : D.Same E) (ws : List (List Nat)) : others E ws = others D ws := by
  have hp := (h.2.1.append h.2.2).symm
  unfold others
  rw [((hp.filter _).map Term.count).sum_eq, ((hp.filter _).map Term.missed).sum_eq]

/-- C50 (program).  For the report written for any consistent reportable data, and any file of stopwords that can be read and
lists no word twice, the program prints the accuracies over the words other than the first `i` listed. -/
theorem c50_program (U : Unicode) (prop : Nat → Word.WB) (nfc : List Nat → Option (List Nat)) (pct8 pct : Int → Int → List Nat)
    (hp : Acc.PctFormat pct8) (junk : List Nat) (junk' : Nat) (D : Wacdata) (hr : Reportable D) (h : Consistent D)
    (stopwords : List Nat) (text : List Ch) (opt : Textopt) (words : List (List Nat))
    (h1 : read_text U junk [] stopwords Spec.wordList = .ok (text, opt))
    (h2 : Word.find_words U prop nfc junk' text = .ok (words.map some)) (hnd : words.Nodup) :
    ∃ file, write_wacrpt pct8 D = .ok file ∧
      nonstopaccMain U prop nfc pct junk junk' stopwords file = .ok (lines pct (fun i => others D (words.take i)) words.length) := by
  obtain ⟨file, E, e1, e2, e3⟩ := c30_round_trip pct8 hp D hr
  refine ⟨file, e1, ?_⟩
  have hE : Consistent E := by
    refine ⟨((e3.2.1.map Term.key).nodup_iff).1 h.nodup1, ((e3.2.2.map Term.key).nodup_iff).1 h.nodup2, ?_⟩
    rw [others_perm e3, ← h.total, e3.1]
  unfold nonstopaccMain
  rw [show read_text U junk [] stopwords textopt = _ from h1, bind_ok]
  simp only
  rw [h2, bind_ok, e2, bind_ok, c50_exact pct E hE words hnd]
  refine congrArg (fun f => Res.ok (lines pct f words.length)) ?_
  funext i
  exact others_perm e3 _

theorem table_sum {p : List Nat → Bool} {ws : List (List Nat × Bool)} {t : List Term} (h : Wordacc.TableOf p ws t)
    (L : List (List Nat)) (g : Term → Int) (q : List Nat × Bool → Bool)
    (hg : ∀ x ∈ t, g x = ws.countP (fun y => decide (y.1 = x.key) && q y)) :
    ((t.filter (fun x => decide (x.key ∉ L))).map g).sum = ws.countP (fun y => (p y.1 && decide (y.1 ∉ L)) && q y) := by
  have hs := Store.sum_counts (fun y : List Nat × Bool => y.1) q (ws.filter (fun y => p y.1 && decide (y.1 ∉ L)))
    ((t.filter (fun x => decide (x.key ∉ L))).map Term.key) ((List.filter_sublist.map Term.key).nodup h.nodup) (by
      intro y hy
      rw [List.mem_filter, Bool.and_eq_true, decide_eq_true_eq] at hy
      obtain ⟨x, hx, ex⟩ := List.mem_map.1 ((h.keys y.1).2 ⟨List.mem_map.2 ⟨y, hy.1, rfl⟩, hy.2.1⟩)
      exact List.mem_map.2 ⟨x, List.mem_filter.2 ⟨hx, by rw [decide_eq_true_eq, ex]; exact hy.2.2⟩, ex⟩)
  have e : ws.countP (fun y => (p y.1 && decide (y.1 ∉ L)) && q y) = (ws.filter (fun y => p y.1 && decide (y.1 ∉ L))).countP q := by
    rw [List.countP_filter]
    refine List.countP_congr ?_
    intro y _
    simp [Bool.and_comm]
  rw [e, ← hs, Store.cast_sum, List.map_map, List.map_map]
  refine congrArg List.sum (List.map_congr_left ?_)
  intro x hx
  rw [List.mem_filter, decide_eq_true_eq] at hx
  rw [hg x hx.1]
  have hpk : p x.key = true := ((h.keys x.key).1 (List.mem_map_of_mem hx.1)).2
  simp only [Function.comp, List.countP_filter]
  refine congrArg _ (List.countP_congr ?_)
  intro y _
  simp only [Bool.and_eq_true, decide_eq_true_eq]
  constructor
  · rintro ⟨hk, hq⟩; exact ⟨⟨hk, hq⟩, by rw [hk]; exact ⟨hpk, hx.2⟩⟩
  · rintro ⟨h, _⟩; exact h

theorem others_exact {stop : List Nat → Bool} {ws : List (List Nat × Bool)} {D : Wacdata} (h : Wordacc.Exact stop ws D)
    (L : List (List Nat)) : others D L = Wordacc.tally (fun w => decide (w ∉ L)) ws := by
  have hc : ∀ (p : List Nat → Bool) t, Wordacc.TableOf p ws t → ∀ x ∈ t, x.count = ws.countP (fun y => decide (y.1 = x.key) && true) := by
    intro p t ht x hx; rw [(ht.entry x hx).1]; simp
  have hm : ∀ (p : List Nat → Bool) t, Wordacc.TableOf p ws t → ∀ x ∈ t, x.missed = ws.countP (fun y => decide (y.1 = x.key) && !y.2) := by
    intro p t ht x hx; rw [(ht.entry x hx).2]
  have split : ∀ q : List Nat × Bool → Bool, ws.countP (fun y => (stop y.1 && decide (y.1 ∉ L)) && q y) +
      ws.countP (fun y => (!stop y.1 && decide (y.1 ∉ L)) && q y) = ws.countP (fun y => decide (y.1 ∉ L) && q y) := by
    intro q
    clear hc hm h
    induction ws with
    | nil => rfl
    | cons y ws ih =>
      simp only [List.countP_cons, ← ih]
      cases stop y.1 <;> simp <;> omega
  unfold others Wordacc.tally
  have s1 := split (fun _ => true)
  have s2 := split (fun y => !y.2)
  rw [List.filter_append, List.map_append, List.map_append, List.sum_append, List.sum_append,
    table_sum h.table1 L Term.count _ (hc _ _ h.table1), table_sum h.table2 L Term.count _ (hc _ _ h.table2),
    table_sum h.table1 L Term.missed _ (hm _ _ h.table1), table_sum h.table2 L Term.missed _ (hm _ _ h.table2)]
  simp only [Bool.and_true] at s1 ⊢
  refine congr (congrArg _ ?_) ?_ <;> omega

/-- C50 (end to end).  For the data that wordacc computes from two sequences of words, line `i` shows the accuracy over the
occurrences, in the correct text, of the words other than the first `i` listed. -/
theorem c50_wordacc (pct : Int → Int → List Nat) (stop : List Nat → Bool) (u v : List (List Nat))
    (hw : ∀ w ∈ u, 1 ≤ w.length ∧ w.length ≤ 50) (hm : (u.filter (fun w => decide (w ∈ v))).length ≤ 65535)
    (words : List (List Nat)) (hnd : words.Nodup) :
    ∃ flags D, Wordacc.recognize u v = .ok flags ∧ Wordacc.wordacc stop u v = .ok D ∧ Consistent D ∧
      write_results pct D (words.map some) =
        .ok (lines pct (fun i => Wordacc.tally (fun w => decide (w ∉ words.take i)) (u.zip flags)) words.length) := by
  obtain ⟨flags, D, e1, _, _, e2, hD⟩ := Wordacc.c33_exact stop u v hw hm
  have hC : Consistent D := ⟨hD.table1.nodup, hD.table2.nodup, by rw [others_exact hD, hD.total]; simp⟩
  refine ⟨flags, D, e1, e2, hC, ?_⟩
  rw [c50_exact pct D hC words hnd]
  refine congrArg (fun f => Res.ok (lines pct f words.length)) ?_
  funext i
  exact others_exact hD _

/-! Non-vacuity -/

def sampleWac : Wacdata :=
  { Wacdata.zero with
    total := ⟨6, 2⟩, stopword_table := [⟨ascii "the", 3, 1⟩, ⟨ascii "a", 1, 0⟩], non_stopword_table := [⟨ascii "cat", 2, 1⟩] }

example : Consistent sampleWac := ⟨by decide, by decide, by decide⟩
example : ([ascii "the", ascii "cat"] : List (List Nat)).Nodup := by decide
example : others sampleWac [ascii "the"] = ⟨3, 1⟩ := by decide

/-- The stopword file "the\ncat\n" and the report of `Wac.sampleData`. -/
example : ∃ file, write_wacrpt Acc.samplePct sampleData = .ok file ∧
    nonstopaccMain sampleUnicode Word.wbProp some Acc.samplePct [] 0 (ascii "the\ncat\n") file =
      .ok (ascii "  0 " ++ Acc.samplePct 2 3 ++ ascii "\n  1 " ++ Acc.samplePct 1 1 ++ ascii "\n") := by
  obtain ⟨file, h1, h2⟩ := c50_program sampleUnicode Word.wbProp some Acc.samplePct Acc.samplePct Acc.samplePct_format [] 0 sampleData
    sampleData_reportable ⟨by decide, by decide, by decide⟩ (ascii "the\ncat\n")
    ((ascii "the\ncat\n").map (fun v => ⟨false, v⟩)) textopt [ascii "the", ascii "cat"] (by decide +kernel) (by decide +kernel) (by decide)
  exact ⟨file, h1, by rw [h2]; decide +kernel⟩

example : ∃ flags D, Wordacc.recognize Wordacc.sampleWords0 Wordacc.sampleWords1 = .ok flags ∧
    Wordacc.wordacc Wordacc.sampleStop Wordacc.sampleWords0 Wordacc.sampleWords1 = .ok D ∧ Consistent D := by
  obtain ⟨flags, D, h1, h2, h3, _⟩ := c50_wordacc Acc.samplePct Wordacc.sampleStop Wordacc.sampleWords0 Wordacc.sampleWords1
    (by decide) (by decide) [ascii "the"] (by decide)
  exact ⟨flags, D, h1, h2, h3⟩

/-- With a word listed twice the figures are wrong. -/
example : write_results Acc.samplePct sampleWac ([ascii "a", ascii "a"].map some) =
    .ok (ascii "  0 " ++ Acc.samplePct 4 6 ++ ascii "\n  1 " ++ Acc.samplePct 3 5 ++ ascii "\n  2 " ++ Acc.samplePct 2 4 ++ ascii "\n") := by
  decide +kernel

end Ocr.Nonstopacc
