import Verif.Proof.AccOrder
import Verif.Props.Accuracy

/-!
# C28, C29: accuracy reports are read back exactly, and accsum adds them
-/

namespace Ocr.Acc
open Text Sync Charclass Res Report

theorem sum_tiles (t0 : List Ch) : ∀ (l : List Sync) (p q a b : Int), Tiles p (l.map (·.sub 0)) a → Tiles q (l.map (·.sub 1)) b →
    (l.map (itemErrors t0)).sum ≤ (a - p) + (b - q) := by
  intro l
  induction l with
  | nil => intro p q a b h0 h1; simp only [List.map_nil, Tiles] at h0 h1; simp; omega
  | cons s l ih =>
    intro p q a b h0 h1
    simp only [List.map_cons, Tiles] at h0 h1
    have := ih _ _ _ _ h0.2.2.2 h1.2.2.2
    have hs : itemErrors t0 s ≤ (s.sub 0).length + (s.sub 1).length := by
      unfold itemErrors
      split
      · omega
      · have h1 : (nonreject (piece t0 (s.sub 0))).length ≤ (s.sub 0).length.toNat := by
          unfold nonreject
          refine (List.length_filter_le _ _).trans ?_
          rw [List.length_map]
          unfold piece
          rw [List.length_take]; omega
        omega
    rw [List.map_cons, List.sum_cons]; omega

/-- C28.  A report written for consistent data with counts below 10^8 is read back exactly (the order of the confusions
within the table is not restored). -/
theorem c28_round_trip (U : Unicode) (F : UnicodeFacts U) (pct : Int → Int → List Nat) (hp : PctFormat pct) (D : Accdata)
    (h : Reportable D) :
    ∃ file E, write_accrpt U pct D = .ok file ∧ read_accrpt Accdata.zero file = .ok E ∧ D.Same E := round_trip F hp h

/-- C28 (accuracy).  The figures computed by the accuracy program for any texts with less than 10^8 characters in total
(the correct one without U+10FFFF) are read back exactly from the report. -/
theorem c28_accuracy (U : Unicode) (F : UnicodeFacts U) (pct : Int → Int → List Nat) (hp : PctFormat pct) (t0 t1 : List Ch)
    (h0 : InTables t0) (h1 : CodePoints t1) (hl : t0.length + t1.length < 10^8) :
    ∃ D file E, accuracy U t0 t1 = .ok D ∧ write_accrpt U pct D = .ok file ∧ read_accrpt Accdata.zero file = .ok E ∧ D.Same E := by
  obtain ⟨D, items, hD, hA, _, hR⟩ := c21_exact U t0 t1 h0 h1
  obtain ⟨D', hD', hC⟩ := c21_consistent U t0 t1 h0 h1
  have : D' = D := by rw [hD] at hD'; exact (Res.ok.inj hD').symm
  subst this
  have hc : D'.characters < 10^8 := by
    rw [hC.characters]
    have : (nonreject t0).length ≤ t0.length := by
      unfold nonreject; refine (List.length_filter_le _ _).trans ?_; rw [List.length_map]
    omega
  have he : D'.errors < 10^8 := by
    rw [hR.errors]
    have := sum_tiles t0 items 0 0 _ _ (hA.tiles 0 (by simp)) (hA.tiles 1 (by simp))
    simp only [List.getElem_cons_zero, List.getElem_cons_succ, values, List.length_map] at this
    omega
  obtain ⟨file, E, e1, e2, e3⟩ := round_trip F hp (accuracy_reportable F h0 h1 hD hc he (by omega))
  exact ⟨D', file, E, hD, e1, e2, e3⟩

/-- C28 (exception).  The line of a confusion with 10^8 or more errors is one column too wide: the confusion is entered
under another key, which has a space in front. -/
theorem c28_wide (c : Conf) (s : List Nat) (hk : c.key = s ++ [10]) (h10 : 10 ∉ s) (h0 : 0 ∉ s) (hs : s.length ≤ 76)
    (he : 10^8 ≤ c.errors ∧ c.errors < 10^9) (hm : 0 ≤ c.marked ∧ c.marked < 10^8) (D : Accdata) (rest : List Nat) (fuel : Nat) :
    readConfLoop (fuel + 1) (write_conf c ++ rest) D = readConfLoop fuel rest (add_conf D (32 :: c.key) c.errors c.marked) := by
  have w1 := fmtLong_len9 he.1 he.2
  have w2 := fmtLong_len8 hm.1 hm.2
  have e3 : ascii "   " = [32, 32, 32] := by decide
  have hp : Plain s := fun b hb => ⟨fun e => h10 (e ▸ hb), fun e => h0 (e ▸ hb)⟩
  have hline : Line (fmtLong 8 c.errors ++ [32] ++ fmtLong 8 c.marked ++ ([32, 32, 32] ++ s)) := by
    apply Plain.line
    · refine (((plain_fmt _ _).append plain_sp).append (plain_fmt _ _)).append (Plain.append ?_ hp)
      rw [← e3]; exact plain_ascii (by decide)
    · simp only [List.length_append, List.length_cons, List.length_nil, w1, w2]; omega
  have e : write_conf c ++ rest =
      fmtLong 8 c.errors ++ [32] ++ fmtLong 8 c.marked ++ ([32, 32, 32] ++ s) ++ 10 :: rest := by
    simp [write_conf, e3, hk]
  rw [readConfLoop.eq_def, e]
  simp only
  rw [read_two_eq hline (by simp [isdigit])]
  simp only
  have hat : strAt (fmtLong 8 c.errors ++ [32] ++ fmtLong 8 c.marked ++ ([32, 32, 32] ++ s) ++ [10]) CONF_OFFSET = .ok (32 :: c.key) := by
    unfold strAt CONF_OFFSET
    rw [if_pos (by simp only [List.length_append, List.length_cons, List.length_nil, w1, w2]; omega), hk]
    congr 1
    have : fmtLong 8 c.errors ++ [32] ++ fmtLong 8 c.marked ++ ([32, 32, 32] ++ s) ++ [10] =
      (fmtLong 8 c.errors ++ [32] ++ fmtLong 8 c.marked ++ [32, 32]) ++ (32 :: (s ++ [10])) := by simp
    rw [this, List.drop_left' (by simp only [List.length_append, List.length_cons, List.length_nil, w1, w2])]
  rw [hat, bind_ok]

/-- C28 (termination).  Reading ends for every file. -/
theorem c28_terminates (D : Accdata) (file : List Nat) : read_accrpt D file ≠ .fuel := read_fuel D file

/-- C29 (sum).  For any list of files that are readable as reports, `accsum` writes the report of the sum of the data:
figure by figure, class by class and confusion by confusion. -/
theorem c29_sum (U : Unicode) (pct : Int → Int → List Nat) (files : List (List Nat)) (Es : List Accdata)
    (h : List.Forall₂ (fun f E => read_accrpt Accdata.zero f = .ok E) files Es) (h2 : 2 ≤ files.length) :
    ∃ D, IsSum Es D ∧ accsum U pct files = write_accrpt U pct D := by
  obtain ⟨D, h1, hs⟩ := readAll_spec h Accdata.zero (by simp [Accdata.zero])
  refine ⟨D, hs.of_zero, ?_⟩
  unfold accsum
  rw [if_neg (by omega), h1, bind_ok]

/-- C29 (order).  The same files in another order give the same report, byte by byte, if no confusion has been counted
2^31 times or more. -/
theorem c29_order (U : Unicode) (pct : Int → Int → List Nat) (files files' : List (List Nat)) (hp : files.Perm files') (D : Accdata)
    (h : readAll Accdata.zero files = .ok D) (hc : IntCounts D) : accsum U pct files' = accsum U pct files := by
  have hz : (Accdata.zero.conftable.map Conf.key).Nodup := by simp [Accdata.zero]
  obtain ⟨Es, hEs⟩ := readAll_each files _ _ h
  obtain ⟨Es', hpE, hEs'⟩ := forall₂_perm hp hEs
  obtain ⟨D1, h1, hs⟩ := readAll_spec hEs Accdata.zero hz
  have : D1 = D := by rw [h] at h1; exact (Res.ok.inj h1).symm
  subst this
  obtain ⟨D', h1', hs'⟩ := readAll_spec hEs' Accdata.zero hz
  have hsame := hs.of_zero.unique (hs'.of_zero.perm hpE.symm)
  have hn := readAll_nul files _ _ h (by intro c hc; simp [Accdata.zero] at hc)
  unfold accsum
  rw [hp.length_eq]
  split
  · rfl
  · rw [h, h1', bind_ok, bind_ok]
    exact write_same U pct hsame hn hs.nodup hc

/-- C29 (reports).  For reports written for consistent data, `accsum` writes the report of the sum of these data. -/
theorem c29_written (U : Unicode) (F : UnicodeFacts U) (pct : Int → Int → List Nat) (hp : PctFormat pct) (Ds : List Accdata)
    (h : ∀ D ∈ Ds, Reportable D) (h2 : 2 ≤ Ds.length) :
    ∃ files D, List.Forall₂ (fun D f => write_accrpt U pct D = .ok f) Ds files ∧ IsSum Ds D ∧
      accsum U pct files = write_accrpt U pct D := by
  have key : ∃ files Es, List.Forall₂ (fun D f => write_accrpt U pct D = .ok f) Ds files ∧
      List.Forall₂ (fun f E => read_accrpt Accdata.zero f = .ok E) files Es ∧ List.Forall₂ Accdata.Same Ds Es ∧
      files.length = Ds.length := by
    clear h2
    induction Ds with
    | nil => exact ⟨[], [], .nil, .nil, .nil, rfl⟩
    | cons D Ds ih =>
      obtain ⟨fs, Es, a, b, c, d⟩ := ih (fun E hE => h E (by simp [hE]))
      obtain ⟨f, E, e1, e2, e3⟩ := round_trip F hp (h D (by simp))
      exact ⟨f :: fs, E :: Es, .cons e1 a, .cons e2 b, .cons e3 c, by simp [d]⟩
  obtain ⟨files, Es, a, b, c, d⟩ := key
  obtain ⟨D, hs, he⟩ := c29_sum U pct files Es b (by omega)
  refine ⟨files, D, a, ?_, he⟩
  have mp : ∀ {α : Type} (g : Accdata → α), (∀ D E : Accdata, D.Same E → g D = g E) → Es.map g = Ds.map g := by
    intro α g hg
    clear hs a b d he h h2
    induction c with
    | nil => rfl
    | cons x _ ih => rw [List.map_cons, List.map_cons, ih, hg _ _ x]
  have cs : ∀ {D E : Accdata}, D.Same E → ∀ k, confErrors k D = confErrors k E ∧ confMarked k D = confMarked k E := by
    intro D E h k
    exact ⟨(h.2.map _).sum_eq, (h.2.map _).sum_eq⟩
  constructor
  case characters => rw [hs.characters, mp]; intro D E h; rw [h.1]
  case errors => rw [hs.errors, mp]; intro D E h; rw [h.1]
  case rejects => rw [hs.rejects, mp]; intro D E h; rw [h.1]
  case suspects => rw [hs.suspects, mp]; intro D E h; rw [h.1]
  case falses => rw [hs.falses, mp]; intro D E h; rw [h.1]
  case marked => rw [hs.marked, mp]; intro D E h; rw [h.1]
  case unmarked => rw [hs.unmarked, mp]; intro D E h; rw [h.1]
  case total => rw [hs.total, mp]; intro D E h; rw [h.1]
  case small =>
    intro v
    rw [(hs.small v).1, (hs.small v).2, mp, mp]
    · exact ⟨rfl, rfl⟩
    · intro D E h; rw [h.1]
    · intro D E h; rw [h.1]
  case large =>
    intro v
    rw [(hs.large v).1, (hs.large v).2, mp, mp]
    · exact ⟨rfl, rfl⟩
    · intro D E h; rw [h.1]
    · intro D E h; rw [h.1]
  case all =>
    rw [hs.all.1, hs.all.2, mp, mp]
    · exact ⟨rfl, rfl⟩
    · intro D E h; rw [h.1]
    · intro D E h; rw [h.1]
  case conf =>
    intro k
    rw [(hs.conf k).1, (hs.conf k).2, mp, mp]
    · exact ⟨rfl, rfl⟩
    · intro D E h; exact (cs h k).2
    · intro D E h; exact (cs h k).1
  case keys =>
    intro k
    rw [hs.keys k]
    clear hs a b d he h h2 mp
    induction c with
    | nil => rfl
    | cons x _ ih =>
      simp only [List.mem_cons, exists_eq_or_imp]
      rw [ih, (x.2.map Conf.key).mem_iff]
  case nodup => exact hs.nodup

/-! ## Non-vacuity -/

/-- A way of printing percentages. -/
def samplePct (n d : Int) : List Nat :=
  if 0 ≤ n ∧ n ≤ d ∧ 0 < d then fmtLong 5 (n * 100 / d) ++ ascii ".00" else ascii "     nan"

theorem samplePct_format : PctFormat samplePct := by
  have hw : ∀ n d : Int, 0 ≤ n → n ≤ d → 0 < d → (fmtLong 5 (n * 100 / d)).length = 5 := by
    intro n d h0 h1 h2
    have a : 0 ≤ n * 100 / d := Int.ediv_nonneg (by omega) (by omega)
    have b : n * 100 / d ≤ 100 := by
      have : n * 100 ≤ d * 100 := by omega
      calc n * 100 / d ≤ d * 100 / d := Int.ediv_le_ediv h2 this
        _ = 100 := by rw [Int.mul_comm]; exact Int.mul_ediv_cancel _ (by omega)
    generalize n * 100 / d = v at a b
    have := decDigits_len 2 v.natAbs (by omega)
    have e : fmtInt v = decDigits v.natAbs := by unfold fmtInt; rw [if_neg (by omega)]
    unfold fmtLong; rw [List.length_append, List.length_replicate, e]; omega
  have e1 : (ascii ".00").length = 3 := by decide
  have e2 : (ascii "     nan").length = 8 := by decide
  constructor
  · intro n d
    unfold samplePct
    split
    · exact (plain_fmt _ _).append (plain_ascii (by decide))
    · exact plain_ascii (by decide)
  · intro n d
    unfold samplePct
    split
    · rename_i h; rw [List.length_append, hw n d h.1 h.2.1 h.2.2]; omega
    · omega
  · intro n d h0 h1 h2
    unfold samplePct
    rw [if_pos ⟨h0, h1, h2⟩, List.length_append, hw n d h0 h1 h2, e1]

/-- The report for "kit~ten" recognized as "s^it^tx~n" is read back. -/
example : ∃ D file E, accuracy sampleUnicode sampleCorrect sampleGenerated = .ok D ∧
    write_accrpt sampleUnicode samplePct D = .ok file ∧ read_accrpt Accdata.zero file = .ok E ∧ D.Same E ∧ E.characters = 6 := by
  have h0 : InTables sampleCorrect := by unfold InTables; decide +kernel
  have h1 : CodePoints sampleGenerated := by unfold CodePoints; decide +kernel
  obtain ⟨D, file, E, e1, e2, e3, e4⟩ := c28_accuracy sampleUnicode sampleFacts samplePct samplePct_format sampleCorrect
    sampleGenerated h0 h1 (by decide +kernel)
  refine ⟨D, file, E, e1, e2, e3, e4, ?_⟩
  obtain ⟨D', hD', hC⟩ := c21_consistent sampleUnicode sampleCorrect sampleGenerated h0 h1
  have : D' = D := by rw [e1] at hD'; exact (Res.ok.inj hD').symm
  subst this
  rw [e4.1]
  show D'.characters = 6
  rw [hC.characters]
  decide +kernel

/-- Two of these reports summed. -/
example : ∃ D files S, accuracy sampleUnicode sampleCorrect sampleGenerated = .ok D ∧ files.length = 2 ∧ IsSum [D, D] S ∧
    S.characters = 12 ∧ accsum sampleUnicode samplePct files = write_accrpt sampleUnicode samplePct S := by
  have h0 : InTables sampleCorrect := by unfold InTables; decide +kernel
  have h1 : CodePoints sampleGenerated := by unfold CodePoints; decide +kernel
  obtain ⟨D, items, hD, hA, _, hR⟩ := c21_exact sampleUnicode sampleCorrect sampleGenerated h0 h1
  obtain ⟨D', hD', hC⟩ := c21_consistent sampleUnicode sampleCorrect sampleGenerated h0 h1
  have : D' = D := by rw [hD] at hD'; exact (Res.ok.inj hD').symm
  subst this
  have l6 : (nonreject sampleCorrect).length = 6 := by decide +kernel
  have hc : D'.characters = 6 := by rw [hC.characters, l6]; rfl
  have he : D'.errors < 10^8 := by
    rw [hR.errors]
    have := sum_tiles sampleCorrect items 0 0 _ _ (hA.tiles 0 (by simp)) (hA.tiles 1 (by simp))
    simp only [List.getElem_cons_zero, List.getElem_cons_succ, values, List.length_map] at this
    have e1 : sampleCorrect.length = 7 := by decide +kernel
    have e2 : sampleGenerated.length = 7 := by decide +kernel
    rw [e1, e2] at this
    omega
  have hr := accuracy_reportable sampleFacts h0 h1 hD (by omega) he (by decide +kernel)
  obtain ⟨files, S, f1, f2, f3⟩ := c29_written sampleUnicode sampleFacts samplePct samplePct_format [D', D']
    (by intro E hE; simp at hE; subst hE; exact hr) (by simp)
  refine ⟨D', files, S, hD, f1.length_eq.symm, f2, ?_, f3⟩
  rw [f2.characters]; simp [hc]

example : ∃ c : Conf, c.key = ascii "{a}-{b}" ++ [10] ∧ 10^8 ≤ c.errors ∧ c.errors < 10^9 :=
  ⟨⟨ascii "{a}-{b}" ++ [10], 10^8, 0⟩, rfl, by decide, by decide⟩

end Ocr.Acc
