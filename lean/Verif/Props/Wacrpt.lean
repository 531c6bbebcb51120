import Verif.Proof.Wacsum
import Verif.Props.Accrpt

/-!
# C30, C31: word accuracy reports are read back exactly, and wordaccsum adds them
-/

namespace Ocr.Wac
open Text Res Report
open Ocr.Acc (Plain plain_fmt plain_sp plain_ascii Plain.line Plain.append strAt after_line PctFormat fmtLong_len9 forall₂_perm samplePct samplePct_format)

/-- C30.  A report written for consistent data with counts below 10^8 is read back exactly (the order of the words within
the two tables is not restored). -/
theorem c30_round_trip (pct : Int → Int → List Nat) (hp : PctFormat pct) (D : Wacdata) (h : Reportable D) :
    ∃ file E, write_wacrpt pct D = .ok file ∧ read_wacrpt Wacdata.zero file = .ok E ∧ D.Same E := round_trip hp h

/-- C30 (exception).  The line of a word with 10^8 or more occurrences is one column too wide: the word is entered with a
space in front. -/
theorem c30_wide (pct : Int → Int → List Nat) (hp : PctFormat pct) (t : Term) (h10 : 10 ∉ t.key) (h0 : 0 ∉ t.key)
    (hs : t.key.length ≤ 67) (hc : 10^8 ≤ t.count ∧ t.count < 10^9) (hm : 0 ≤ t.missed ∧ t.missed < 10^8)
    (table : List Term) (rest : List Nat) (fuel : Nat) :
    termsLoop (fuel + 1) (write_wac pct ⟨t.count, t.missed⟩ ++ t.key ++ [10] ++ rest) table =
      termsLoop fuel rest (add_term table (32 :: t.key) t.count t.missed) := by
  have w1 := fmtLong_len9 hc.1 hc.2
  have w2 := fmtLong_len8 hm.1 hm.2
  have e3 : ascii "   " = [32, 32, 32] := by decide
  have hpc : (pct (t.count - t.missed) t.count).length = 8 := hp.width _ _ (by omega) (by omega) (by omega)
  have hk : Plain t.key := fun b hb => ⟨fun e => h10 (e ▸ hb), fun e => h0 (e ▸ hb)⟩
  obtain ⟨tail, htail⟩ : ∃ tail, tail = [32] ++ pct (t.count - t.missed) t.count ++ [32, 32, 32] ++ t.key := ⟨_, rfl⟩
  have hline : Line (fmtLong 8 t.count ++ [32] ++ fmtLong 8 t.missed ++ tail) := by
    apply Plain.line
    · refine (((plain_fmt _ _).append plain_sp).append (plain_fmt _ _)).append ?_
      rw [htail, ← e3]
      exact ((plain_sp.append (hp.bytes _ _)).append (plain_ascii (by decide))).append hk
    · simp only [htail, List.length_append, List.length_cons, List.length_nil, w1, w2, hpc]; omega
  have e : write_wac pct ⟨t.count, t.missed⟩ ++ t.key ++ [10] ++ rest =
      fmtLong 8 t.count ++ [32] ++ fmtLong 8 t.missed ++ tail ++ 10 :: rest := by
    unfold write_wac write_pct
    rw [if_neg (by simp only; omega)]
    simp [e3, htail]
  rw [termsLoop.eq_def, e]
  simp only
  rw [read_two_eq hline (by simp [htail, isdigit])]
  simp only
  have hlen : OFFSET ≤ (fmtLong 8 t.count ++ [32] ++ fmtLong 8 t.missed ++ tail ++ [10]).length := by
    have : OFFSET = 29 := rfl
    simp only [htail, List.length_append, List.length_cons, List.length_nil, w1, w2, hpc]; omega
  rw [if_pos hlen]
  have hd : (fmtLong 8 t.count ++ [32] ++ fmtLong 8 t.missed ++ tail ++ [10]).dropLast.drop OFFSET = 32 :: t.key := by
    rw [List.dropLast_concat]
    have : fmtLong 8 t.count ++ [32] ++ fmtLong 8 t.missed ++ tail =
        (fmtLong 8 t.count ++ [32] ++ fmtLong 8 t.missed ++ [32] ++ pct (t.count - t.missed) t.count ++ [32, 32]) ++ (32 :: t.key) := by
      simp [htail]
    rw [this, List.drop_left']
    have : OFFSET = 29 := rfl
    simp only [List.length_append, List.length_cons, List.length_nil, w1, w2, hpc]; omega
  rw [hd]

/-- C30 (termination).  Reading ends for every file. -/
theorem c30_terminates (D : Wacdata) (file : List Nat) : read_wacrpt D file ≠ .fuel := read_fuel D file

/-- C31 (sum).  For any list of files that are readable as reports, `wordaccsum` writes the report of the sum of the data:
figure by figure and word by word. -/
theorem c31_sum (pct : Int → Int → List Nat) (files : List (List Nat)) (Es : List Wacdata)
    (h : List.Forall₂ (fun f E => read_wacrpt Wacdata.zero f = .ok E) files Es) (h2 : 2 ≤ files.length) :
    ∃ D, IsSum Es D ∧ wordaccsum pct files = write_wacrpt pct D := by
  obtain ⟨D, h1, hs⟩ := readAll_spec h Wacdata.zero (by simp [Wacdata.zero]) (by simp [Wacdata.zero])
  refine ⟨D, hs.of_zero, ?_⟩
  unfold wordaccsum
  rw [if_neg (by omega), h1, bind_ok]

/-- C31 (order).  The same files in another order give the same report, byte by byte. -/
theorem c31_order (pct : Int → Int → List Nat) (files files' : List (List Nat)) (hp : files.Perm files') (D : Wacdata)
    (h : readAll Wacdata.zero files = .ok D) : wordaccsum pct files' = wordaccsum pct files := by
  have hz1 : (Wacdata.zero.stopword_table.map Term.key).Nodup := by simp [Wacdata.zero]
  have hz2 : (Wacdata.zero.non_stopword_table.map Term.key).Nodup := by simp [Wacdata.zero]
  obtain ⟨Es, hEs⟩ := readAll_each files _ _ h
  obtain ⟨Es', hpE, hEs'⟩ := forall₂_perm hp hEs
  obtain ⟨D1, h1, hs⟩ := readAll_spec hEs Wacdata.zero hz1 hz2
  have : D1 = D := by rw [h] at h1; exact (Res.ok.inj h1).symm
  subst this
  obtain ⟨D', h1', hs'⟩ := readAll_spec hEs' Wacdata.zero hz1 hz2
  have hsame := hs.of_zero.unique (hs'.of_zero.perm hpE.symm)
  have hn := readAll_nul files _ _ h (by intro c hc; simp [Wacdata.zero] at hc) (by intro c hc; simp [Wacdata.zero] at hc)
  unfold wordaccsum
  rw [hp.length_eq]
  split
  · rfl
  · rw [h, h1', bind_ok, bind_ok]
    exact write_same pct hsame hs.table1.nodup hs.table2.nodup hn.1 hn.2

/-- C31 (reports).  For reports written for consistent data, `wordaccsum` writes the report of the sum of these data. -/
theorem c31_written (pct : Int → Int → List Nat) (hp : PctFormat pct) (Ds : List Wacdata)
    (h : ∀ D ∈ Ds, Reportable D) (h2 : 2 ≤ Ds.length) :
    ∃ files D, List.Forall₂ (fun D f => write_wacrpt pct D = .ok f) Ds files ∧ IsSum Ds D ∧
      wordaccsum pct files = write_wacrpt pct D := by
  have key : ∃ files Es, List.Forall₂ (fun D f => write_wacrpt pct D = .ok f) Ds files ∧
      List.Forall₂ (fun f E => read_wacrpt Wacdata.zero f = .ok E) files Es ∧ List.Forall₂ Wacdata.Same Ds Es ∧
      files.length = Ds.length := by
    clear h2
    induction Ds with
    | nil => exact ⟨[], [], .nil, .nil, .nil, rfl⟩
    | cons D Ds ih =>
      obtain ⟨fs, Es, a, b, c, d⟩ := ih (fun E hE => h E (by simp [hE]))
      obtain ⟨f, E, e1, e2, e3⟩ := round_trip hp (h D (by simp))
      exact ⟨f :: fs, E :: Es, .cons e1 a, .cons e2 b, .cons e3 c, by simp [d]⟩
  obtain ⟨files, Es, a, b, c, d⟩ := key
  obtain ⟨D, hs, he⟩ := c31_sum pct files Es b (by omega)
  refine ⟨files, D, a, ?_, he⟩
  have mp : ∀ {α : Type} (g : Wacdata → α), (∀ D E : Wacdata, D.Same E → g D = g E) → Es.map g = Ds.map g := by
    intro α g hg
    clear hs a b d he h h2
    induction c with
    | nil => rfl
    | cons x _ ih => rw [List.map_cons, List.map_cons, ih, hg _ _ x]
  have tab : ∀ (g : Wacdata → List Term) (d : List Term), (∀ D E : Wacdata, D.Same E → (g D).Perm (g E)) →
      TableSum (Es.map g) d → TableSum (Ds.map g) d := by
    intro g d hg ht
    constructor
    · intro k
      rw [(ht.count k).1, (ht.count k).2, List.map_map, List.map_map, List.map_map, List.map_map,
        mp (termCount k ∘ g) fun D E h => ((hg D E h).map _).sum_eq, mp (termMissed k ∘ g) fun D E h => ((hg D E h).map _).sum_eq]
      exact ⟨rfl, rfl⟩
    · intro k
      rw [ht.keys k]
      clear hs a b he h h2 mp ht
      simp only [List.mem_map, exists_exists_and_eq_and]
      clear * - c hg
      induction c with
      | nil => rfl
      | cons x _ ih =>
        simp only [List.mem_cons, exists_eq_or_imp]
        have := ((hg _ _ x).map Term.key).mem_iff (a := k)
        simp only [List.mem_map] at this
        rw [ih, this]
    · exact ht.nodup
  constructor
  case total => rw [hs.total, mp]; intro D E h; rw [h.1]
  case stop => intro i; rw [hs.stop, mp]; intro D E h; rw [h.1]
  case non => intro i; rw [hs.non, mp]; intro D E h; rw [h.1]
  case distinct => intro i; rw [hs.distinct, mp]; intro D E h; rw [h.1]
  case phrase => intro i; rw [hs.phrase, mp]; intro D E h; rw [h.1]
  case table1 => exact tab _ _ (fun D E h => h.2.1) hs.table1
  case table2 => exact tab _ _ (fun D E h => h.2.2) hs.table2

/-! ## Non-vacuity -/

/-- "the cat the", with one "the" misrecognized. -/
def sampleData : Wacdata where
  total := ⟨3, 1⟩
  stopword := fun i => if i = 0 ∨ i = 3 then ⟨2, 1⟩ else ⟨0, 0⟩
  non_stopword := fun i => if i = 0 ∨ i = 3 then ⟨1, 0⟩ else ⟨0, 0⟩
  distinct_non_stopword := fun i => if i = 0 ∨ i = 1 then ⟨1, 0⟩ else ⟨0, 0⟩
  phrase := fun i => if i = 1 then ⟨3, 1⟩ else if i = 2 then ⟨2, 1⟩ else if i = 3 then ⟨1, 1⟩ else ⟨0, 0⟩
  stopword_table := [⟨ascii "the", 2, 1⟩]
  non_stopword_table := [⟨ascii "cat", 1, 0⟩]

theorem sampleData_reportable : Reportable sampleData := by
  constructor
  · exact ⟨by unfold Report.IsLong; decide, by unfold Report.IsLong; decide⟩
  · intro i; simp only [sampleData]; split
    · exact ⟨by unfold Wac.Fits; decide, by omega⟩
    · exact ⟨by unfold Wac.Fits; decide, fun _ => rfl⟩
  · intro i; simp only [sampleData]; split
    · exact ⟨by unfold Wac.Fits; decide, by omega⟩
    · exact ⟨by unfold Wac.Fits; decide, fun _ => rfl⟩
  · intro i; simp only [sampleData]; split
    · exact ⟨by unfold Wac.Fits; decide, by omega⟩
    · exact ⟨by unfold Wac.Fits; decide, fun _ => rfl⟩
  · intro i; simp only [sampleData]
    refine ⟨?_, ?_, by decide, by omega⟩
    · unfold Wac.Fits; split
      · decide
      · split
        · decide
        · split <;> decide
    · intro h; rw [if_neg (by omega), if_neg (by omega), if_neg (by omega)]
  · refine ⟨by simp [sampleData], ?_, ?_⟩
    · intro w hw; simp [sampleData] at hw; subst hw; unfold Wac.Fits; decide
    · intro w hw; simp [sampleData] at hw; subst hw; decide
  · refine ⟨by simp [sampleData], ?_, ?_⟩
    · intro w hw; simp [sampleData] at hw; subst hw; unfold Wac.Fits; decide
    · intro w hw; simp [sampleData] at hw; subst hw; decide
  · intro h; simp [sampleData] at h
  · intro h; simp [sampleData] at h

example : ∃ file E, write_wacrpt samplePct sampleData = .ok file ∧ read_wacrpt Wacdata.zero file = .ok E ∧ sampleData.Same E ∧
    (E.phrase 2).missed = 1 := by
  obtain ⟨file, E, h1, h2, h3⟩ := c30_round_trip samplePct samplePct_format sampleData sampleData_reportable
  exact ⟨file, E, h1, h2, h3, by rw [h3.1]; rfl⟩

/-- Three of these reports summed. -/
example : ∃ files S, files.length = 3 ∧ IsSum [sampleData, sampleData, sampleData] S ∧ (S.stopword 3).count = 6 ∧
    termMissed (ascii "the") S.stopword_table = 3 ∧ wordaccsum samplePct files = write_wacrpt samplePct S := by
  obtain ⟨files, S, f1, f2, f3⟩ := c31_written samplePct samplePct_format [sampleData, sampleData, sampleData]
    (by intro E hE; simp at hE; subst hE; exact sampleData_reportable) (by simp)
  refine ⟨files, S, f1.length_eq.symm, f2, ?_, ?_, f3⟩
  · rw [f2.stop]; rfl
  · rw [(f2.table1.count _).2]; decide

example : ∃ t : Term, 10 ∉ t.key ∧ 0 ∉ t.key ∧ t.key.length ≤ 67 ∧ 10^8 ≤ t.count ∧ t.count < 10^9 :=
  ⟨⟨ascii "the", 10^8, 0⟩, by decide, by decide, by decide, by decide, by decide⟩

end Ocr.Wac
