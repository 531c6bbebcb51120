import Verif.Spec.Pipelines
import Verif.Props.Programs
import Verif.Proof.AccTotal
import Verif.Proof.WacTotal

/-!
# C62: the programs that process reports, fed with reports of the programs that write them
-/

namespace Ocr.Edo
open Text Res

theorem sum_nonneg {l : List Int} (h : ∀ x ∈ l, 0 ≤ x) : 0 ≤ l.sum := by
  induction l with
  | nil => simp
  | cons a l ih => have := ih (fun x hx => h x (by simp [hx])); have := h a (by simp); rw [List.sum_cons]; omega

/-- The figures are at most `n`. -/
structure Within (n : Nat) (D : Edodata) : Prop where
  valid    : D.Valid
  balanced : D.Balanced
  ins      : 0 ≤ D.total_insertions ∧ D.total_insertions ≤ n
  del      : 0 ≤ D.total_deletions ∧ D.total_deletions ≤ n
  mov      : 0 ≤ D.total_moves ∧ D.total_moves ≤ n

theorem sum_add_map {α : Type} (f g : α → Int) (l : List α) : (l.map (fun x => f x + g x)).sum = (l.map f).sum + (l.map g).sum := by
  induction l with
  | nil => simp
  | cons a l ih => simp only [List.map_cons, List.sum_cons, ih]; omega

theorem Balanced.add {D E : Edodata} (h : D.Balanced) (h' : E.Balanced) : (D.add E).Balanced := by
  unfold Edodata.Balanced at *
  simp only [Edodata.add]
  rw [sum_add_map, h, h']

theorem moves_le {D : Edodata} (hb : D.Balanced) (hv : D.Valid) (i : Nat) : D.moves i ≤ D.total_moves := by
  by_cases hi : D.moves i = 0
  · rw [hi, hb]; exact sum_nonneg (fun x hx => by obtain ⟨j, _, rfl⟩ := List.mem_map.1 hx; exact (hv.moves_nn j).1)
  · have := hv.support i hi
    have key : ∀ l : List Nat, i ∈ l → D.moves i ≤ (l.map D.moves).sum := by
      intro l
      induction l with
      | nil => simp
      | cons a l ih =>
        intro hm
        have h1 := (hv.moves_nn a).1
        have h2 : 0 ≤ (l.map D.moves).sum :=
          sum_nonneg (fun x hx => by obtain ⟨j, _, rfl⟩ := List.mem_map.1 hx; exact (hv.moves_nn j).1)
        rw [List.map_cons, List.sum_cons]
        rcases List.mem_cons.1 hm with rfl | hm
        · omega
        · have := ih hm; omega
    rw [hb]; exact key _ (List.mem_range.2 (by omega))

theorem Within.add {m n : Nat} {D E : Edodata} (h : Within m D) (h' : Within n E) (hl : m + n < 2^63) : Within (m + n) (D.add E) := by
  have hb := Balanced.add h.balanced h'.balanced
  have i1 := h.ins; have i2 := h'.ins; have d1 := h.del; have d2 := h'.del; have m1 := h.mov; have m2 := h'.mov
  refine ⟨⟨?_, ?_, ?_, ?_⟩, hb, ?_, ?_, ?_⟩
  · simp only [Edodata.add, Report.IsLong]; omega
  · intro i
    have a1 := moves_le h.balanced h.valid i; have a2 := moves_le h'.balanced h'.valid i
    have b1 := (h.valid.moves_nn i).1; have b2 := (h'.valid.moves_nn i).1
    simp only [Edodata.add, Report.IsLong]; omega
  · intro i hi
    simp only [Edodata.add] at hi
    by_cases h0 : D.moves i = 0
    · exact h'.valid.support i (by omega)
    · exact h.valid.support i h0
  · rintro ⟨i, hi⟩
    simp only [Edodata.add] at hi ⊢
    by_cases h0 : D.moves i = 0
    · have := h'.valid.positive ⟨i, by omega⟩; omega
    · have := h.valid.positive ⟨i, h0⟩; omega
  all_goals (simp only [Edodata.add]; push_cast; omega)

theorem within_total {ns : List Nat} {Ds : List Edodata} (h : List.Forall₂ Within ns Ds) (hl : ns.sum < 2^63) :
    Within ns.sum (Edodata.total Ds) := by
  induction h with
  | nil =>
    refine ⟨⟨by simp [Edodata.total, Report.IsLong], by simp [Edodata.total, Report.IsLong], by simp [Edodata.total], by simp [Edodata.total]⟩, ?_,
      by simp [Edodata.total], by simp [Edodata.total], by simp [Edodata.total]⟩
    simp [Edodata.Balanced, Edodata.total]
  | cons h _ ih =>
    rw [List.sum_cons] at hl ⊢
    rw [total_cons]
    exact h.add (ih (by omega)) hl

/-- The cost of a sum is the sum of the costs. -/
theorem cost_total (T : Nat) : ∀ Ds : List Edodata, cost (Edodata.total Ds) T = (Ds.map (fun D => cost D T)).sum
  | [] => by
    simp [cost, Edodata.total]
  | D :: Ds => by
    rw [total_cons, List.map_cons, List.sum_cons, ← cost_total T Ds]
    simp only [cost, Edodata.add]
    have : (fun l => ((min l T : Nat) : Int) * (D.moves l + (Edodata.total Ds).moves l)) =
        fun l => ((min l T : Nat) : Int) * D.moves l + ((min l T : Nat) : Int) * (Edodata.total Ds).moves l := by
      funext l; exact Int.mul_add ..
    rw [this, sum_add_map]; omega

end Ocr.Edo

namespace Ocr.Prog
open Text Res Spec

/-- The report is what `editop` has computed, written out. -/
theorem editop_bytes {U : Unicode} {p : List Ch × List Ch} {report : List Nat} (h : EditopReport U p report)
    (hl : p.1.length + p.2.length < 2^62) :
    ∃ D, Edo.editop (p.1.map Ch.value) (p.2.map Ch.value) = .ok D ∧ report = Edo.write_edorpt D ∧
      Edo.Within (p.1.length + p.2.length) D ∧
      D.total_insertions = (((p.1.map Ch.value).filter (fun c => c ≠ 126)).diff (p.2.map Ch.value)).length ∧
      D.total_deletions = ((p.2.map Ch.value).diff ((p.1.map Ch.value).filter (fun c => c ≠ 126))).length := by
  obtain ⟨junk, fs, prog, args, ss, out, ⟨f0, f1, rest, file0, file1, hc, hr, h0, h1, hh, p0, p1⟩, e⟩ := h
  obtain ⟨r, D, ls, S, _, e2, hb, hv, h2, _, _, _, hle⟩ := Edo.c49_editop (p.1.map Ch.value) (p.2.map Ch.value)
    (by rw [List.length_map]; omega) (by rw [List.length_map]; omega)
  obtain ⟨D', e3, h6, h7⟩ := Edo.c56_differences (p.1.map Ch.value) (p.2.map Ch.value)
  rw [e2] at e3
  cases e3
  have hrep : report = Edo.write_edorpt D := by
    obtain ⟨b, V, ei, _⟩ := init_args table_editop hc
    unfold editopMain at e
    rw [show Args.initialize_ (some Args.editopOptions) true (prog :: args) start = _ from ei, bind_ok] at e
    simp only at e
    rw [if_neg (by simp only [List.length_cons]; omega), readPair_eq h0 h1 hh (.inl ⟨hh, p0⟩) p1, bind_ok] at e
    simp only at e
    rw [e2, bind_ok] at e
    exact (congrArg Output.bytes (Res.ok.inj e)).symm
  have l1 : (((p.1.map Ch.value).filter (fun c => c ≠ 126)).diff (p.2.map Ch.value)).length ≤ p.1.length := by
    refine le_trans (List.Sublist.length_le (List.diff_sublist _ _)) (le_trans (List.length_filter_le _ _) ?_)
    rw [List.length_map]
  have l2 : ((p.2.map Ch.value).diff ((p.1.map Ch.value).filter (fun c => c ≠ 126))).length ≤ p.2.length := by
    refine le_trans (List.Sublist.length_le (List.diff_sublist _ _)) ?_
    rw [List.length_map]
  rw [List.length_map] at hle
  refine ⟨D, e2, hrep, ⟨hv, hb, ?_, ?_, ?_⟩, h6, h7⟩ <;> push_cast <;> omega

theorem editop_report {U : Unicode} {p : List Ch × List Ch} {report : List Nat} (h : EditopReport U p report)
    (hl : p.1.length + p.2.length < 2^62) :
    ∃ D, Edo.read_edorpt Edo.Edodata.zero report = .ok D ∧ Edo.Within (p.1.length + p.2.length) D ∧
      D.total_insertions = (((p.1.map Ch.value).filter (fun c => c ≠ 126)).diff (p.2.map Ch.value)).length ∧
      D.total_deletions = ((p.2.map Ch.value).diff ((p.1.map Ch.value).filter (fun c => c ≠ 126))).length := by
  obtain ⟨D, _, e, hw, h6, h7⟩ := editop_bytes h hl
  exact ⟨D, by rw [e]; exact Edo.c26_round_trip D hw.valid, hw, h6, h7⟩

/-- C62 (editop).  Reports of `editop` for any pages, added up by `editopsum`, and the sum given to `editopcost`: the sum states the
sizes of the multiset differences of all pages together, and the cost printed for every threshold is the sum of the costs of the pages. -/
theorem c62_editop (U : Unicode) (fs : Fs) (prog : List Nat) (args names : List (List Nat)) (ss : List Args.Setting)
    (hc : CommandLine [] prog args names ss) (h2 : 2 ≤ names.length) (reports : List (List Nat)) (pages : List (List Ch × List Ch))
    (hf : List.Forall₂ (fun name file => fs name = some file) names reports)
    (hp : List.Forall₂ (EditopReport U) pages reports)
    (hl : (pages.map (fun p => p.1.length + p.2.length)).sum < 2^62) :
    ∃ bytes D Ds, editopsumProgram fs (prog :: args) = .ok ⟨none, bytes⟩ ∧ Edo.read_edorpt Edo.Edodata.zero bytes = .ok D ∧
      List.Forall₂ (fun report E => Edo.read_edorpt Edo.Edodata.zero report = .ok E) reports Ds ∧
      D.total_insertions =
        (pages.map (fun p => (((p.1.map Ch.value).filter (fun c => c ≠ 126)).diff (p.2.map Ch.value)).length)).sum ∧
      D.total_deletions =
        (pages.map (fun p => ((p.2.map Ch.value).diff ((p.1.map Ch.value).filter (fun c => c ≠ 126))).length)).sum ∧
      ∀ (fs' : Fs) (prog' : List Nat) (args' : List (List Nat)) (name : List Nat) (ss' : List Args.Setting),
        CommandLine [] prog' args' [name] ss' → fs' name = some bytes →
        editopcostProgram fs' (prog' :: args') = .ok ⟨none, (List.range 101).flatMap (fun T : Nat =>
          fmtLong 3 T ++ [32] ++ fmtLong 10 (Ds.map (fun E => Edo.cost E T)).sum ++ [10])⟩ := by
  obtain ⟨Ds, hD, hW, hI, hX⟩ : ∃ Ds : List Edo.Edodata,
      List.Forall₂ (fun report E => Edo.read_edorpt Edo.Edodata.zero report = .ok E) reports Ds ∧
      List.Forall₂ Edo.Within (pages.map (fun p => p.1.length + p.2.length)) Ds ∧
      (Ds.map (·.total_insertions)).sum =
        ((pages.map (fun p => (((p.1.map Ch.value).filter (fun c => c ≠ 126)).diff (p.2.map Ch.value)).length)).sum : Nat) ∧
      (Ds.map (·.total_deletions)).sum =
        ((pages.map (fun p => ((p.2.map Ch.value).diff ((p.1.map Ch.value).filter (fun c => c ≠ 126))).length)).sum : Nat) := by
    clear hf
    induction hp with
    | nil => exact ⟨[], .nil, .nil, rfl, rfl⟩
    | cons h _ ih =>
      rw [List.map_cons, List.sum_cons] at hl
      obtain ⟨Ds, a, b, c, d⟩ := ih (by omega)
      obtain ⟨D, e, w, i, x⟩ := editop_report h (by omega)
      refine ⟨D :: Ds, .cons e a, .cons w b, ?_, ?_⟩
      · simp only [List.map_cons, List.sum_cons]; push_cast; rw [c, i]
      · simp only [List.map_cons, List.sum_cons]; push_cast; rw [d, x]
  have hw := Edo.within_total hW (by omega)
  have hlen : 2 ≤ reports.length := by rw [← hf.length_eq]; exact h2
  have hr := Edo.c26_round_trip _ hw.valid
  refine ⟨Edo.write_edorpt (Edo.Edodata.total Ds), Edo.Edodata.total Ds, Ds, ?_, hr, hD, by simpa [Edo.Edodata.total] using hI,
    by simpa [Edo.Edodata.total] using hX, ?_⟩
  · obtain ⟨b, V, e⟩ := init_none hc
    rw [editopsum_eq e hf, Edo.c27_sum _ _ hD hlen]; rfl
  · intro fs' prog' args' name ss' hc' hn
    obtain ⟨b, V, e⟩ := init_none hc'
    rw [editopcost_eq e (.cons hn .nil), Edo.c48_cost _ _ hr hw.balanced]
    simp only [Edo.cost_total]; rfl

/-- The report is what `accuracy` has computed, written out. -/
theorem accuracy_bytes {U : Unicode} (F : UnicodeFacts U) {pct : Int → Int → List Nat} (hpct : Acc.PctFormat pct)
    {p : List Ch × List Ch} {report : List Nat} (h : AccuracyReport U pct p report) (hlast : ∀ c ∈ p.1, c.value ≠ 0x10FFFF)
    (hl : p.1.length + p.2.length < 10^8) :
    Acc.InTables p.1 ∧ Acc.CodePoints p.2 ∧
      ∃ D, Acc.accuracy U p.1 p.2 = .ok D ∧ Acc.Reportable D ∧ Acc.write_accrpt U pct D = .ok report := by
  obtain ⟨junk, fs, prog, args, ss, out, ⟨f0, f1, rest, file0, file1, hc, hr, h0, h1, hh, p0, p1⟩, e⟩ := h
  have hp0 : HoldsText U false file0 p.1 := .inl ⟨hh, p0⟩
  have i0 : Acc.InTables p.1 := fun c hm => by have := page_values hp0 c hm; have := hlast c hm; omega
  obtain ⟨D, e1, hC, hR, hE⟩ := Acc.accuracy_data F i0 (page_values p1) hl
  obtain ⟨bytes, E, e2, e3, e4⟩ := Acc.c28_round_trip U F pct hpct D hR
  have hrep : report = bytes := by
    obtain ⟨b, V, ei⟩ := init_none hc
    unfold accuracyMain at e
    rw [ei, bind_ok] at e
    simp only at e
    rw [if_neg (by simp only [List.length_cons]; omega), readPair_eq h0 h1 hh hp0 p1, bind_ok] at e
    simp only at e
    rw [e1, bind_ok, e2, bind_ok] at e
    exact (congrArg Output.bytes (Res.ok.inj e)).symm
  exact ⟨i0, page_values p1, D, e1, hR, by rw [hrep]; exact e2⟩

theorem accuracy_written {U : Unicode} (F : UnicodeFacts U) {pct : Int → Int → List Nat} (hpct : Acc.PctFormat pct)
    {p : List Ch × List Ch} {report : List Nat} (h : AccuracyReport U pct p report) (hlast : ∀ c ∈ p.1, c.value ≠ 0x10FFFF)
    (hl : p.1.length + p.2.length < 10^8) :
    Acc.InTables p.1 ∧ Acc.CodePoints p.2 ∧
      ∃ D E, Acc.accuracy U p.1 p.2 = .ok D ∧ Acc.read_accrpt Acc.Accdata.zero report = .ok E ∧ D.Same E := by
  obtain ⟨i0, i1, D, e1, hR, e2⟩ := accuracy_bytes F hpct h hlast hl
  obtain ⟨bytes, E, e2', e3, e4⟩ := Acc.c28_round_trip U F pct hpct D hR
  rw [e2] at e2'
  cases e2'
  exact ⟨i0, i1, D, E, e1, e3, e4⟩

theorem accuracy_report {U : Unicode} (F : UnicodeFacts U) {pct : Int → Int → List Nat} (hpct : Acc.PctFormat pct)
    {p : List Ch × List Ch} {report : List Nat} (h : AccuracyReport U pct p report) (hlast : ∀ c ∈ p.1, c.value ≠ 0x10FFFF)
    (hl : p.1.length + p.2.length < 10^8) :
    ∃ E, Acc.read_accrpt Acc.Accdata.zero report = .ok E ∧ Acc.Bounded (p.1.length + p.2.length) E ∧ Acc.Consistent p.1 p.2 E ∧
      ((∀ c ∈ p.1, c.value ≠ REJECT_CHARACTER) → ∃ d : Nat, E.errors = d ∧ IsEditDistance (p.1.map Ch.value) (p.2.map Ch.value) d) := by
  obtain ⟨i0, i1, D, E, e1, e3, e4⟩ := accuracy_written F hpct h hlast hl
  obtain ⟨D', e1', hC, _, hE⟩ := Acc.accuracy_data F i0 i1 hl
  have : D' = D := by rw [e1] at e1'; exact (Res.ok.inj e1').symm
  subst this
  have hb := Acc.accuracy_bounded F i0 i1 hl e1
  refine ⟨E, e3, Acc.Bounded.same e4 hb, Acc.same_consistent e4 hC, ?_⟩
  intro hn
  obtain ⟨d, h2, h3⟩ := hE hn
  exact ⟨d, by rw [e4.1]; exact h2, h3⟩

/-- C62 (accuracy).  Reports of `accuracy` for any pages, added up by `accsum`: the sum can be read, and every figure is the sum of the
figures of the pages.  So the characters are those of all correct texts, and if these have no reject characters, the errors are the sum
of the edit distances. -/
theorem c62_accuracy (U : Unicode) (F : UnicodeFacts U) (pct : Int → Int → List Nat) (hpct : Acc.PctFormat pct) (fs : Fs)
    (prog : List Nat) (args names : List (List Nat)) (ss : List Args.Setting)
    (hc : CommandLine [] prog args names ss) (h2 : 2 ≤ names.length) (reports : List (List Nat)) (pages : List (List Ch × List Ch))
    (hf : List.Forall₂ (fun name file => fs name = some file) names reports)
    (hp : List.Forall₂ (AccuracyReport U pct) pages reports) (hlast : ∀ p ∈ pages, ∀ c ∈ p.1, c.value ≠ 0x10FFFF)
    (hl : (pages.map (fun p => p.1.length + p.2.length)).sum < 10^8) :
    ∃ bytes D Es, accsumProgram U pct fs (prog :: args) = .ok ⟨none, bytes⟩ ∧ Acc.read_accrpt Acc.Accdata.zero bytes = .ok D ∧
      List.Forall₂ (fun p E => Acc.Consistent p.1 p.2 E) pages Es ∧ Acc.IsSum Es D ∧
      D.characters = (pages.map (fun p => (Acc.nonreject p.1).length)).sum ∧
      ((∀ p ∈ pages, ∀ c ∈ p.1, c.value ≠ REJECT_CHARACTER) → ∃ ds : List Nat, D.errors = (ds.sum : Nat) ∧
        List.Forall₂ (fun p d => IsEditDistance (p.1.map Ch.value) (p.2.map Ch.value) d) pages ds) := by
  obtain ⟨Es, hE, hB, hC, hD⟩ : ∃ Es : List Acc.Accdata,
      List.Forall₂ (fun report E => Acc.read_accrpt Acc.Accdata.zero report = .ok E) reports Es ∧
      List.Forall₂ Acc.Bounded (pages.map (fun p => p.1.length + p.2.length)) Es ∧
      List.Forall₂ (fun p E => Acc.Consistent p.1 p.2 E) pages Es ∧
      ((∀ p ∈ pages, ∀ c ∈ p.1, c.value ≠ REJECT_CHARACTER) → ∃ ds : List Nat, (Es.map (·.errors)).sum = (ds.sum : Nat) ∧
        List.Forall₂ (fun p d => IsEditDistance (p.1.map Ch.value) (p.2.map Ch.value) d) pages ds) := by
    clear hf
    induction hp with
    | nil => exact ⟨[], .nil, .nil, .nil, fun _ => ⟨[], rfl, .nil⟩⟩
    | cons h _ ih =>
      rw [List.map_cons, List.sum_cons] at hl
      obtain ⟨Es, a, b, c, d⟩ := ih (fun p hm => hlast p (by simp [hm])) (by omega)
      obtain ⟨E, e, w, i, x⟩ := accuracy_report F hpct h (hlast _ (by simp)) (by omega)
      refine ⟨E :: Es, .cons e a, .cons w b, .cons i c, ?_⟩
      intro hn
      obtain ⟨ds, y, z⟩ := d (fun p hm => hn p (by simp [hm]))
      obtain ⟨d0, y0, z0⟩ := x (hn _ (by simp))
      exact ⟨d0 :: ds, by simp only [List.map_cons, List.sum_cons]; push_cast; rw [y, y0], .cons z0 z⟩
  have hlen : 2 ≤ reports.length := by rw [← hf.length_eq]; exact h2
  obtain ⟨D, hS, eS⟩ := Acc.c29_sum U pct reports Es hE hlen
  obtain ⟨bytes, D', e2, e3, e4⟩ := Acc.c28_round_trip U F pct hpct D (hS.reportable hB (by omega))
  refine ⟨bytes, D', Es, ?_, e3, hC, Acc.IsSum.same e4 hS, ?_, ?_⟩
  · obtain ⟨b, V, e⟩ := init_none hc
    rw [accsum_eq e hf, eS, e2]; rfl
  · rw [(Acc.IsSum.same e4 hS).characters]
    clear hS eS hE hB hD hp hf hlast hl
    induction hC with
    | nil => simp
    | cons h _ ih => simp only [List.map_cons, List.sum_cons, h.characters]; push_cast; rw [ih]
  · intro hn
    obtain ⟨ds, y, z⟩ := hD hn
    exact ⟨ds, by rw [(Acc.IsSum.same e4 hS).errors]; exact y, z⟩

/-- The report is what `wordacc` has computed, written out. -/
theorem wordacc_bytes {U : Unicode} {prop : Nat → Word.WB} {nfc : List Nat → Option (List Nat)} {pct : Int → Int → List Nat}
    (hpct : Acc.PctFormat pct) {p : WordPage} {report : List Nat} (h : WordaccReport U prop nfc pct p report) (hm : Manageable p)
    (hl : p.correct.length < 10^8) :
    ∃ flags D, flags.length = p.correct.length ∧ Wordacc.IsLCS (Wordacc.flagged p.correct flags) p.correct p.generated ∧
      Wordacc.Exact (fun w => decide (w ∈ p.stops)) (p.correct.zip flags) D ∧ Wac.Bounded p.correct.length D ∧
      Wac.Reportable D ∧ Wac.write_wacrpt pct D = .ok report := by
  obtain ⟨junk, junk', fs, prog, args, ss, out, t0, t1, hj, ⟨f0, f1, rest, file0, file1, hc, hr, h0, h1, hh, p0, p1⟩, hu, hv, hs, e⟩ := h
  obtain ⟨b, V, ei, hV⟩ := init_args table_wordacc hc
  obtain ⟨S, eS, hS⟩ := stopwords_eq (junk := junk) (junk' := junk') hj hV hs
  obtain ⟨flags, D, hf, hL, e1, hD, hR⟩ := Wordacc.wordacc_data (fun w => decide (w ∈ p.stops)) p.correct p.generated hm.1 hm.2 hl
  obtain ⟨bytes, E, e2, e3, e4⟩ := Wac.c30_round_trip pct hpct D hR
  have hrep : report = bytes := by
    unfold wordaccMain at e
    rw [show Args.initialize_ (some Args.wordaccOptions) true (prog :: args) start = _ from ei, bind_ok] at e
    simp only at e
    rw [if_neg (by simp only [List.length_cons]; omega), eS, bind_ok, readWords_eq h0 h1 hh (.inl ⟨hh, p0⟩) p1 hu hv, bind_ok] at e
    simp only at e
    have : (fun w => decide (Stopword.is_stopword w S = .ok true)) = fun w => decide (w ∈ p.stops) := by
      funext w
      rw [hS w]
      simp
    rw [this, e1, bind_ok, e2, bind_ok] at e
    exact (congrArg Output.bytes (Res.ok.inj e)).symm
  have hb := Wac.exact_bounded hD hR
  rw [show (p.correct.zip flags).length = p.correct.length by simp [hf]] at hb
  exact ⟨flags, D, hf, hL, hD, hb, hR, by rw [hrep]; exact e2⟩

theorem wordacc_report {U : Unicode} {prop : Nat → Word.WB} {nfc : List Nat → Option (List Nat)} {pct : Int → Int → List Nat}
    (hpct : Acc.PctFormat pct) {p : WordPage} {report : List Nat} (h : WordaccReport U prop nfc pct p report) (hm : Manageable p)
    (hl : p.correct.length < 10^8) :
    ∃ flags D E, flags.length = p.correct.length ∧ Wordacc.IsLCS (Wordacc.flagged p.correct flags) p.correct p.generated ∧
      Wordacc.Exact (fun w => decide (w ∈ p.stops)) (p.correct.zip flags) D ∧ Wac.Bounded p.correct.length D ∧
      Wac.read_wacrpt Wac.Wacdata.zero report = .ok E ∧ D.Same E := by
  obtain ⟨flags, D, hf, hL, hD, hb, hR, e2⟩ := wordacc_bytes hpct h hm hl
  obtain ⟨bytes, E, e2', e3, e4⟩ := Wac.c30_round_trip pct hpct D hR
  rw [e2] at e2'
  cases e2'
  exact ⟨flags, D, E, hf, hL, hD, hb, e3, e4⟩

theorem missed_lcs {u v : List (List Nat)} {flags : List Bool} (hf : flags.length = u.length)
    (hL : Wordacc.IsLCS (Wordacc.flagged u flags) u v) {c : List (List Nat)} (hc : Wordacc.IsLCS c u v) :
    ((u.zip flags).countP (fun x => !x.2) : Nat) + c.length = u.length := by
  have e1 : c.length = (Wordacc.flagged u flags).length := by
    have := hL.max c hc.left hc.right; have := hc.max _ hL.left hL.right; omega
  have e2 : (u.zip flags).length = u.length := by simp [hf]
  have e3 := List.length_eq_countP_add_countP (fun x : List Nat × Bool => x.2) (l := u.zip flags)
  rw [e1]
  unfold Wordacc.flagged
  rw [List.length_map, ← List.countP_eq_length_filter]
  simp only [Bool.not_eq_true, Bool.decide_eq_false] at e3
  omega

/-- C62 (wordacc).  Reports of `wordacc` for any pages, added up by `wordaccsum`: the sum can be read, and every figure is the sum of the
exact figures of the pages.  So the words are those of all correct texts, and the words that are not recognized are those that
are left over by longest common subsequences. -/
theorem c62_wordacc (U : Unicode) (prop : Nat → Word.WB) (nfc : List Nat → Option (List Nat)) (pct : Int → Int → List Nat)
    (hpct : Acc.PctFormat pct) (fs : Fs) (prog : List Nat) (args names : List (List Nat)) (ss : List Args.Setting)
    (hc : CommandLine [] prog args names ss) (h2 : 2 ≤ names.length) (reports : List (List Nat)) (pages : List WordPage)
    (hf : List.Forall₂ (fun name file => fs name = some file) names reports)
    (hp : List.Forall₂ (WordaccReport U prop nfc pct) pages reports) (hm : ∀ p ∈ pages, Manageable p)
    (hl : (pages.map (fun p => p.correct.length)).sum < 10^8) :
    ∃ bytes D Ds, wordaccsumProgram pct fs (prog :: args) = .ok ⟨none, bytes⟩ ∧ Wac.read_wacrpt Wac.Wacdata.zero bytes = .ok D ∧
      List.Forall₂ (fun (p : WordPage) E => ∃ flags, flags.length = p.correct.length ∧
        Wordacc.IsLCS (Wordacc.flagged p.correct flags) p.correct p.generated ∧
        Wordacc.Exact (fun w => decide (w ∈ p.stops)) (p.correct.zip flags) E) pages Ds ∧ Wac.IsSum Ds D ∧
      D.total.count = (pages.map (fun p => p.correct.length)).sum ∧
      ∀ cs : List (List (List Nat)), List.Forall₂ (fun (p : WordPage) c => Wordacc.IsLCS c p.correct p.generated) pages cs →
        D.total.missed = (pages.map (fun p => p.correct.length)).sum - (cs.map List.length).sum := by
  obtain ⟨Ds, Es, hB, hE, hS, hX⟩ : ∃ Ds Es : List Wac.Wacdata,
      List.Forall₂ Wac.Bounded (pages.map (fun p => p.correct.length)) Ds ∧
      List.Forall₂ (fun report E => Wac.read_wacrpt Wac.Wacdata.zero report = .ok E) reports Es ∧
      List.Forall₂ Wac.Wacdata.Same Ds Es ∧
      List.Forall₂ (fun (p : WordPage) E => ∃ flags, flags.length = p.correct.length ∧
        Wordacc.IsLCS (Wordacc.flagged p.correct flags) p.correct p.generated ∧
        Wordacc.Exact (fun w => decide (w ∈ p.stops)) (p.correct.zip flags) E) pages Ds := by
    clear hf
    induction hp with
    | nil => exact ⟨[], [], .nil, .nil, .nil, .nil⟩
    | cons h _ ih =>
      rw [List.map_cons, List.sum_cons] at hl
      obtain ⟨Ds, Es, a, b, c, d⟩ := ih (fun p hp => hm p (by simp [hp])) (by omega)
      obtain ⟨flags, D, E, x1, x2, x3, x4, x5, x6⟩ := wordacc_report hpct h (hm _ (by simp)) (by omega)
      exact ⟨D :: Ds, E :: Es, .cons x4 a, .cons x5 b, .cons x6 c, .cons ⟨flags, x1, x2, x3⟩ d⟩
  have hlen : 2 ≤ reports.length := by rw [← hf.length_eq]; exact h2
  obtain ⟨D, hs, eS⟩ := Wac.c31_sum pct reports Es hE hlen
  have hs := Wac.IsSum.of_same hS hs
  obtain ⟨bytes, D', e2, e3, e4⟩ := Wac.c30_round_trip pct hpct D (hs.reportable hB hl)
  have hs' := Wac.IsSum.same e4 hs
  refine ⟨bytes, D', Ds, ?_, e3, hX, hs', ?_, ?_⟩
  · obtain ⟨b, V, e⟩ := init_none hc
    rw [wordaccsum_eq e hf, eS, e2]; rfl
  · rw [hs'.total]
    clear hs' hs eS hE hB hS hp hf hm hl
    induction hX with
    | nil => simp [Wac.sumWac]
    | cons h _ ih =>
      obtain ⟨flags, hfl, _, hx⟩ := h
      simp only [Wac.sumWac, List.map_cons, List.sum_cons, hx.total, Wordacc.tally, List.countP_true, List.length_zip, hfl,
        Nat.min_self] at ih ⊢
      push_cast; rw [ih]
  · intro cs hcs
    rw [hs'.total]
    clear hs' hs eS hE hB hS hp hf hm hl
    induction hX generalizing cs with
    | nil => cases hcs; simp [Wac.sumWac]
    | cons h _ ih =>
      obtain ⟨flags, hfl, hL, hx⟩ := h
      cases hcs with
      | cons hc0 hcs =>
        have := ih _ hcs
        have hmiss := missed_lcs hfl hL hc0
        simp only [Wac.sumWac, List.map_cons, List.sum_cons, hx.total, Wordacc.tally, Bool.true_and] at this hmiss ⊢
        push_cast
        push_cast at this
        omega

/-! ## Non-vacuity -/

theorem sample_compares (T : List (Nat × Args.Kind)) (prog : String) (hp : (ascii prog).length ≤ 32768) :
    Compares sampleUnicode false T sampleFs (ascii prog) [ascii "a", ascii "b", ascii "report"] [] sampleText0 sampleText1 :=
  ⟨_, _, _, _, _, sample_line T prog hp, by simp, by decide +kernel, by decide +kernel, not_headed_a, sample_a, .inl ⟨not_headed_b, sample_b⟩⟩

/-- The command line `prog x y`. -/
theorem two_line (prog : String) (hp : (ascii prog).length ≤ 32768) :
    CommandLine [] (ascii prog) [ascii "x", ascii "y"] [ascii "x", ascii "y"] [] :=
  ⟨hp, by decide +kernel, by decide +kernel, by simp,
    .operand (by rintro ⟨c, r, e⟩; simp [ascii] at e) (.operand (by rintro ⟨c, r, e⟩; simp [ascii] at e) .nil), by simp [Args.Once]⟩

theorem one_line (prog : String) (hp : (ascii prog).length ≤ 32768) : CommandLine [] (ascii prog) [ascii "sum"] [ascii "sum"] [] :=
  ⟨hp, by decide +kernel, by decide +kernel, by simp, .operand (by rintro ⟨c, r, e⟩; simp [ascii] at e) .nil, by simp [Args.Once]⟩

/-- Two reports of the sample page: 8 deletions and 2 moves of length 3; with threshold 2 the cost is 4. -/
example : ∃ (fs : Fs) (bytes : List Nat) (D : Edo.Edodata), editopsumProgram fs [ascii "editopsum", ascii "x", ascii "y"] = .ok ⟨none, bytes⟩ ∧
    Edo.read_edorpt Edo.Edodata.zero bytes = .ok D ∧ D.total_insertions = 0 ∧ D.total_deletions = 8 ∧
    ∃ out, editopcostProgram (fun _ => some bytes) [ascii "editopcost", ascii "sum"] = .ok ⟨none, out⟩ ∧
      (out.drop 30).take 15 = ascii "  2          4\n" := by
  obtain ⟨R, hR⟩ : ∃ R, R = Edo.write_edorpt ⟨0, 4, 1, fun i => if i = 3 then 1 else 0⟩ := ⟨_, rfl⟩
  have run : EditopReport sampleUnicode (sampleText0, sampleText1) R :=
    ⟨[], _, _, _, _, some (ascii "report"), sample_compares [(68, .flag 0)] "editop" (by decide +kernel), by rw [hR]; decide +kernel⟩
  have rd : Edo.read_edorpt Edo.Edodata.zero R = .ok ⟨0, 4, 1, fun i => if i = 3 then 1 else 0⟩ := by
    rw [hR]
    refine Edo.c26_round_trip _ ⟨by unfold Report.IsLong; decide, fun i => ?_, fun i => ?_, fun _ => by decide⟩
    · simp only [Report.IsLong]; split <;> omega
    · simp only; split <;> omega
  obtain ⟨bytes, D, Ds, h1, h2, h3, h4, h5, h6⟩ := c62_editop sampleUnicode (fun _ => some R) (ascii "editopsum") _ _ _
    (two_line "editopsum" (by decide +kernel)) (by simp) [R, R] [(sampleText0, sampleText1), (sampleText0, sampleText1)]
    (.cons rfl (.cons rfl .nil)) (.cons run (.cons run .nil)) (by decide +kernel)
  refine ⟨_, bytes, D, h1, h2, by rw [h4]; decide +kernel, by rw [h5]; decide +kernel, _,
    h6 (fun _ => some bytes) _ _ _ _ (one_line "editopcost" (by decide +kernel)) rfl, ?_⟩
  cases h3 with
  | cons a h3 =>
    cases h3 with
    | cons b h3 =>
      cases h3
      rw [rd] at a b
      cases a
      cases b
      decide +kernel

example : ∃ (fs : Fs) (bytes : List Nat) (D : Acc.Accdata),
    accsumProgram sampleUnicode Acc.samplePct fs [ascii "accsum", ascii "x", ascii "y"] = .ok ⟨none, bytes⟩ ∧
    Acc.read_accrpt Acc.Accdata.zero bytes = .ok D ∧ D.characters = 46 ∧ ∃ d d' : Nat, D.errors = d + d' ∧
      IsEditDistance (sampleText0.map Ch.value) (sampleText1.map Ch.value) d ∧
      IsEditDistance (sampleText0.map Ch.value) (sampleText1.map Ch.value) d' := by
  obtain ⟨R, _, hR, _⟩ := c58_accuracy sampleUnicode sampleFacts Acc.samplePct Acc.samplePct_format [] sampleFs (ascii "accuracy")
    _ _ _ _ _ (sample_line [] "accuracy" (by decide +kernel)) (by simp) _ _ (by decide +kernel) (by decide +kernel) _ _ not_headed_a sample_a
    (.inl ⟨not_headed_b, sample_b⟩) (by decide +kernel) (by decide +kernel)
  have run : AccuracyReport sampleUnicode Acc.samplePct (sampleText0, sampleText1) R :=
    ⟨[], _, _, _, _, _, sample_compares [] "accuracy" (by decide +kernel), hR⟩
  obtain ⟨bytes, D, Es, h1, h2, _, _, h5, h6⟩ := c62_accuracy sampleUnicode sampleFacts Acc.samplePct Acc.samplePct_format (fun _ => some R)
    (ascii "accsum") _ _ _ (two_line "accsum" (by decide +kernel)) (by simp) [R, R] [(sampleText0, sampleText1), (sampleText0, sampleText1)]
    (.cons rfl (.cons rfl .nil)) (.cons run (.cons run .nil)) (by decide +kernel) (by decide +kernel)
  obtain ⟨ds, h7, h8⟩ := h6 (by decide +kernel)
  refine ⟨_, bytes, D, h1, h2, by rw [h5]; decide +kernel, ?_⟩
  cases h8 with
  | cons a h8 =>
    cases h8 with
    | cons b h8 =>
      cases h8
      exact ⟨_, _, by rw [h7]; simp, a, b⟩

example : ∃ (fs : Fs) (bytes : List Nat) (D : Wac.Wacdata),
    wordaccsumProgram Acc.samplePct fs [ascii "wordaccsum", ascii "x", ascii "y"] = .ok ⟨none, bytes⟩ ∧
    Wac.read_wacrpt Wac.Wacdata.zero bytes = .ok D ∧ D.total.count = 12 := by
  have hs : HasStopwords sampleUnicode Word.wbProp some sampleFs [⟨.value 0, ascii "s"⟩] (["on", "the"].map ascii) :=
    .inr ⟨ascii "s", ascii "On the", plain "on the", by simp, by decide +kernel, bytes_ascii (by decide +kernel), list_s, words_s⟩
  obtain ⟨R, _, _, _, hR, _⟩ := c59_wordacc sampleUnicode Word.wbProp some Acc.samplePct Acc.samplePct_format [] (by intro b hb; cases hb) 0
    sampleFs (ascii "wordacc") _ _ _ [] _ wordacc_line (by simp) _ _ (by decide +kernel) (by decide +kernel) _ _ not_headed_a page_a
    (.inl ⟨not_headed_b, page_b⟩) _ _ _ words_a words_b hs (by decide +kernel) (by decide +kernel) (by decide +kernel)
  have run : WordaccReport sampleUnicode Word.wbProp some Acc.samplePct ⟨["the", "cat", "sat", "on", "the", "mat"].map ascii,
      ["the", "mat", "cat", "sat", "on", "the", "hat"].map ascii, ["on", "the"].map ascii⟩ R :=
    ⟨[], 0, _, _, _, _, _, _, _, (by intro b hb; cases hb), ⟨_, _, _, _, _, wordacc_line, by simp, by decide +kernel, by decide +kernel,
      not_headed_a, page_a, .inl ⟨not_headed_b, page_b⟩⟩, words_a, words_b, hs, hR⟩
  obtain ⟨bytes, D, Ds, h1, h2, _, _, h5, _⟩ := c62_wordacc sampleUnicode Word.wbProp some Acc.samplePct Acc.samplePct_format (fun _ => some R)
    (ascii "wordaccsum") _ _ _ (two_line "wordaccsum" (by decide +kernel)) (by simp) [R, R] _
    (.cons rfl (.cons rfl .nil)) (.cons run (.cons run .nil)) (by unfold Manageable; decide +kernel) (by decide +kernel)
  exact ⟨_, bytes, D, h1, h2, by rw [h5]; decide +kernel⟩

end Ocr.Prog
