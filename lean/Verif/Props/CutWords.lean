import Verif.Props.FullDisk
import Verif.Props.Reports

/-!
# C102: word accuracy reports that are cut off
-/

namespace Ocr.AnyReport
open Text Report Res

theorem lines_line {l : List Nat} (h : Line l) (r : List Nat) : lines (l ++ 10 :: r) = (l ++ [10]) :: lines r := by
  obtain ⟨l', r', h1, h2, _⟩ := read_line_lines (file := l ++ 10 :: r) (by simp)
  rw [read_line_eq h] at h1
  cases h1
  exact h2

theorem pieces_last : ∀ (x cur : List Nat), 10 ∉ x → cur.length + x.length ≤ 97 → cur ++ x ≠ [] → pieces cur x = [cur ++ x]
  | [], cur, _, _, h => by simp only [List.append_nil] at h ⊢; exact pieces_nil h
  | b :: x, cur, h10, hl, _ => by
    simp only [List.mem_cons, not_or, List.length_cons] at h10 hl
    rw [pieces_cons, if_neg (by rintro (h | h); exacts [h10.1 h.symm, by omega]), pieces_last x (cur ++ [b]) h10.2 (by simp; omega) (by simp)]
    simp

theorem lines_last {x : List Nat} (h10 : 10 ∉ x) (h0 : 0 ∉ x) (hl : x.length ≤ 97) (hne : x ≠ []) : lines x = [x] := by
  unfold lines
  rw [pieces_last x [] h10 (by simpa using hl) (by simpa using hne)]
  simp only [List.nil_append, List.map_cons, List.map_nil, List.cons.injEq, and_true]
  exact List.takeWhile_eq_self_iff.2 (fun b hb => by simpa using fun (e : b = 0) => h0 (e ▸ hb))

/-- Two figures are enough for a row. -/
theorem row_two (v w : Int) (tail : List Nat) (ht : ∀ b ∈ tail.head?, isdigit b = false) :
    row? (fmtLong 8 v ++ [32] ++ fmtLong 8 w ++ tail) = some ⟨v, w, fmtLong 8 v ++ [32] ++ fmtLong 8 w ++ tail⟩ := by
  have h1 : scanLong (fmtLong 8 v ++ [32] ++ fmtLong 8 w ++ tail) = some (v, [32] ++ fmtLong 8 w ++ tail) := by
    have := scan_fmt 0 8 v ([32] ++ fmtLong 8 w ++ tail) (by simp [isdigit])
    simpa using this
  have h2 : scanLong ([32] ++ fmtLong 8 w ++ tail) = some (w, tail) := by
    have := scan_fmt 1 8 w tail ht
    simpa using this
  unfold row?
  rw [scanLongs_two h1 h2]

theorem number_first (v : Int) (tail : List Nat) (ht : ∀ b ∈ tail.head?, isdigit b = false) : number (fmtLong 8 v ++ tail) = some v := by
  have := scan_fmt 0 8 v tail ht
  simp only [List.replicate_zero, List.nil_append] at this
  simp [number, this]

end Ocr.AnyReport

namespace Ocr.Prog
open Text Res Spec AnyReport Report

/-- The lines of a word accuracy report before the first row. -/
def wordaccTop (pct : Int → Int → List Nat) (D : Wac.Wacdata) : List Nat :=
  ascii "ocreval Word Accuracy Report Version 7.0\n" ++
  ascii "----------------------------------------\n" ++
  row [num D.total.count] (ascii "Words") ++
  row [num D.total.missed] (ascii "Misrecognized") ++
  share pct (D.total.count - D.total.missed) D.total.count ++ ascii "%  Accuracy\n" ++
  (ascii "\n" ++ ascii "Stopwords" ++ ascii "\n   Count   Missed   %Right   " ++ ascii "Length" ++ ascii "\n")

/-- After them there is a row. -/
theorem wordacc_first {pct : Int → Int → List Nat} {D : Wac.Wacdata} (hR : Wac.Reportable D) (s1 s2 : List Term) :
    ∃ w : Wac.Wac, ∃ label rest, w.Fits ∧ wordaccText pct D s1 s2 = wordaccTop pct D ++ (countRow pct w.count w.missed label ++ rest) := by
  unfold wordaccText wordaccTop
  generalize ht : numbersText pct "Non-stopwords" "Length" D.non_stopword 50 none (some (D.non_stopword 0)) = a
  generalize numbersText pct "Distinct Non-stopwords" "Occurs" D.distinct_non_stopword 10 (some (D.distinct_non_stopword 11))
    (some (D.distinct_non_stopword 0)) = b
  generalize (if 0 < D.total.count then
    numbersText pct "Phrases" "Length" D.phrase 8 none none ++
    (if 0 < (D.stopword 0).count then termsText pct "Stopwords" s1 else []) ++
    (if 0 < (D.non_stopword 0).count then termsText pct "Non-stopwords" s2 else [])
  else []) = c
  unfold numbersText
  generalize (List.range' 1 50).filter (fun i => 0 < (D.stopword i).count) = is
  cases is with
  | nil => exact ⟨D.stopword 0, ascii " Total", a ++ (b ++ c), (hR.stop 0).1, by simp⟩
  | cons i is =>
    refine ⟨D.stopword i, ascii "    " ++ fmtLong 2 i, ?_, (hR.stop i).1, ?_⟩
    · exact is.flatMap (fun i => countRow pct (D.stopword i).count (D.stopword i).missed (ascii "    " ++ fmtLong 2 i)) ++
        (countRow pct (D.stopword 0).count (D.stopword 0).missed (ascii " Total") ++ (a ++ (b ++ c)))
    · simp

theorem share_plain {pct : Int → Int → List Nat} (hp : Acc.PctFormat pct) (a b : Int) : ∀ x ∈ share pct a b, x ≠ 10 ∧ x ≠ 0 := by
  unfold share
  split
  · decide +kernel
  · exact hp.bytes _ _

theorem share_le {pct : Int → Int → List Nat} (hp : Acc.PctFormat pct) (a b : Int) : (share pct a b).length ≤ 40 := by
  unfold share
  split
  · decide +kernel
  · exact hp.len _ _

/-- A file with these lines and a piece of a row has a row that is too short. -/
theorem short_row {pct : Int → Int → List Nat} (hp : Acc.PctFormat pct) {D : Wac.Wacdata} (hR : Wac.Reportable D) {w : Wac.Wac} (hw : w.Fits)
    (tail : List Nat) (ht : ∀ b ∈ tail, b ≠ 10 ∧ b ≠ 0) (hd : ∀ b ∈ tail.head?, isdigit b = false) (hl : tail.length < 12) (D0 : Wac.Wacdata) :
    Wac.read_wacrpt D0 (wordaccTop pct D ++ (num w.count ++ [32] ++ num w.missed ++ tail)) = .ub := by
  have l1 : (num w.count).length = 8 := fmtLong_len8 (hw.1.trans hw.2.1) hw.2.2
  have l2 : (num w.missed).length = 8 := fmtLong_len8 hw.1 (lt_of_le_of_lt hw.2.1 hw.2.2)
  have e1 : ascii "ocreval Word Accuracy Report Version 7.0\n" = ascii "ocreval Word Accuracy Report Version 7.0" ++ [10] := by decide +kernel
  have e2 : ascii "----------------------------------------\n" = ascii "----------------------------------------" ++ [10] := by decide +kernel
  have e3 : ascii "%  Accuracy\n" = ascii "%  Accuracy" ++ [10] := by decide +kernel
  have e4 : ascii "\n" ++ ascii "Stopwords" ++ ascii "\n   Count   Missed   %Right   " ++ ascii "Length" ++ ascii "\n" =
      [10] ++ (ascii "Stopwords" ++ [10]) ++ (ascii "   Count   Missed   %Right   Length" ++ [10]) := by decide +kernel
  have e5 : ascii "   " = [32, 32, 32] := by decide +kernel
  have plain : ∀ (v : Int) (s : List Nat), IsLong v → Line s → s.length ≤ 40 → Line (num v ++ ascii "   " ++ s) := by
    intro v s hv hs h40
    have hb := fmtLong_bytes 8 v
    have := fmtLong_len hv
    unfold num
    rw [e5]
    refine ⟨?_, ?_, by simp; omega⟩
    · simp only [List.mem_append, not_or]
      exact ⟨⟨fun h => (hb _ h).1 rfl, by simp⟩, hs.nl⟩
    · simp only [List.mem_append, not_or]
      exact ⟨⟨fun h => (hb _ h).2 rfl, by simp⟩, hs.nul⟩
  have k1 : Line (ascii "ocreval Word Accuracy Report Version 7.0") := ⟨by decide +kernel, by decide +kernel, by decide +kernel⟩
  have k2 : Line (ascii "----------------------------------------") := ⟨by decide +kernel, by decide +kernel, by decide +kernel⟩
  have k3 : Line (num D.total.count ++ ascii "   " ++ ascii "Words") :=
    plain _ _ hR.total.1 ⟨by decide +kernel, by decide +kernel, by decide +kernel⟩ (by decide +kernel)
  have k4 : Line (num D.total.missed ++ ascii "   " ++ ascii "Misrecognized") :=
    plain _ _ hR.total.2 ⟨by decide +kernel, by decide +kernel, by decide +kernel⟩ (by decide +kernel)
  have k5 : Line (share pct (D.total.count - D.total.missed) D.total.count ++ ascii "%  Accuracy") := by
    have hb := share_plain hp (D.total.count - D.total.missed) D.total.count
    have h40 := share_le hp (D.total.count - D.total.missed) D.total.count
    have n1 : 10 ∉ ascii "%  Accuracy" := by decide +kernel
    have n2 : 0 ∉ ascii "%  Accuracy" := by decide +kernel
    have n3 : (ascii "%  Accuracy").length = 11 := by decide +kernel
    refine ⟨?_, ?_, by simp [n3]; omega⟩
    · simp only [List.mem_append, not_or]
      exact ⟨fun h => (hb _ h).1 rfl, n1⟩
    · simp only [List.mem_append, not_or]
      exact ⟨fun h => (hb _ h).2 rfl, n2⟩
  have k6 : Line [] := ⟨by simp, by simp, by simp⟩
  have k7 : Line (ascii "Stopwords") := ⟨by decide +kernel, by decide +kernel, by decide +kernel⟩
  have k8 : Line (ascii "   Count   Missed   %Right   Length") := ⟨by decide +kernel, by decide +kernel, by decide +kernel⟩
  have hx : lines (num w.count ++ [32] ++ num w.missed ++ tail) = [num w.count ++ [32] ++ num w.missed ++ tail] := by
    have b1 := fmtLong_bytes 8 w.count
    have b2 := fmtLong_bytes 8 w.missed
    refine lines_last ?_ ?_ (by simp [l1, l2]; omega) (by simp)
    · simp only [List.mem_append, not_or]
      exact ⟨⟨⟨fun h => (b1 _ h).1 rfl, by simp⟩, fun h => (b2 _ h).1 rfl⟩, fun h => (ht _ h).1 rfl⟩
    · simp only [List.mem_append, not_or]
      exact ⟨⟨⟨fun h => (b1 _ h).2 rfl, by simp⟩, fun h => (b2 _ h).2 rfl⟩, fun h => (ht _ h).2 rfl⟩
  have hall : lines (wordaccTop pct D ++ (num w.count ++ [32] ++ num w.missed ++ tail)) =
      [Wac.TITLE, Wac.DIVIDER, num D.total.count ++ (ascii "   " ++ ascii "Words" ++ [10]),
        num D.total.missed ++ (ascii "   " ++ ascii "Misrecognized" ++ [10]),
        share pct (D.total.count - D.total.missed) D.total.count ++ ascii "%  Accuracy" ++ [10], [10], ascii "Stopwords" ++ [10],
        ascii "   Count   Missed   %Right   Length" ++ [10], num w.count ++ [32] ++ num w.missed ++ tail] := by
    generalize num w.count ++ [32] ++ num w.missed ++ tail = x at hx ⊢
    have : wordaccTop pct D ++ x = ascii "ocreval Word Accuracy Report Version 7.0" ++ 10 :: (ascii "----------------------------------------" ++ 10 ::
        ((num D.total.count ++ ascii "   " ++ ascii "Words") ++ 10 :: ((num D.total.missed ++ ascii "   " ++ ascii "Misrecognized") ++ 10 ::
        ((share pct (D.total.count - D.total.missed) D.total.count ++ ascii "%  Accuracy") ++ 10 :: ([] ++ 10 :: (ascii "Stopwords" ++ 10 ::
        (ascii "   Count   Missed   %Right   Length" ++ 10 :: x))))))) := by
      unfold wordaccTop
      rw [e1, e2, e3, e4]
      simp [row, List.intercalate]
    rw [this, lines_line k1, lines_line k2, lines_line k3, lines_line k4, lines_line k5, lines_line k6, lines_line k7, lines_line k8, hx]
    unfold Wac.TITLE Wac.DIVIDER
    rw [e1, e2]
    simp
  have h69 := c69_wordacc D0 (wordaccTop pct D ++ (num w.count ++ [32] ++ num w.missed ++ tail))
  have m1 : number (num D.total.count ++ (ascii "   " ++ ascii "Words" ++ [10])) = some D.total.count :=
    number_first _ _ (by rw [e5]; simp [isdigit])
  have m2 : number (num D.total.missed ++ (ascii "   " ++ ascii "Misrecognized" ++ [10])) = some D.total.missed :=
    number_first _ _ (by rw [e5]; simp [isdigit])
  have hw' : wordacc (lines (wordaccTop pct D ++ (num w.count ++ [32] ++ num w.missed ++ tail))) =
      some (wordaccBody D.total.count D.total.missed [ascii "Stopwords" ++ [10],
        ascii "   Count   Missed   %Right   Length" ++ [10], num w.count ++ [32] ++ num w.missed ++ tail]) := by
    rw [hall]
    have t : ∀ r, titled Wac.TITLE Wac.DIVIDER (Wac.TITLE :: Wac.DIVIDER :: r) = some r := by
      intro r
      rw [titled, if_pos ⟨List.take_prefix _ _, rfl⟩]
    unfold wordacc
    rw [t]
    simp only [m1, m2, Option.bind_eq_bind, Option.bind_some]
  rw [hw'] at h69
  refine h69.2 (fun hS => ?_)
  have hr : row? (num w.count ++ [32] ++ num w.missed ++ tail) = some ⟨w.count, w.missed, num w.count ++ [32] ++ num w.missed ++ tail⟩ :=
    row_two w.count w.missed tail hd
  have := hS.stop ⟨w.count, w.missed, num w.count ++ [32] ++ num w.missed ++ tail⟩ (by
    simp only [wordaccBody, List.drop_succ_cons, List.drop_zero]
    rw [rows_some hr]
    simp)
  have := this.1
  simp [l1, l2] at this
  omega

/-- C102 (crash, words).  Every report of `wordacc` can be cut off, at twelve places, so that reading it is undefined. -/
theorem c102_crash_words (U : Unicode) (prop : Nat → Word.WB) (nfc : List Nat → Option (List Nat)) (pct : Int → Int → List Nat)
    (hpct : Acc.PctFormat pct) (p : WordPage) (report : List Nat) (h : WordaccReport U prop nfc pct p report) (hm : Manageable p)
    (hl : p.correct.length < 10^8) :
    ∃ a, ∀ k < 12, a + k < report.length ∧ ∀ D, Wac.read_wacrpt D (report.take (a + k)) = .ub := by
  obtain ⟨flags, D, hf, hL, hD, hb, hR, e⟩ := wordacc_bytes hpct h hm hl
  have nul : ∀ t, Wac.TableFits t → Wac.NulTable t := by
    intro t ht c hc b hb hz
    subst hz
    exact (ht.keys c hc).2.1 hb
  obtain ⟨s1, s2, _, _, _, _, e'⟩ := Wac.layout (pct := pct) D hR.table1.nodup hR.table2.nodup (nul _ hR.table1) (nul _ hR.table2)
  rw [e] at e'
  obtain rfl := Res.ok.inj e'
  obtain ⟨w, label, rest, hw, q⟩ := wordacc_first (pct := pct) hR s1 s2
  rw [q]
  have l1 : (num w.count).length = 8 := fmtLong_len8 (hw.1.trans hw.2.1) hw.2.2
  have l2 : (num w.missed).length = 8 := fmtLong_len8 hw.1 (lt_of_le_of_lt hw.2.1 hw.2.2)
  have l3 : (share pct (w.count - w.missed) w.count).length = 8 := by
    obtain ⟨w1, w2, w3⟩ := hw
    unfold share
    split
    · decide +kernel
    · exact hpct.width _ _ (by omega) (by omega) (by omega)
  have e5 : ascii "   " = [32, 32, 32] := by decide +kernel
  have hs := share_plain hpct (w.count - w.missed) w.count
  refine ⟨(wordaccTop pct D).length + 17, fun k hk => ?_⟩
  have hrow : countRow pct w.count w.missed label ++ rest = (num w.count ++ [32] ++ num w.missed) ++
      ((32 :: (share pct (w.count - w.missed) w.count ++ [32, 32, 32])) ++ (label ++ 10 :: rest)) := by
    simp [countRow, row, List.intercalate, e5]
  rw [hrow]
  refine ⟨by simp [l1, l2, l3]; omega, fun D0 => ?_⟩
  have ht : (wordaccTop pct D ++ ((num w.count ++ [32] ++ num w.missed) ++
      ((32 :: (share pct (w.count - w.missed) w.count ++ [32, 32, 32])) ++ (label ++ 10 :: rest)))).take ((wordaccTop pct D).length + 17 + k) =
      wordaccTop pct D ++ (num w.count ++ [32] ++ num w.missed ++ (32 :: (share pct (w.count - w.missed) w.count ++ [32, 32, 32])).take k) := by
    have l4 : (num w.count ++ [32] ++ num w.missed).length = 17 := by simp [l1, l2]
    rw [show (wordaccTop pct D).length + 17 + k = (wordaccTop pct D).length + (17 + k) by omega, List.take_length_add_append]
    conv => lhs; rw [← l4]
    rw [List.take_length_add_append, List.take_append_of_le_length (by simp [l3]; omega)]
  rw [ht]
  refine short_row hpct hR hw _ (fun b hb => ?_) (fun b hb => ?_) (by simp [l3]; omega) D0
  · have := List.mem_of_mem_take hb
    simp only [List.mem_cons, List.mem_append, List.not_mem_nil, or_false] at this
    rcases this with rfl | h | rfl | rfl | rfl
    · decide
    · exact hs b h
    all_goals decide
  · cases k with
    | zero => simp at hb
    | succ k => simp at hb; subst hb; decide

/-- C102 (left behind).  For every run of `wordacc` that names a report, there is an amount of room on the disk with which the program ends
without an error, and leaves a report that is undefined to read. -/
theorem c102_left (errmsg : List Nat) (creatable : List Nat → Bool) (hcr : ∀ n, creatable n = true) (U : Unicode) (prop : Nat → Word.WB)
    (nfc : List Nat → Option (List Nat)) (pct : Int → Int → List Nat) (hpct : Acc.PctFormat pct) (junk : List Nat) (hj : Bytes junk) (junk' : Nat)
    (w : Disk.World) (hw : Disk.Fresh w) (exec prog : List Nat) (hb : Args.basefilename prog = .ok exec) (args : List (List Nat))
    (f0 f1 name : List Nat) (ss : List Args.Setting) (hc : CommandLine [(83, .value 0)] prog args [f0, f1, name] ss)
    (file0 file1 : List Nat) (h0 : w.files f0 = some file0) (h1 : w.files f1 = some file1) (t0 t1 : List Ch) (hh : ¬ Headed file0)
    (p0 : IsPage U true file0 t0) (p1 : HoldsText U true file1 t1) (p : WordPage) (hu : HasWords U prop nfc t0 p.correct)
    (hv : HasWords U prop nfc t1 p.generated) (hs : HasStopwords U prop nfc w.files ss p.stops) (hm : Manageable p)
    (hl : p.correct.length < 10^8) :
    ∃ n w' cut, (Disk.wordacc errmsg creatable U prop nfc pct junk junk').run (prog :: args) (w.short n) = .ok () w' ∧
      w'.files = Disk.replaced w.files name cut ∧ ∀ D, Wac.read_wacrpt D cut = .ub := by
  obtain ⟨report, _, _, _, e, _⟩ := c59_wordacc U prop nfc pct hpct junk hj junk' w.files prog args f0 f1 [name] ss hc (by simp) file0 file1 h0 h1
    t0 t1 hh p0 p1 p.correct p.generated p.stops hu hv hs hm.1 hm.2 hl
  have hR : WordaccReport U prop nfc pct p report :=
    ⟨junk, junk', w.files, prog, args, ss, _, t0, t1, hj, ⟨f0, f1, [name], file0, file1, hc, by simp, h0, h1, hh, p0, p1⟩, hu, hv, hs, e⟩
  obtain ⟨a, ha⟩ := c102_crash_words U prop nfc pct hpct p report hR hm hl
  have hE := (Process.c87_texts errmsg creatable hcr exec prog args hb U prop nfc pct junk junk' true w.files).2.2.1
  rw [e] at hE
  have h97 := (Disk.c97_reports errmsg creatable U prop nfc pct junk junk' (prog :: args) (w.short a) hw).2.1
  change Disk.Runs _ _ ((Process.wordacc errmsg creatable U prop nfc pct junk junk' w.files).run (prog :: args)) _ at h97
  rcases hE with ⟨_, hE⟩ | hE
  · cases hE
  · generalize (Process.wordacc errmsg creatable U prop nfc pct junk junk' w.files).run (prog :: args) = o at hE h97
    cases hE with
    | ok =>
      obtain ⟨w', q, d⟩ := h97
      refine ⟨a, w', report.take a, q, d.files, ?_⟩
      exact (ha 0 (by omega)).2

/-! ## Reports consist of bytes -/

theorem bytes_append {a b : List Nat} : Bytes (a ++ b) ↔ Bytes a ∧ Bytes b := by
  simp [Bytes, or_imp, forall_and]

theorem bytes_cons {a : Nat} {b : List Nat} : Bytes (a :: b) ↔ a < 256 ∧ Bytes b := by
  simp [Bytes]

theorem bytes_flatMap {α : Type} {l : List α} {f : α → List Nat} (h : ∀ a ∈ l, Bytes (f a)) : Bytes (l.flatMap f) := by
  intro b hb
  obtain ⟨a, ha, hb⟩ := List.mem_flatMap.1 hb
  exact h a ha b hb

theorem bytes_num (v : Int) : Bytes (num v) := by
  intro b hb
  unfold num fmtLong at hb
  rcases List.mem_append.1 hb with h | h
  · have := List.eq_of_mem_replicate h; omega
  · have hd := decDigits_digit v.natAbs
    unfold fmtInt at h
    have key : b = 45 ∨ isdigit b = true := by
      split at h
      · rcases List.mem_cons.1 h with h | h
        · exact .inl h
        · exact .inr (hd b h)
      · exact .inr (hd b h)
    rcases key with rfl | h
    · omega
    · simp [isdigit] at h; omega

theorem bytes_share {pct : Int → Int → List Nat} (hb : ∀ n d, Bytes (pct n d)) (n d : Int) : Bytes (share pct n d) := by
  unfold share
  split
  · exact bytes_ascii (by decide +kernel)
  · exact hb n d

theorem bytes_countRow {pct : Int → Int → List Nat} (hb : ∀ n d, Bytes (pct n d)) (n d : Int) {label : List Nat} (hl : Bytes label) :
    Bytes (countRow pct n d label) := by
  have e5 : ascii "   " = [32, 32, 32] := by decide +kernel
  simp [countRow, row, List.intercalate, e5, bytes_append, bytes_cons, bytes_num, bytes_share hb, hl]
  intro b h; cases h

theorem bytes_opsRow (o : Acc.Accops) {label : String} (hl : Bytes (ascii label)) : Bytes (opsRow o label) := by
  have e5 : ascii "   " = [32, 32, 32] := by decide +kernel
  simp [opsRow, row, List.intercalate, e5, bytes_append, bytes_cons, bytes_num, hl]
  intro b h; cases h

theorem bytes_row (n : Int) {label : List Nat} (hl : Bytes label) : Bytes (row [num n] label) := by
  have e5 : ascii "   " = [32, 32, 32] := by decide +kernel
  simp [row, List.intercalate, e5, bytes_append, bytes_cons, bytes_num, hl]
  intro b h; cases h

theorem bytes_named (U : Unicode) (v : Nat) : Bytes (Acc.named U v) := by
  unfold Acc.named
  split
  · exact bytes_ascii (by decide +kernel)
  · split
    · rw [bytes_append]
      refine ⟨?_, encode_bytes v⟩
      split
      · exact encode_bytes _
      · intro b h; cases h
    · rw [bytes_append, bytes_append]
      refine ⟨⟨bytes_ascii (by decide +kernel), fun b h => ?_⟩, bytes_ascii (by decide +kernel)⟩
      have := hexPad_dig _ _ b h
      unfold HexDig at this
      omega

theorem bytes_key (U : Unicode) (t0 t1 : List Ch) (s : Sync.Sync) : Bytes (Acc.itemKey U t0 t1 s) := by
  have h : ∀ vs, Bytes (Acc.abbreviated U vs) := by
    intro vs
    unfold Acc.abbreviated
    rw [bytes_append]
    refine ⟨bytes_flatMap (fun v _ => bytes_named U v), ?_⟩
    split
    · exact bytes_ascii (by decide +kernel)
    · intro b h; cases h
  unfold Acc.itemKey
  simp only [bytes_append]
  exact ⟨⟨⟨⟨bytes_ascii (by decide +kernel), h _⟩, bytes_ascii (by decide +kernel)⟩, h _⟩, bytes_ascii (by decide +kernel)⟩

/-- A report of `accuracy` consists of bytes. -/
theorem accuracy_report_bytes {U : Unicode} (F : UnicodeFacts U) {pct : Int → Int → List Nat} (hpct : Acc.PctFormat pct)
    (hpb : ∀ n d, Bytes (pct n d)) {p : List Ch × List Ch} {report : List Nat} (h : AccuracyReport U pct p report)
    (hlast : ∀ c ∈ p.1, c.value ≠ 0x10FFFF) (hl : p.1.length + p.2.length < 10^8) : Bytes report := by
  obtain ⟨D, items, confs, chars, er, hrest⟩ := c68_accuracy U F pct hpct p report h hlast hl
  have hC := hrest.2.2.2.2.1
  clear hrest hl
  rw [er]
  have hcl : ∀ i, Bytes (ascii (classOrder.getD i "")) := by
    intro i
    have hall : ∀ n ∈ classOrder, (ascii n).all (fun b => decide (b < 256)) = true := by decide +kernel
    rw [List.getD_eq_getElem?_getD]
    cases hi : classOrder[i]? with
    | none => intro b h; simp [ascii] at h
    | some n => exact bytes_ascii (hall n (List.mem_of_getElem? hi))
  have nil : Bytes [] := by intro b h; cases h
  unfold accuracyText
  simp only [bytes_append]
  refine ⟨⟨⟨⟨⟨⟨⟨⟨⟨⟨⟨⟨⟨⟨⟨⟨⟨⟨⟨⟨⟨bytes_ascii (by decide +kernel),
    bytes_ascii (by decide +kernel)⟩,
    bytes_row _ (bytes_ascii (by decide +kernel))⟩,
    bytes_row _ (bytes_ascii (by decide +kernel))⟩,
    bytes_share hpb _ _⟩,
    bytes_ascii (by decide +kernel)⟩,
    bytes_row _ (bytes_ascii (by decide +kernel))⟩,
    bytes_row _ (bytes_ascii (by decide +kernel))⟩,
    bytes_row _ (bytes_ascii (by decide +kernel))⟩,
    bytes_share hpb _ _⟩,
    bytes_ascii (by decide +kernel)⟩,
    bytes_share hpb _ _⟩,
    bytes_ascii (by decide +kernel)⟩,
    bytes_ascii (by decide +kernel)⟩,
    bytes_opsRow _ (bytes_ascii (by decide +kernel))⟩,
    bytes_opsRow _ (bytes_ascii (by decide +kernel))⟩,
    bytes_opsRow _ (bytes_ascii (by decide +kernel))⟩,
    bytes_ascii (by decide +kernel)⟩,
    bytes_flatMap (fun i _ => bytes_countRow hpb _ _ (hcl i))⟩,
    bytes_countRow hpb _ _ (bytes_ascii (by decide +kernel))⟩,
    ?_⟩,
    ?_⟩
  · split
    · rw [bytes_append]
      refine ⟨bytes_ascii (by decide +kernel), bytes_flatMap (fun c hc => ?_)⟩
      obtain ⟨s, _, _, e⟩ := (hC.keys c.key).1 (List.mem_map_of_mem hc)
      simp only [bytes_append]
      refine ⟨⟨⟨⟨bytes_num _, ?_⟩, bytes_num _⟩, bytes_ascii (by decide +kernel)⟩, e ▸ bytes_key U _ _ s⟩
      intro b hb
      simp only [List.mem_singleton] at hb
      omega
    · exact nil
  · split
    · rw [bytes_append]
      refine ⟨bytes_ascii (by decide +kernel), bytes_flatMap (fun v _ => bytes_countRow hpb _ _ ?_)⟩
      rw [bytes_append, bytes_append]
      exact ⟨⟨bytes_ascii (by decide +kernel), bytes_named U v⟩, bytes_ascii (by decide +kernel)⟩
    · exact nil

/-- C102 (left behind, accuracy).  The same for `accuracy`, if the correct text has a character that is not the reject character. -/
theorem c102_left_accuracy (errmsg : List Nat) (creatable : List Nat → Bool) (hcr : ∀ n, creatable n = true) (U : Unicode) (F : UnicodeFacts U)
    (pct : Int → Int → List Nat) (hpct : Acc.PctFormat pct) (hpb : ∀ n d, Bytes (pct n d)) (junk : List Nat) (hj : Bytes junk)
    (w : Disk.World) (hw : Disk.Fresh w) (hfs : ∀ name file, w.files name = some file → Bytes file)
    (exec prog : List Nat) (hb : Args.basefilename prog = .ok exec) (args : List (List Nat))
    (f0 f1 name : List Nat) (ss : List Args.Setting) (hc : CommandLine [] prog args [f0, f1, name] ss)
    (file0 file1 : List Nat) (h0 : w.files f0 = some file0) (h1 : w.files f1 = some file1) (t0 t1 : List Ch) (hh : ¬ Headed file0)
    (p0 : IsPage U false file0 t0) (p1 : HoldsText U false file1 t1) (hlast : ∀ c ∈ t0, c.value ≠ 0x10FFFF)
    (hl : t0.length + t1.length < 10^8) (c : Ch) (hm : c ∈ t0) (hne : c.value ≠ 126) :
    ∃ n w' cut, (Disk.accuracy errmsg creatable U pct junk).run (prog :: args) (w.short n) = .ok () w' ∧
      w'.files = Disk.replaced w.files name cut ∧ Acc.read_accrpt Acc.Accdata.zero cut = .ub := by
  obtain ⟨report, E, e, hE, hC, _⟩ := c58_accuracy U F pct hpct junk w.files prog args f0 f1 [name] ss hc (by simp) file0 file1 h0 h1
    t0 t1 hh p0 p1 hlast hl
  have hB : Bytes report := accuracy_report_bytes F hpct hpb (p := (t0, t1))
    ⟨junk, w.files, prog, args, ss, _, ⟨f0, f1, [name], file0, file1, hc, by simp, h0, h1, hh, p0, p1⟩, e⟩ hlast hl
  obtain ⟨a, ha⟩ := Disk.c102_crash E report hB hE ⟨c.value, by
    rw [hC.small]
    have : c.value ∈ Acc.nonreject t0 := List.mem_filter.2 ⟨List.mem_map.2 ⟨c, hm, rfl⟩, decide_eq_true hne⟩
    have := List.count_pos_iff.2 this
    omega⟩
  have hA := (Process.c87_texts errmsg creatable hcr exec prog args hb U Word.wbProp some pct junk 0 true w.files).1
  rw [e] at hA
  have h97 := (Disk.c97_texts errmsg creatable U pct junk true (prog :: args) (w.short a) hfs F hj hw).1
  change Disk.Runs _ _ ((Process.accuracy errmsg creatable U pct junk w.files).run (prog :: args)) _ at h97
  rcases hA with ⟨_, hA⟩ | hA
  · cases hA
  · generalize (Process.accuracy errmsg creatable U pct junk w.files).run (prog :: args) = o at hA h97
    cases hA with
    | ok =>
      obtain ⟨w', q, d⟩ := h97
      exact ⟨a, w', report.take a, q, d.files, ha⟩

/-! ## Non-vacuity -/

example : ∃ R a, WordaccReport sampleUnicode Word.wbProp some Acc.samplePct sampleWordPage R ∧ a < R.length ∧
    (∃ D, Wac.read_wacrpt Wac.Wacdata.zero R = .ok D) ∧ Wac.read_wacrpt Wac.Wacdata.zero (R.take a) = .ub := by
  obtain ⟨R, hR⟩ := sample_wordacc_report
  have hm : Manageable sampleWordPage := by unfold Manageable; decide +kernel
  obtain ⟨a, ha⟩ := c102_crash_words sampleUnicode Word.wbProp some Acc.samplePct Acc.samplePct_format sampleWordPage R hR hm (by decide +kernel)
  obtain ⟨_, _, E, _, _, _, _, r, _⟩ := wordacc_report Acc.samplePct_format hR hm (by decide +kernel)
  exact ⟨R, a, hR, (ha 0 (by omega)).1, ⟨E, r⟩, (ha 0 (by omega)).2 _⟩

theorem wordacc_named : CommandLine [(83, .value 0)] (ascii "wordacc") [ascii "-S", ascii "s", ascii "a", ascii "b", ascii "new"]
    [ascii "a", ascii "b", ascii "new"] [⟨.value 0, ascii "s"⟩] :=
  ⟨by decide +kernel, by decide +kernel, by decide +kernel, by simp,
    .separate (by unfold Args.Help; decide +kernel) (by decide) (.operand (by rintro ⟨c, r, e⟩; simp [ascii] at e)
      (.operand (by rintro ⟨c, r, e⟩; simp [ascii] at e) (.operand (by rintro ⟨c, r, e⟩; simp [ascii] at e) .nil))), by simp [Args.Once]⟩

/-- `wordacc -S s a b new` on a disk that is almost full. -/
example : ∃ n w' cut, (Disk.wordacc [] (fun _ => true) sampleUnicode Word.wbProp some Acc.samplePct [] 0).run
      [ascii "wordacc", ascii "-S", ascii "s", ascii "a", ascii "b", ascii "new"] ((Disk.atStart sampleFs).short n) = .ok () w' ∧
    w'.files (ascii "new") = some cut ∧ Wac.read_wacrpt Wac.Wacdata.zero cut = .ub := by
  have hs : HasStopwords sampleUnicode Word.wbProp some sampleFs [⟨.value 0, ascii "s"⟩] sampleWordPage.stops :=
    .inr ⟨ascii "s", ascii "On the", plain "on the", by simp, by decide +kernel, bytes_ascii (by decide +kernel), list_s, words_s⟩
  obtain ⟨n, w', cut, q1, q2, q3⟩ := c102_left [] (fun _ => true) (fun _ => rfl) sampleUnicode Word.wbProp some Acc.samplePct Acc.samplePct_format []
    (by intro b hb; cases hb) 0 (Disk.atStart sampleFs) (by intro o h; cases h) (ascii "wordacc") (ascii "wordacc") (by decide +kernel) _ _ _ _ _
    wordacc_named _ _ (show sampleFs (ascii "a") = _ by decide +kernel) (show sampleFs (ascii "b") = _ by decide +kernel) _ _ not_headed_a page_a
    (.inl ⟨not_headed_b, page_b⟩) sampleWordPage words_a words_b hs (by unfold Manageable; decide +kernel) (by decide +kernel)
  exact ⟨n, w', cut, q1, by rw [q2]; simp [Disk.replaced], q3 _⟩

theorem bytes_fmtLong (w : Nat) (v : Int) : Bytes (fmtLong w v) := by
  intro b hb
  rcases List.mem_append.1 hb with h | h
  · have := List.eq_of_mem_replicate h; omega
  · exact bytes_num v b (List.mem_append_right _ h)

theorem samplePct_bytes (n d : Int) : Bytes (Acc.samplePct n d) := by
  unfold Acc.samplePct
  split
  · exact bytes_append.2 ⟨bytes_fmtLong _ _, bytes_ascii (by decide +kernel)⟩
  · exact bytes_ascii (by decide +kernel)

theorem sampleFs_bytes (name file : List Nat) (h : sampleFs name = some file) : Bytes file := by
  unfold sampleFs at h
  split at h
  · cases h; exact bytes_ascii (by decide +kernel)
  · split at h
    · cases h; exact bytes_ascii (by decide +kernel)
    · split at h
      · cases h; exact bytes_ascii (by decide +kernel)
      · split at h
        · cases h; exact bytes_ascii (by decide +kernel)
        · split at h
          · cases h; exact bytes_ascii (by decide +kernel)
          · cases h

/-- `accuracy a b report` on a disk that is almost full. -/
example : ∃ n w' cut, (Disk.accuracy [] (fun _ => true) sampleUnicode Acc.samplePct []).run
      [ascii "accuracy", ascii "a", ascii "b", ascii "report"] ((Disk.atStart sampleFs).short n) = .ok () w' ∧
    w'.files (ascii "report") = some cut ∧ Acc.read_accrpt Acc.Accdata.zero cut = .ub := by
  obtain ⟨n, w', cut, q1, q2, q3⟩ := c102_left_accuracy [] (fun _ => true) (fun _ => rfl) sampleUnicode sampleFacts Acc.samplePct
    Acc.samplePct_format samplePct_bytes [] (by intro b hb; cases hb) (Disk.atStart sampleFs) (by intro o h; cases h) sampleFs_bytes
    (ascii "accuracy") (ascii "accuracy") (by decide +kernel) _ _ _ _ _ (sample_line [] "accuracy" (by decide +kernel)) _ _
    (show sampleFs (ascii "a") = _ by decide +kernel) (show sampleFs (ascii "b") = _ by decide +kernel) _ _ not_headed_a sample_a
    (.inl ⟨not_headed_b, sample_b⟩) (by decide +kernel) (by decide +kernel) ⟨false, 84⟩ (by decide +kernel) (by decide)
  exact ⟨n, w', cut, q1, by rw [q2]; simp [Disk.replaced], q3⟩

end Ocr.Prog
