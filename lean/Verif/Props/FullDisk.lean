import Verif.Spec.FullDisk
import Verif.Props.Signal
import Verif.Props.AnyReport
import Verif.Props.Edorpt
import Mathlib.Data.List.TakeWhile

/-!
# C102: a full disk is not noticed
-/

namespace Ocr.Disk
open Text Prog Process

attribute [local irreducible] Follows Runs

theorem cut_written (n : Nat) (files : Fs) (o : Output) : Cut n files (written files o) (written files ⟨o.filename, o.bytes.take n⟩) := by
  obtain ⟨_ | name, bytes⟩ := o
  · exact .inl ⟨rfl, rfl⟩
  · exact .inr ⟨name, bytes, rfl, rfl⟩

theorem unnoticed {α : Type} {view : α → List Nat × Output} {w : World} {n : Nat} {o : Out α} {r r' : Fin Unit}
    (h : Runs view w.ample o r) (h' : Runs view (w.short n) o r') : Unnoticed n w.files r r' := by
  unfold Runs at h h'
  cases o with
  | ok e a =>
    obtain ⟨w1, rfl, d1⟩ := h
    obtain ⟨w2, rfl, d2⟩ := h'
    refine ⟨w2, rfl, d2.out.trans d1.out.symm, d2.err.trans d1.err.symm, d2.opened.trans d1.opened.symm, ?_⟩
    rw [d1.files, d2.files]
    exact cut_written n w.files (view a).2
  | exit s e =>
    obtain ⟨w1, rfl, d1⟩ := h
    obtain ⟨w2, rfl, d2⟩ := h'
    exact ⟨w2, rfl, d2.err.trans d1.err.symm, d1.files, d2.files⟩
  | abort =>
    obtain ⟨w1, rfl, d1, _⟩ := h
    obtain ⟨w2, rfl, d2, _⟩ := h'
    exact ⟨w2, rfl, d1, d2⟩
  | ub => subst h; subst h'; rfl
  | fuel => subst h; subst h'; rfl

section
variable (errmsg : List Nat) (creatable : List Nat → Bool) (U : Unicode) (prop : Nat → Word.WB) (nfc : List Nat → Option (List Nat))
  (pct : Int → Int → List Nat) (signed : Bool) (junk : List Nat) (junk' : Nat) (argv : List (List Nat)) (w : World) (n : Nat)

/-- C102 (reports).  Whatever the disk has room for, `editop`, `wordacc` and `groupacc` end as they do on a disk with enough room: with the
same exit status and the same messages.  The report they leave may be cut off. -/
theorem c102_reports (hw : Fresh w) :
    Unnoticed n w.files ((editop errmsg creatable U junk).run argv w.ample) ((editop errmsg creatable U junk).run argv (w.short n)) ∧
    Unnoticed n w.files ((wordacc errmsg creatable U prop nfc pct junk junk').run argv w.ample)
      ((wordacc errmsg creatable U prop nfc pct junk junk').run argv (w.short n)) ∧
    Unnoticed n w.files ((groupacc errmsg creatable U pct junk).run argv w.ample) ((groupacc errmsg creatable U pct junk).run argv (w.short n)) := by
  obtain ⟨a1, a2, a3⟩ := c97_reports errmsg creatable U prop nfc pct junk junk' argv w.ample hw
  obtain ⟨b1, b2, b3⟩ := c97_reports errmsg creatable U prop nfc pct junk junk' argv (w.short n) hw
  exact ⟨unnoticed a1 b1, unnoticed a2 b2, unnoticed a3 b3⟩

/-- C102 (texts).  The same holds of `accuracy` and `vote`. -/
theorem c102_texts (hfs : ∀ name file, w.files name = some file → Bytes file) (F : UnicodeFacts U) (hj : Bytes junk) (hw : Fresh w) :
    Unnoticed n w.files ((accuracy errmsg creatable U pct junk).run argv w.ample) ((accuracy errmsg creatable U pct junk).run argv (w.short n)) ∧
    Unnoticed n w.files ((vote errmsg creatable U signed junk).run argv w.ample) ((vote errmsg creatable U signed junk).run argv (w.short n)) := by
  obtain ⟨a1, a2⟩ := c97_texts errmsg creatable U pct junk signed argv w.ample hfs F hj hw
  obtain ⟨b1, b2⟩ := c97_texts errmsg creatable U pct junk signed argv (w.short n) hfs F hj hw
  exact ⟨unnoticed a1 b1, unnoticed a2 b2⟩

end

/-! ## Reports that are cut off -/

open AnyReport Report Edo

theorem pieces_take : ∀ (file cur : List Nat) (n m : Nat), m < (pieces cur (file.take n)).length →
    (pieces cur file).take m = (pieces cur (file.take n)).take m ∧ m < (pieces cur file).length
  | [], cur, n, m, h => by simpa using h
  | b :: file, cur, 0, m, h => by
    have h1 : (pieces cur []).length ≤ 1 := by cases cur <;> simp [pieces]
    obtain rfl : m = 0 := by rw [List.take_zero] at h; omega
    refine ⟨by simp, ?_⟩
    have : ∀ (file cur : List Nat), file ≠ [] ∨ cur ≠ [] → 0 < (pieces cur file).length := by
      intro file
      induction file with
      | nil => intro cur h; cases cur <;> simp_all [pieces]
      | cons b file ih =>
        intro cur _
        rw [pieces_cons]
        split
        · simp
        · exact ih _ (by simp)
    exact this _ _ (by simp)
  | b :: file, cur, n + 1, m, h => by
    rw [List.take_succ_cons] at h ⊢
    rw [pieces_cons] at h ⊢
    rw [pieces_cons]
    split at h
    · rename_i hb
      rw [if_pos hb, if_pos hb]
      cases m with
      | zero => simp
      | succ m =>
        have := pieces_take file [] n m (by simpa using h)
        simpa using this
    · rename_i hb
      rw [if_neg hb, if_neg hb]
      exact pieces_take file _ n m h

/-- The lines of a file that is cut off: all but the last are those of the file. -/
theorem lines_take {file : List Nat} {n m : Nat} (h : m < (lines (file.take n)).length) :
    (lines file).take m = (lines (file.take n)).take m ∧ m < (lines file).length := by
  unfold lines at h ⊢
  rw [List.length_map] at h ⊢
  have := pieces_take file [] n m h
  rw [← List.map_take, ← List.map_take, this.1]
  exact ⟨rfl, this.2⟩

theorem titled_some {title divider : List Nat} {ls rest : List (List Nat)} (h : titled title divider ls = some rest) :
    ∃ t d, ls = t :: d :: rest := by
  unfold titled at h
  split at h
  · rename_i t d r
    split at h
    · cases h; exact ⟨t, d, rfl⟩
    · cases h
  · cases h

theorem editop_cut {D0 E0 D E : Edodata} {file : List Nat} {n : Nat} (h : read_edorpt D0 file = .ok D) (h' : read_edorpt E0 (file.take n) = .ok E)
    (h0 : E0.total_insertions = D0.total_insertions ∧ E0.total_deletions = D0.total_deletions) :
    E.total_insertions = D.total_insertions ∧ E.total_deletions = D.total_deletions := by
  have key : ∀ (f : List Nat) (D0 D : Edodata), read_edorpt D0 f = .ok D →
      ∃ t d a b c rest, lines f = t :: d :: a :: b :: c :: rest ∧ number a = some (D.total_insertions - D0.total_insertions) ∧
        number b = some (D.total_deletions - D0.total_deletions) := by
    intro f D0 D hr
    have hc := c69_editop D0 f
    cases hx : AnyReport.editop (lines f) with
    | none => rw [hx] at hc; simp only at hc; rw [hc] at hr; cases hr
    | some p =>
      obtain ⟨ins, del, moves, R⟩ := p
      rw [hx] at hc
      simp only at hc
      have hE : D = ⟨D0.total_insertions + ins, D0.total_deletions + del, D0.total_moves + moves,
          fun i => D0.moves i + firsts (fun r => r.second = i) R⟩ := by
        by_cases hR : ∀ r ∈ R, 0 ≤ r.second ∧ r.second ≤ 100
        · rw [hc.1 hR] at hr; cases hr; rfl
        · rw [hc.2 (by push Not at hR; simpa using hR)] at hr; cases hr
      unfold AnyReport.editop at hx
      split at hx
      · rename_i x y z rest hti
        obtain ⟨t, d, e⟩ := titled_some hti
        simp only [Option.bind_eq_bind, Option.bind_eq_some_iff, Option.some.injEq, Prod.mk.injEq] at hx
        obtain ⟨_, h1, _, h2, m, _, rfl, rfl, _⟩ := hx
        exact ⟨t, d, x, y, z, rest, e, by rw [hE, h1]; simp, by rw [hE, h2]; simp⟩
      · cases hx
  obtain ⟨t, d, a, b, c, rest, e, h1, h2⟩ := key _ _ _ h
  obtain ⟨t', d', a', b', c', rest', e', h1', h2'⟩ := key _ _ _ h'
  have := (lines_take (file := file) (n := n) (m := 4) (by rw [e']; simp)).1
  rw [e, e'] at this
  simp only [List.take_succ_cons, List.take_zero, List.cons.injEq, and_true] at this
  obtain ⟨_, _, rfl, rfl⟩ := this
  have e1 := Option.some.inj (h1'.symm.trans h1)
  have e2 := Option.some.inj (h2'.symm.trans h2)
  omega

/-- C102 (cut, edit operations).  If a file is read as a report of `editop` and also if it is cut off anywhere, the numbers of insertions
and deletions are the same.  The moves may differ, as the examples below show. -/
theorem c102_editop (D E : Edodata) (file : List Nat) (n : Nat) (h : read_edorpt Edodata.zero file = .ok D)
    (h' : read_edorpt Edodata.zero (file.take n) = .ok E) :
    E.total_insertions = D.total_insertions ∧ E.total_deletions = D.total_deletions := editop_cut h h' ⟨rfl, rfl⟩

theorem wordacc_cut {D0 E0 D E : Wac.Wacdata} {file : List Nat} {n : Nat} (h : Wac.read_wacrpt D0 file = .ok D)
    (h' : Wac.read_wacrpt E0 (file.take n) = .ok E) (h0 : E0.total = D0.total) : E.total = D.total := by
  have key : ∀ (f : List Nat) (D0 D : Wac.Wacdata), Wac.read_wacrpt D0 f = .ok D →
      ∃ t d a b c rest, lines f = t :: d :: a :: b :: c :: rest ∧ number a = some (D.total.count - D0.total.count) ∧
        number b = some (D.total.missed - D0.total.missed) := by
    intro f D0 D hr
    have hc := c69_wordacc D0 f
    cases hx : AnyReport.wordacc (lines f) with
    | none => rw [hx] at hc; simp only at hc; rw [hc] at hr; cases hr
    | some p =>
      rw [hx] at hc
      simp only at hc
      by_cases hS : p.Sound
      · obtain ⟨E, e1, e2⟩ := hc.1 hS
        rw [hr] at e1
        cases e1
        have ht := e2.total
        unfold AnyReport.wordacc at hx
        split at hx
        · rename_i x y z z' rest hti
          obtain ⟨t, d, e⟩ := titled_some hti
          simp only [Option.bind_eq_bind, Option.bind_eq_some_iff, Option.some.injEq] at hx
          obtain ⟨_, h1, _, h2, rfl⟩ := hx
          exact ⟨t, d, x, y, z, _, e, by rw [ht, h1]; simp [wordaccBody], by rw [ht, h2]; simp [wordaccBody]⟩
        · cases hx
      · rw [hc.2 hS] at hr; cases hr
  obtain ⟨t, d, a, b, c, rest, e, h1, h2⟩ := key _ _ _ h
  obtain ⟨t', d', a', b', c', rest', e', h1', h2'⟩ := key _ _ _ h'
  have := (lines_take (file := file) (n := n) (m := 4) (by rw [e']; simp)).1
  rw [e, e'] at this
  simp only [List.take_succ_cons, List.take_zero, List.cons.injEq, and_true] at this
  obtain ⟨_, _, rfl, rfl⟩ := this
  have e1 := Option.some.inj (h1'.symm.trans h1)
  have e2 := Option.some.inj (h2'.symm.trans h2)
  rw [h0] at e1 e2
  revert e1 e2
  generalize E.total = x
  generalize D.total = y
  cases x; cases y
  intro e1 e2
  simp only [Wac.Wac.mk.injEq] at e1 e2 ⊢
  omega

/-- C102 (cut, words).  The same for reports of `wordacc`: the numbers of words and of words missed are right, however much of the report is
lost. -/
theorem c102_wordacc (D E : Wac.Wacdata) (file : List Nat) (n : Nat) (h : Wac.read_wacrpt Wac.Wacdata.zero file = .ok D)
    (h' : Wac.read_wacrpt Wac.Wacdata.zero (file.take n) = .ok E) : E.total = D.total := wordacc_cut h h' rfl

/-- The figures at the top, with those of a report added. -/
def topAdd (t : Int × Int × Int × Int × Int × Acc.Accops × Acc.Accops × Acc.Accops) (h : Acc.Head) :
    Int × Int × Int × Int × Int × Acc.Accops × Acc.Accops × Acc.Accops :=
  (t.1 + h.characters, t.2.1 + h.errors, t.2.2.1 + h.reject_characters, t.2.2.2.1 + h.suspect_markers, t.2.2.2.2.1 + h.false_marks,
    Acc.sumOps [t.2.2.2.2.2.1, h.marked_ops], Acc.sumOps [t.2.2.2.2.2.2.1, h.unmarked_ops], Acc.sumOps [t.2.2.2.2.2.2.2, h.total_ops])

theorem accuracy_cut {D0 E0 D E : Acc.Accdata} {file : List Nat} {n : Nat} (hb : Bytes file) (h : Acc.read_accrpt D0 file = .ok D)
    (h' : Acc.read_accrpt E0 (file.take n) = .ok E) (h0 : top E0 = top D0) : top E = top D := by
  have key : ∀ (f : List Nat) (D0 D : Acc.Accdata), Bytes f → Acc.read_accrpt D0 f = .ok D →
      ∃ p, AnyReport.accuracy (lines f) = some p ∧ top D = topAdd (top D0) p.head := by
    intro f D0 D hf hr
    have hc := c69_accuracy D0 f hf
    cases hx : AnyReport.accuracy (lines f) with
    | none => rw [hx] at hc; simp only at hc; rw [hc] at hr; cases hr
    | some p =>
      rw [hx] at hc
      simp only at hc
      refine ⟨p, rfl, ?_⟩
      by_cases hN : HasNames 20 p.confs
      · rcases c69_rows p.classes with ⟨vs, hv⟩ | ⟨pre, r, post, us, q1, q2, q3⟩
        · obtain ⟨E, e1, e2⟩ := (hc.2 hN).1 vs hv
          rw [hr] at e1
          cases e1
          unfold top
          rw [e2.characters, e2.errors, e2.rejects, e2.suspects, e2.falses, e2.marked, e2.unmarked, e2.total]
          rfl
        · have := (hc.2 hN).2 pre r post us q1 q2
          rcases q3 with q3 | q3
          · rw [this.1 q3] at hr; cases hr
          · rw [this.2 q3] at hr; cases hr
      · rw [hc.1 hN] at hr; cases hr
  obtain ⟨p, e1, e2⟩ := key _ _ _ hb h
  obtain ⟨p', e1', e2'⟩ := key _ _ _ (fun b hm => hb b (List.mem_of_mem_take hm)) h'
  rw [e2, e2', h0]
  suffices p'.head = p.head by rw [this]
  unfold AnyReport.accuracy at e1 e1'
  split at e1
  · rename_i hti
    split at e1'
    · rename_i hti'
      obtain ⟨t, d, q⟩ := titled_some hti
      obtain ⟨t', d', q'⟩ := titled_some hti'
      have := (lines_take (file := file) (n := n) (m := 16) (by rw [q']; simp)).1
      rw [q, q'] at this
      simp only [List.take_succ_cons, List.take_zero, List.cons.injEq, and_true] at this
      obtain ⟨_, _, rfl, rfl, _, _, rfl, rfl, rfl, _, _, _, _, rfl, rfl, rfl⟩ := this
      simp only [Option.bind_eq_bind, Option.bind_eq_some_iff, Option.some.injEq] at e1 e1'
      obtain ⟨_, a1, _, a2, _, a3, _, a4, _, a5, _, a6, _, a7, _, a8, rfl⟩ := e1
      obtain ⟨_, b1, _, b2, _, b3, _, b4, _, b5, _, b6, _, b7, _, b8, rfl⟩ := e1'
      rw [a1] at b1; rw [a2] at b2; rw [a3] at b3; rw [a4] at b4; rw [a5] at b5; rw [a6] at b6; rw [a7] at b7; rw [a8] at b8
      cases b1; cases b2; cases b3; cases b4; cases b5; cases b6; cases b7; cases b8
      rfl
    · cases e1'
  · cases e1

/-- C102 (cut, characters).  The same for reports of `accuracy`: all figures at the top are right, however much of the report is lost. -/
theorem c102_accuracy (D E : Acc.Accdata) (file : List Nat) (n : Nat) (hb : Bytes file) (h : Acc.read_accrpt Acc.Accdata.zero file = .ok D)
    (h' : Acc.read_accrpt Acc.Accdata.zero (file.take n) = .ok E) : top E = top D := accuracy_cut hb h h' rfl

/-- C102 (sums).  The programs that add up reports (`editopsum`, `wordaccsum`, `accsum`) find the right figures for the top of the sum,
whatever is missing at the ends of the reports, if they accept the reports at all. -/
theorem c102_sums (files cut : List (List Nat)) (hc : Shortened cut files) :
    (∀ D E, Edo.readAll Edodata.zero files = .ok D → Edo.readAll Edodata.zero cut = .ok E →
      E.total_insertions = D.total_insertions ∧ E.total_deletions = D.total_deletions) ∧
    (∀ D E, Wac.readAll Wac.Wacdata.zero files = .ok D → Wac.readAll Wac.Wacdata.zero cut = .ok E → E.total = D.total) ∧
    ((∀ f ∈ files, Bytes f) → ∀ D E, Acc.readAll Acc.Accdata.zero files = .ok D → Acc.readAll Acc.Accdata.zero cut = .ok E → top E = top D) := by
  refine ⟨?_, ?_, ?_⟩
  · suffices ∀ D0 E0 D E, E0.total_insertions = D0.total_insertions ∧ E0.total_deletions = D0.total_deletions → Edo.readAll D0 files = .ok D →
        Edo.readAll E0 cut = .ok E → E.total_insertions = D.total_insertions ∧ E.total_deletions = D.total_deletions from
      fun D E => this _ _ D E ⟨rfl, rfl⟩
    induction hc with
    | nil => intro D0 E0 D E h0 h h'; cases h; cases h'; exact h0
    | cons hf _ ih =>
      intro D0 E0 D E h0 h h'
      obtain ⟨n, rfl⟩ := hf
      obtain ⟨D1, h1, h2⟩ := Res.bind_eq_ok.1 h
      obtain ⟨E1, h1', h2'⟩ := Res.bind_eq_ok.1 h'
      exact ih D1 E1 D E (editop_cut h1 h1' h0) h2 h2'
  · suffices ∀ D0 E0 D E, E0.total = D0.total → Wac.readAll D0 files = .ok D → Wac.readAll E0 cut = .ok E → E.total = D.total from
      fun D E => this _ _ D E rfl
    induction hc with
    | nil => intro D0 E0 D E h0 h h'; cases h; cases h'; exact h0
    | cons hf _ ih =>
      intro D0 E0 D E h0 h h'
      obtain ⟨n, rfl⟩ := hf
      obtain ⟨D1, h1, h2⟩ := Res.bind_eq_ok.1 h
      obtain ⟨E1, h1', h2'⟩ := Res.bind_eq_ok.1 h'
      exact ih D1 E1 D E (wordacc_cut h1 h1' h0) h2 h2'
  · intro hb
    suffices ∀ D0 E0 D E, top E0 = top D0 → Acc.readAll D0 files = .ok D → Acc.readAll E0 cut = .ok E → top E = top D from
      fun D E => this _ _ D E rfl
    induction hc with
    | nil => intro D0 E0 D E h0 h h'; cases h; cases h'; exact h0
    | cons hf _ ih =>
      intro D0 E0 D E h0 h h'
      obtain ⟨n, rfl⟩ := hf
      obtain ⟨D1, h1, h2⟩ := Res.bind_eq_ok.1 h
      obtain ⟨E1, h1', h2'⟩ := Res.bind_eq_ok.1 h'
      exact ih (fun f hf => hb f (List.mem_cons_of_mem _ hf)) D1 E1 D E (accuracy_cut (hb _ (List.mem_cons_self ..)) h1 h1' h0) h2 h2'

/-! ## Reports that are cut off within a row -/

theorem brace_scan {a b : List Nat} {v : Int} {rest : List Nat} (h : scanLong (a ++ 123 :: b) = some (v, rest)) :
    ∃ c, rest = c ++ 123 :: b ∧ ∀ b', scanLong (a ++ 123 :: b') = some (v, c ++ 123 :: b') := by
  obtain ⟨ws, sg, vs, ds, f, e, h1, h2, h3, h4, h5, h6⟩ := (c69_decimal _ _ _).1 h
  have hd : ∀ v, ¬ Numerals.digit 10 v 123 := by
    rintro v ⟨hv, hd⟩
    interval_cases v <;> revert hd <;> decide +kernel
  have hds : 123 ∉ ds := by
    intro hm
    obtain ⟨x, _, hx⟩ : ∃ x ∈ vs, Numerals.digit 10 x 123 := by
      clear h6 h5 h3 e h
      induction h4 with
      | nil => cases hm
      | cons hh _ ih =>
        rcases List.mem_cons.1 hm with rfl | hm
        · exact ⟨_, List.mem_cons_self .., hh⟩
        · obtain ⟨x, k1, k2⟩ := ih hm
          exact ⟨x, List.mem_cons_of_mem _ k1, k2⟩
    exact hd x hx
  have hq : 123 ∉ ws ++ sg ++ ds := by
    intro hm
    rcases List.mem_append.1 hm with hm | hm
    · rcases List.mem_append.1 hm with hm | hm
      · have := h1 _ hm
        revert this; decide +kernel
      · rcases h2 with ⟨rfl, _⟩ | ⟨rfl, _⟩ | ⟨rfl, _⟩ <;> revert hm <;> decide +kernel
    · exact hds hm
  obtain ⟨c, hc, hr⟩ : ∃ c, a = ws ++ sg ++ ds ++ c ∧ rest = c ++ 123 :: b := by
    rcases List.append_eq_append_iff.1 e with ⟨x, k1, k2⟩ | ⟨c, k1, k2⟩
    · cases x with
      | nil => exact ⟨[], by simpa using k1.symm, by simpa using k2.symm⟩
      | cons y x =>
        cases k2
        exact absurd (by rw [k1]; simp) hq
    · exact ⟨c, k1, k2⟩
  refine ⟨c, hr, fun b' => (c69_decimal _ _ _).2 ⟨ws, sg, vs, ds, f, by rw [hc]; simp, h1, h2, h3, h4, ?_, h6⟩⟩
  cases c with
  | nil => intro x t ex; cases ex; exact hd
  | cons y c =>
    intro x t ex
    cases ex
    exact h5 y _ hr

theorem brace_row {a b : List Nat} {r : Row} (h : row? (a ++ 123 :: b) = some r) (b' : List Nat) :
    ∃ r', row? (a ++ 123 :: b') = some r' ∧ r'.line = a ++ 123 :: b' := by
  unfold row? at h
  split at h
  · rename_i x y hs
    simp only [scanLongs, Option.bind_eq_bind, Option.bind_eq_some_iff, Option.some.injEq, List.cons.injEq] at hs
    obtain ⟨⟨v, s1⟩, k1, _, ⟨⟨v2, s2⟩, k2, _, _, _⟩, _, _⟩ := hs
    obtain ⟨c, rfl, k3⟩ := brace_scan k1
    obtain ⟨c2, _, k4⟩ := brace_scan k2
    refine ⟨⟨v, v2, a ++ 123 :: b'⟩, ?_, rfl⟩
    unfold row?
    simp [scanLongs, k3, k4]
  · cases h

theorem pieces_head : ∀ (file cur l : List Nat) (rest : List (List Nat)), pieces cur file = l :: rest → cur <+: l
  | [], cur, l, rest, h => by
    cases cur with
    | nil => exact List.nil_prefix
    | cons c cur => rw [pieces_nil (by simp)] at h; cases h; exact List.prefix_refl _
  | b :: file, cur, l, rest, h => by
    rw [pieces_cons] at h
    split at h
    · cases h; exact List.prefix_append _ _
    · exact (List.prefix_append _ _).trans (pieces_head file _ l rest h)

theorem pieces_at : ∀ (file cur : List Nat) (u : List (List Nat)) (l : List Nat) (rest : List (List Nat)) (k : Nat),
    pieces cur file = u ++ l :: rest → 0 < k → k ≤ l.length → (u = [] → cur.length ≤ k) →
    ∃ n, pieces cur (file.take n) = u ++ [l.take k]
  | [], cur, u, l, rest, k, h, hk, hl, hu => by
    cases cur with
    | nil => simp [pieces] at h
    | cons c cur =>
      rw [pieces_nil (by simp)] at h
      cases u with
      | nil =>
        cases h
        refine ⟨0, ?_⟩
        rw [List.take_nil, pieces_nil (by simp), List.take_of_length_le (hu rfl)]
        rfl
      | cons x u => simp at h
  | b :: file, cur, u, l, rest, k, h, hk, hl, hu => by
    by_cases hz : u = [] ∧ k = cur.length
    · obtain ⟨rfl, rfl⟩ := hz
      have hp := pieces_head _ _ _ _ h
      refine ⟨0, ?_⟩
      rw [List.take_zero, pieces_nil (by rintro rfl; simp at hk), ← List.prefix_iff_eq_take.1 hp]
      rfl
    · have hu' : u = [] → cur.length + 1 ≤ k := fun h0 => by have := hu h0; have : k ≠ cur.length := fun e => hz ⟨h0, e⟩; omega
      rw [pieces_cons] at h
      split at h
      · rename_i hb
        cases u with
        | nil =>
          cases h
          have := hu' rfl
          refine ⟨1, ?_⟩
          rw [List.take_succ_cons, List.take_zero, pieces_cons, if_pos hb, List.take_of_length_le (by simp; omega)]
          rfl
        | cons x u =>
          obtain ⟨rfl, h'⟩ := List.cons.inj h
          obtain ⟨n, hn⟩ := pieces_at file [] u l rest k h' hk hl (fun _ => by simp)
          exact ⟨n + 1, by rw [List.take_succ_cons, pieces_cons, if_pos hb, hn]; rfl⟩
      · rename_i hb
        obtain ⟨n, hn⟩ := pieces_at file _ u l rest k h hk hl (fun h0 => by simpa using hu' h0)
        exact ⟨n + 1, by rw [List.take_succ_cons, pieces_cons, if_neg hb, hn]⟩

/-- A file can be cut off at any byte of a line. -/
theorem lines_at {file : List Nat} {u : List (List Nat)} {l : List Nat} {rest : List (List Nat)} {k : Nat} (h : lines file = u ++ l :: rest)
    (hk : 0 < k) (hl : k ≤ l.length) : ∃ n, lines (file.take n) = u ++ [l.take k] := by
  unfold lines at h
  obtain ⟨u0, x, e, rfl, hx⟩ := List.map_eq_append_iff.1 h
  obtain ⟨l0, rest0, rfl, rfl, _⟩ := List.map_eq_cons_iff.1 hx
  have hle := (List.takeWhile_prefix (l := l0) (fun b => decide (b ≠ 0)))
  have hle' := hle.length_le
  obtain ⟨n, hn⟩ := pieces_at file [] u0 l0 rest0 k e hk (hl.trans hle') (fun _ => by simp)
  refine ⟨n, ?_⟩
  unfold lines
  rw [hn, List.map_append]
  have e1 : l0.take k = (l0.takeWhile (fun b => decide (b ≠ 0))).take k := by
    obtain ⟨y, hy⟩ := hle
    conv => lhs; rw [← hy]
    rw [List.take_append_of_le_length hl]
  simp only [List.map_cons, List.map_nil]
  rw [e1]
  rw [List.takeWhile_eq_self_iff.2 (fun b hb => by
    have := List.mem_of_mem_take hb
    exact List.mem_takeWhile_imp (p := fun b => decide (b ≠ 0)) this)]

theorem skip_cut {α : Type} (p : α → Bool) : ∀ {s w : List α}, (s.dropWhile p).drop 1 = w → w ≠ [] →
    ∃ u, s = u ++ w ∧ ∀ w', ((u ++ w').dropWhile p).drop 1 = w'
  | [], w, h, hw => absurd (by simpa using h.symm) hw
  | a :: s, w, h, hw => by
    by_cases ha : p a = true
    · rw [List.dropWhile_cons_of_pos ha] at h
      obtain ⟨u, rfl, k⟩ := skip_cut p h hw
      exact ⟨a :: u, rfl, fun w' => by rw [List.cons_append, List.dropWhile_cons_of_pos ha]; exact k w'⟩
    · rw [List.dropWhile_cons_of_neg ha] at h
      exact ⟨[a], by simpa using h, fun w' => by simp [ha]⟩

theorem rows_cut : ∀ {s w : List (List Nat)}, afterRows s = w → w ≠ [] →
    ∃ u, s = u ++ w ∧ ∀ w', afterRows (u ++ w') = w' ∧ rows (u ++ w') = rows s
  | [], w, h, hw => absurd (by simpa [afterRows_nil] using h.symm) hw
  | l :: s, w, h, hw => by
    cases hr : row? l with
    | some r =>
      rw [afterRows_some hr] at h
      obtain ⟨u, rfl, k⟩ := rows_cut h hw
      exact ⟨l :: u, rfl, fun w' => by rw [List.cons_append, afterRows_some hr, rows_some hr, rows_some hr, (k w').2]; exact ⟨(k w').1, rfl⟩⟩
    | none =>
      rw [afterRows_none hr] at h
      exact ⟨[l], by rw [h]; rfl, fun w' => by rw [rows_none hr]; exact ⟨afterRows_none hr, rows_none hr⟩⟩

theorem drop_one {α : Type} {s w : List α} (h : s.drop 1 = w) (hw : w ≠ []) : ∃ a, s = a :: w := by
  cases s with
  | nil => exact absurd (by simpa using h.symm) hw
  | cons a s => exact ⟨a, by simpa using h⟩

/-- The lines of an accuracy report before its first row. -/
theorem body_cut {h : Acc.Head} {s : List (List Nat)} (hne : (accuracyBody h s).classes ≠ []) :
    ∃ u w, s = u ++ w ∧ w ≠ [] ∧ rows w = (accuracyBody h s).classes ∧
      ∀ w', (accuracyBody h (u ++ w')).confs = (accuracyBody h s).confs ∧ (accuracyBody h (u ++ w')).classes = rows w' := by
  have hc : h.characters > 0 := by
    by_contra hc
    simp [accuracyBody, hc] at hne
  by_cases he : h.errors > 0
  · simp only [accuracyBody, hc, he, if_true] at hne ⊢
    generalize e1 : (s.dropWhile (fun l => decide (l.head? ≠ some 10))).drop 1 = s1 at hne ⊢
    generalize e2 : afterRows (s1.drop 1) = s2 at hne ⊢
    generalize e3 : s2.drop 1 = w at hne ⊢
    have hw : w ≠ [] := by rintro rfl; exact hne rows_nil
    obtain ⟨x, rfl⟩ := drop_one e3 hw
    obtain ⟨u2, k2, m2⟩ := rows_cut e2 (by simp)
    obtain ⟨y, rfl⟩ := drop_one k2 (by simp)
    obtain ⟨u1, rfl, m1⟩ := skip_cut _ e1 (by simp)
    refine ⟨u1 ++ (y :: (u2 ++ [x])), w, by simp, hw, rfl, fun w' => ?_⟩
    have q : u1 ++ (y :: (u2 ++ [x])) ++ w' = u1 ++ (y :: (u2 ++ (x :: w'))) := by simp
    rw [q, m1]
    simp only [List.drop_succ_cons, List.drop_zero]
    rw [(m2 (x :: w')).1, (m2 (x :: w')).2]
    exact ⟨by simp, by simp⟩
  · simp only [accuracyBody, hc, he, if_true, if_false] at hne ⊢
    generalize e1 : (s.dropWhile (fun l => decide (l.head? ≠ some 10))).drop 1 = s1 at hne ⊢
    generalize e3 : s1.drop 1 = w at hne ⊢
    have hw : w ≠ [] := by rintro rfl; exact hne rows_nil
    obtain ⟨x, rfl⟩ := drop_one e3 hw
    obtain ⟨u1, rfl, m1⟩ := skip_cut _ e1 (by simp)
    refine ⟨u1 ++ [x], w, by simp, hw, rfl, fun w' => ?_⟩
    have q : u1 ++ [x] ++ w' = u1 ++ (x :: w') := by simp
    rw [q, m1]
    simp

theorem names_brace {s : List Nat} {v : Nat} (h : Names s v) : ∃ b, s = 123 :: b := by
  have e1 : ascii "{" = [123] := by decide +kernel
  have e2 : ascii "{<" = [123, 60] := by decide +kernel
  have e3 : ascii "{<}" = [123, 60, 125] := by decide +kernel
  have e4 : ascii "{<\\n>}" = [123, 60, 92, 110, 62, 125] := by decide +kernel
  cases h with
  | less rest => rw [e3]; exact ⟨_, rfl⟩
  | newline rest => rw [e4]; exact ⟨_, rfl⟩
  | hex t rest v n _ _ => rw [e2]; exact ⟨_, rfl⟩
  | char c rest _ _ => rw [e1]; exact ⟨_, rfl⟩
  | mark c rest _ => rw [e1]; exact ⟨_, rfl⟩

/-- C102 (crash).  Every report of `accuracy` in which characters are counted can be cut off so that reading it is undefined. -/
theorem c102_crash (D : Acc.Accdata) (file : List Nat) (hb : Bytes file) (h : Acc.read_accrpt Acc.Accdata.zero file = .ok D)
    (hc : ∃ v, (D.small_class v).count ≠ 0) : ∃ n, Acc.read_accrpt Acc.Accdata.zero (file.take n) = .ub := by
  have h69 := c69_accuracy Acc.Accdata.zero file hb
  cases hx : AnyReport.accuracy (lines file) with
  | none => rw [hx] at h69; simp only at h69; rw [h69] at h; cases h
  | some p =>
    rw [hx] at h69
    simp only at h69
    by_cases hN : HasNames 20 p.confs
    · rcases c69_rows p.classes with ⟨vs, hv⟩ | ⟨pre, r, post, us, q1, q2, q3⟩
      · obtain ⟨E, e1, e2⟩ := (h69.2 hN).1 vs hv
        rw [h] at e1
        cases e1
        have hne : p.classes ≠ [] := by
          intro h0
          obtain ⟨v, hv0⟩ := hc
          apply hv0
          rw [(e2.small v).1, h0]
          simp [classFirsts, Acc.Accdata.zero]
        have hv' : ∃ r R v, p.classes = r :: R ∧ 29 ≤ r.line.length ∧ Names (r.line.drop 29) v := by
          unfold About at hv
          cases hcl : p.classes with
          | nil => exact absurd hcl hne
          | cons r R =>
            rw [hcl] at hv
            cases hv with
            | cons hh _ => exact ⟨r, R, _, rfl, hh.1, hh.2.1⟩
        obtain ⟨r, R, v, hcl, hlen, hnm⟩ := hv'
        obtain ⟨b, hbr⟩ := names_brace hnm
        unfold AnyReport.accuracy at hx
        split at hx
        · rename_i l1 l2 l3 l4 l5 l6 l7 l8 l9 l10 l11 l12 l13 l14 l15 s hti
          obtain ⟨t, d, q⟩ := titled_some hti
          simp only [Option.bind_eq_bind, Option.bind_eq_some_iff, Option.some.injEq] at hx
          obtain ⟨x1, a1, x2, a2, x3, a3, x4, a4, x5, a5, x6, a6, x7, a7, x8, a8, rfl⟩ := hx
          obtain ⟨u, w, rfl, hw, hrw, hall⟩ := body_cut hne
          obtain ⟨l, w, rfl⟩ := List.exists_cons_of_ne_nil hw
          rw [hcl] at hrw
          have hr : row? l = some r := by
            cases hr : row? l with
            | none => rw [rows_none hr] at hrw; cases hrw
            | some r' => rw [rows_some hr] at hrw; cases hrw; rfl
          have hl := row?_line hr
          rw [hl] at hlen hbr
          have hsp : l = l.take 29 ++ 123 :: b := by rw [← hbr, List.take_append_drop]
          rw [hsp] at hr
          obtain ⟨r', hr', hl'⟩ := brace_row hr []
          have h30 : l.take 30 = l.take 29 ++ [123] := by
            conv => lhs; rw [hsp]
            rw [List.take_append, List.take_of_length_le (by simp)]
            simp [hlen]
          have hll : 30 ≤ l.length := by have := congrArg List.length hbr; simp at this; omega
          have hq : lines file = (t :: d :: l1 :: l2 :: l3 :: l4 :: l5 :: l6 :: l7 :: l8 :: l9 :: l10 :: l11 :: l12 :: l13 :: l14 :: l15 :: u) ++ l :: w := by
            rw [q]; rfl
          obtain ⟨n, hn⟩ := lines_at (k := 30) hq (by omega) hll
          rw [h30] at hn
          refine ⟨n, ?_⟩
          have h69' := c69_accuracy Acc.Accdata.zero (file.take n) (fun b hm => hb b (List.mem_of_mem_take hm))
          have hx' : AnyReport.accuracy (lines (file.take n)) =
              some (accuracyBody ⟨x1, x2, x3, x4, x5, x6, x7, x8⟩ (u ++ [l.take 29 ++ [123]])) := by
            rw [hn]
            unfold AnyReport.accuracy
            have : titled Acc.TITLE Acc.DIVIDER ((t :: d :: l1 :: l2 :: l3 :: l4 :: l5 :: l6 :: l7 :: l8 :: l9 :: l10 :: l11 :: l12 :: l13 :: l14 :: l15 :: u) ++
                [l.take 29 ++ [123]]) =
                some (l1 :: l2 :: l3 :: l4 :: l5 :: l6 :: l7 :: l8 :: l9 :: l10 :: l11 :: l12 :: l13 :: l14 :: l15 :: (u ++ [l.take 29 ++ [123]])) := by
              rw [q] at hti
              simp only [titled] at hti
              split at hti
              · rename_i hcond
                simp only [List.cons_append, titled]
                rw [if_pos hcond]
              · cases hti
            rw [this]
            simp only [a1, a2, a3, a4, a5, a6, a7, a8, Option.bind_eq_bind, Option.bind_some]
          rw [hx'] at h69'
          simp only at h69'
          obtain ⟨c1, c2⟩ := hall [l.take 29 ++ [123]]
          rw [rows_some hr', rows_nil] at c2
          rw [c1] at h69'
          refine ((h69'.2 hN).2 [] r' [] [] c2 .nil).2 (.inr (.inl ?_))
          rw [hl', List.drop_append, List.drop_of_length_le (by simp)]
          have : ascii "{" = [123] := by decide +kernel
          rw [this]
          simp [hlen]
        · cases hx
      · have := (h69.2 hN).2 pre r post us q1 q2
        rcases q3 with q3 | q3
        · rw [this.1 q3] at h; cases h
        · rw [this.2 q3] at h; cases h
    · rw [h69.1 hN] at h; cases h

/-! ## Edit operation reports that are cut off -/

theorem pieces_cutoff : ∀ (file cur : List Nat) (n : Nat), (∃ m, pieces cur (file.take n) = (pieces cur file).take m) ∨
    ∃ u p l rest, pieces cur (file.take n) = u ++ [p] ∧ pieces cur file = u ++ l :: rest ∧ p <+: l
  | [], cur, n => .inl ⟨(pieces cur []).length, by simp⟩
  | b :: file, cur, 0 => by
    cases hcur : cur with
    | nil => exact .inl ⟨0, by simp [pieces]⟩
    | cons c cur' =>
      rw [← hcur]
      have hne : cur ≠ [] := by rw [hcur]; simp
      cases hp : pieces cur (b :: file) with
      | nil =>
        exfalso
        have : ∀ (file cur : List Nat), cur ≠ [] → pieces cur file ≠ [] := by
          intro file
          induction file with
          | nil => intro cur h; rw [pieces_nil h]; simp
          | cons b file ih => intro cur h; rw [pieces_cons]; split; simp; exact ih _ (by simp)
        exact this _ _ hne hp
      | cons l rest =>
        exact .inr ⟨[], cur, l, rest, by rw [List.take_zero, pieces_nil hne]; rfl, rfl, pieces_head _ _ _ _ hp⟩
  | b :: file, cur, n + 1 => by
    rw [List.take_succ_cons, pieces_cons, pieces_cons]
    split
    · rcases pieces_cutoff file [] n with ⟨m, h⟩ | ⟨u, p, l, rest, h1, h2, h3⟩
      · exact .inl ⟨m + 1, by rw [h]; rfl⟩
      · exact .inr ⟨(cur ++ [b]) :: u, p, l, rest, by rw [h1]; rfl, by rw [h2]; rfl, h3⟩
    · exact pieces_cutoff file _ n

/-- The lines of a file that is cut off: lines of the file, and perhaps the beginning of a line. -/
theorem lines_cutoff (file : List Nat) (n : Nat) : (∃ m, lines (file.take n) = (lines file).take m) ∨
    ∃ u p l rest, lines (file.take n) = u ++ [p] ∧ lines file = u ++ l :: rest ∧ p <+: l := by
  unfold lines
  rcases pieces_cutoff file [] n with ⟨m, h⟩ | ⟨u, p, l, rest, h1, h2, z, rfl⟩
  · exact .inl ⟨m, by rw [h, List.map_take]⟩
  · refine .inr ⟨u.map (·.takeWhile (· ≠ 0)), p.takeWhile (· ≠ 0), (p ++ z).takeWhile (· ≠ 0), rest.map (·.takeWhile (· ≠ 0)), by rw [h1]; simp,
      by rw [h2]; simp, ?_⟩
    rw [List.takeWhile_append]
    split
    · rename_i he
      have : p.takeWhile (fun x => decide (x ≠ 0)) = p := (List.takeWhile_prefix _).eq_of_length he
      rw [this]
      exact List.prefix_append _ _
    · exact List.prefix_refl _

theorem value_append (vs ws : List Nat) : Numerals.value 10 vs ≤ Numerals.value 10 (vs ++ ws) := by
  unfold Numerals.value
  rw [List.reverse_append, Nat.ofDigits_append]
  have : 1 ≤ 10 ^ ws.reverse.length := Nat.one_le_pow _ _ (by omega)
  nlinarith [Nat.zero_le (Nat.ofDigits 10 vs.reverse), Nat.zero_le (Nat.ofDigits 10 ws.reverse)]

/-- All the digits that come next. -/
theorem all_digits : ∀ z : List Nat, ∃ vs ds rest, z = ds ++ rest ∧ Numerals.Digits 10 vs ds ∧ Numerals.Ended 10 rest
  | [] => ⟨[], [], [], rfl, .nil, fun b t h => by cases h⟩
  | b :: z => by
    by_cases hb : ∃ v, Numerals.digit 10 v b
    · obtain ⟨v, hv⟩ := hb
      obtain ⟨vs, ds, rest, rfl, h1, h2⟩ := all_digits z
      exact ⟨v :: vs, b :: ds, rest, rfl, .cons hv h1, h2⟩
    · refine ⟨[], [], b :: z, rfl, .nil, fun c t h v hv => ?_⟩
      cases h
      exact hb ⟨v, hv⟩

/-- A number that is cut off is nearer to 0, and has the same sign. -/
theorem scan_cutoff {s z rest : List Nat} {v : Int} (h : scanLong s = some (v, rest)) :
    (rest ≠ [] ∧ scanLong (s ++ z) = some (v, rest ++ z)) ∨
    (rest = [] ∧ ∃ w rest', scanLong (s ++ z) = some (w, rest') ∧ (0 ≤ w ∧ w ≤ 100 → 0 ≤ v ∧ v ≤ 100)) := by
  obtain ⟨ws, sg, vs, ds, f, e, h1, h2, h3, h4, h5, h6⟩ := (c69_decimal _ _ _).1 h
  cases rest with
  | cons x rest =>
    refine .inl ⟨by simp, (c69_decimal _ _ _).2 ⟨ws, sg, vs, ds, f, by rw [e]; simp, h1, h2, h3, h4, ?_, h6⟩⟩
    intro b t hb
    cases hb
    exact h5 x _ rfl
  | nil =>
    obtain ⟨vs', ds', rest', rfl, k1, k2⟩ := all_digits z
    refine .inr ⟨rfl, f * Numerals.value 10 (vs ++ vs'), rest', (c69_decimal _ _ _).2 ⟨ws, sg, vs ++ vs', ds ++ ds', f, by rw [e]; simp, h1, h2,
      by simp [h3], List.rel_append h4 k1, k2, rfl⟩, ?_⟩
    have hle := value_append vs vs'
    rw [h6]
    have hf : f = 1 ∨ f = -1 := by rcases h2 with ⟨_, h⟩ | ⟨_, h⟩ | ⟨_, h⟩ <;> simp [h]
    rcases hf with rfl | rfl <;> omega

/-- A row that is cut off is not a row, or has the right count or a smaller length. -/
theorem row_cutoff {p z : List Nat} {r : Row} (h : row? p = some r) :
    ∃ r', row? (p ++ z) = some r' ∧ (0 ≤ r'.second ∧ r'.second ≤ 100 → 0 ≤ r.second ∧ r.second ≤ 100) := by
  unfold row? at h
  split at h
  · rename_i x y hs
    cases h
    simp only [scanLongs, Option.bind_eq_bind, Option.bind_eq_some_iff, Option.some.injEq, List.cons.injEq] at hs
    obtain ⟨⟨v, s1⟩, k1, _, ⟨⟨v2, s2⟩, k2, _, _, rfl⟩, rfl, h3⟩ := hs
    have hv2 : v2 = y := by simp_all
    subst hv2
    have hne : s1 ≠ [] := by
      rintro rfl
      obtain ⟨ws, sg, vs, ds, f, e, _, _, h3, _⟩ := (c69_decimal _ _ _).1 k2
      simp at e
      exact h3 e.2.2.1
    rcases scan_cutoff (z := z) k1 with ⟨_, q1⟩ | ⟨q0, _⟩
    · rcases scan_cutoff (z := z) k2 with ⟨_, q2⟩ | ⟨_, w, rest', q2, q3⟩
      · exact ⟨⟨v, v2, p ++ z⟩, by simp [row?, scanLongs, q1, q2], id⟩
      · exact ⟨⟨v, w, p ++ z⟩, by simp [row?, scanLongs, q1, q2], q3⟩
    · exact absurd q0 hne
  · cases h

theorem rows_append_last {u : List (List Nat)} {p l : List Nat} {rest : List (List Nat)} (hp : p <+: l)
    (hok : ∀ r ∈ rows (u ++ l :: rest), 0 ≤ r.second ∧ r.second ≤ 100) : ∀ r ∈ rows (u ++ [p]), 0 ≤ r.second ∧ r.second ≤ 100 := by
  induction u with
  | nil =>
    intro r hr
    cases h : row? p with
    | none => rw [List.nil_append, rows_none h] at hr; cases hr
    | some r' =>
      rw [List.nil_append, rows_some h, rows_nil] at hr
      obtain rfl := List.mem_singleton.1 hr
      obtain ⟨z, rfl⟩ := hp
      obtain ⟨r'', k1, k2⟩ := row_cutoff (z := z) h
      exact k2 (hok r'' (by rw [List.nil_append, rows_some k1]; simp))
  | cons x u ih =>
    intro r hr
    cases h : row? x with
    | none => rw [List.cons_append, rows_none h] at hr; cases hr
    | some r' =>
      rw [List.cons_append, rows_some h] at hr hok
      rcases List.mem_cons.1 hr with rfl | hr
      · exact hok _ (by simp)
      · exact ih (fun r hr => hok r (by simp [hr])) r hr

theorem rows_take {s : List (List Nat)} : ∀ {m : Nat} {r : Row}, r ∈ rows (s.take m) → r ∈ rows s := by
  induction s with
  | nil => intro m r h; simpa using h
  | cons x s ih =>
    intro m r h
    cases m with
    | zero => rw [List.take_zero, rows_nil] at h; cases h
    | succ m =>
      rw [List.take_succ_cons] at h
      cases hx : row? x with
      | none => rw [rows_none hx] at h; cases h
      | some r' =>
        rw [rows_some hx] at h ⊢
        rcases List.mem_cons.1 h with rfl | h
        · simp
        · exact List.mem_cons_of_mem _ (ih h)

/-- C102 (no crash).  A file that is read as a report of `editop` is read without undefined behaviour when it is cut off: it is accepted
or refused. -/
theorem c102_safe (D : Edodata) (file : List Nat) (n : Nat) (h : read_edorpt Edodata.zero file = .ok D) :
    (∃ E, read_edorpt Edodata.zero (file.take n) = .ok E) ∨ read_edorpt Edodata.zero (file.take n) = .err "invalid format in" := by
  have hf := c69_editop Edodata.zero file
  have hc := c69_editop Edodata.zero (file.take n)
  cases hx : AnyReport.editop (lines file) with
  | none => rw [hx] at hf; simp only at hf; rw [hf] at h; cases h
  | some q =>
    obtain ⟨ins, del, moves, R⟩ := q
    rw [hx] at hf
    simp only at hf
    have hR : ∀ r ∈ R, 0 ≤ r.second ∧ r.second ≤ 100 := by
      by_contra hR
      rw [hf.2 (by push Not at hR; simpa using hR)] at h
      cases h
    cases hx' : AnyReport.editop (lines (file.take n)) with
    | none => rw [hx'] at hc; exact .inr hc
    | some q' =>
      obtain ⟨ins', del', moves', R'⟩ := q'
      rw [hx'] at hc
      simp only at hc
      refine .inl ⟨_, hc.1 ?_⟩
      unfold AnyReport.editop at hx hx'
      split at hx
      · rename_i a b c rest hti
        split at hx'
        · rename_i a' b' c' rest' hti'
          obtain ⟨t, d, e⟩ := titled_some hti
          obtain ⟨t', d', e'⟩ := titled_some hti'
          simp only [Option.bind_eq_bind, Option.bind_eq_some_iff, Option.some.injEq, Prod.mk.injEq] at hx hx'
          obtain ⟨_, _, _, _, m, hm, _, _, _, rfl⟩ := hx
          obtain ⟨_, _, _, _, m', hm', _, _, _, rfl⟩ := hx'
          by_cases hlen : rest'.length ≤ 3
          · have : rest'.drop 3 = [] := List.drop_eq_nil_of_le hlen
            rw [this, rows_nil]
            simp
          · have hcc : c' = c := by
              have := (lines_take (file := file) (n := n) (m := 5) (by rw [e']; simp; omega)).1
              rw [e, e'] at this
              simp only [List.take_succ_cons, List.take_zero, List.cons.injEq, and_true] at this
              exact this.2.2.2.2.symm
            rw [hcc, hm] at hm'
            cases hm'
            by_cases hpos : m > 0
            · rw [if_pos hpos] at hR ⊢
              rcases lines_cutoff file n with ⟨j, hj⟩ | ⟨u, p, l, rest0, k1, k2, k3⟩
              · have : rest'.drop 3 = (rest.drop 3).take (j - 8) := by
                  have := congrArg (List.drop 8) hj
                  rw [e', e, List.drop_take] at this
                  simpa using this
                rw [this]
                exact fun r hr => hR r (rows_take hr)
              · have hu : 8 ≤ u.length := by
                  have := congrArg List.length k1
                  rw [e'] at this
                  simp at this
                  omega
                have q1 : rest'.drop 3 = u.drop 8 ++ [p] := by
                  have := congrArg (List.drop 8) k1
                  rw [e', List.drop_append_of_le_length hu] at this
                  simpa using this
                have q2 : rest.drop 3 = u.drop 8 ++ l :: rest0 := by
                  have := congrArg (List.drop 8) k2
                  rw [e, List.drop_append_of_le_length hu] at this
                  simpa using this
                rw [q1]
                rw [q2] at hR
                exact rows_append_last k3 hR
            · rw [if_neg hpos]
              simp
        · cases hx'
      · cases hx

/-! ## Non-vacuity -/

/-- Three insertions, 14 deletions and 25 moves of 12 characters. -/
def sampleMoves : Edodata := ⟨3, 14, 25, fun i => if i = 12 then 25 else 0⟩

theorem sampleMoves_valid : sampleMoves.Valid := by
  refine ⟨by unfold IsLong; decide, fun i => ?_, fun i => ?_, fun _ => by decide⟩
  · unfold sampleMoves IsLong; dsimp only; split <;> decide
  · unfold sampleMoves; dsimp only; split <;> omega

/-- A report that is cut off within the number of moves is read as one with 2 moves instead of 25. -/
example : (read_edorpt Edodata.zero ((write_edorpt sampleMoves).take 134)).bind
    (fun E => .ok (E.total_insertions, E.total_deletions, E.total_moves, E.moves 12)) = .ok (3, 14, 2, 0) := by decide +kernel

/-- A report that is cut off within the last line is read as one with moves of a single character. -/
example : (read_edorpt Edodata.zero ((write_edorpt sampleMoves).take 185)).bind
    (fun E => .ok (E.total_moves, E.moves 12, E.moves 1)) = .ok (25, 0, 25) := by decide +kernel

example (E : Edodata) (hr : read_edorpt Edodata.zero ((write_edorpt sampleMoves).take 134) = .ok E) : E.total_deletions = 14 :=
  (c102_editop sampleMoves E _ 134 (c26_round_trip _ sampleMoves_valid) hr).2

example (n : Nat) : (∃ E, read_edorpt Edodata.zero ((write_edorpt sampleMoves).take n) = .ok E) ∨
    read_edorpt Edodata.zero ((write_edorpt sampleMoves).take n) = .err "invalid format in" :=
  c102_safe sampleMoves _ n (c26_round_trip _ sampleMoves_valid)

example (D E : Edodata) (h : Edo.readAll Edodata.zero [write_edorpt sampleMoves, write_edorpt sampleMoves] = .ok D)
    (h' : Edo.readAll Edodata.zero [(write_edorpt sampleMoves).take 134, (write_edorpt sampleMoves).take 185] = .ok E) :
    E.total_deletions = D.total_deletions := ((c102_sums _ _ (.cons ⟨134, rfl⟩ (.cons ⟨185, rfl⟩ .nil))).1 D E h h').2

/-- A report of `wordacc` that is cut off after the first lines is read; all that is left is the figures at the top. -/
example : (Wac.read_wacrpt Wac.Wacdata.zero (oddWordacc.take 100)).bind (fun E => .ok (E.total, E.stopword 4)) = .ok (⟨3, 1⟩, ⟨0, 0⟩) ∧
    (Wac.read_wacrpt Wac.Wacdata.zero oddWordacc).bind (fun E => .ok (E.total, E.stopword 4)) = .ok (⟨3, 1⟩, ⟨2, 1⟩) := by decide +kernel

example (D E : Wac.Wacdata) (h : Wac.read_wacrpt Wac.Wacdata.zero oddWordacc = .ok D)
    (h' : Wac.read_wacrpt Wac.Wacdata.zero (oddWordacc.take 100) = .ok E) : E.total = D.total := c102_wordacc D E _ 100 h h'

/-- A report of `accuracy` with a row. -/
def sampleRow : List Nat := oddTop ++ ascii "       2        1    50.00   {x}\n"

/-- Without the row it is read, with the row cut off it is refused or read outside of the line. -/
example : (Acc.read_accrpt Acc.Accdata.zero (sampleRow.take oddTop.length)).bind (fun E => .ok (E.characters, E.errors, (E.small_class 120).count)) =
      .ok (3, 1, 0) ∧
    (Acc.read_accrpt Acc.Accdata.zero sampleRow).bind (fun E => .ok (E.characters, E.errors, (E.small_class 120).count)) = .ok (3, 1, 2) ∧
    (Acc.read_accrpt Acc.Accdata.zero (sampleRow.take (oddTop.length + 31))).bind (fun E => .ok E.characters) = .err "invalid character in" ∧
    (Acc.read_accrpt Acc.Accdata.zero (sampleRow.take (oddTop.length + 30))).bind (fun E => .ok E.characters) = .ub := by decide +kernel

example (D E : Acc.Accdata) (h : Acc.read_accrpt Acc.Accdata.zero sampleRow = .ok D)
    (h' : Acc.read_accrpt Acc.Accdata.zero (sampleRow.take oddTop.length) = .ok E) : E.total_ops = D.total_ops := by
  have := c102_accuracy D E sampleRow oddTop.length (by unfold Bytes; decide +kernel) h h'
  simp only [top, Prod.mk.injEq] at this
  exact this.2.2.2.2.2.2.2

example (D : Acc.Accdata) (h : Acc.read_accrpt Acc.Accdata.zero sampleRow = .ok D) (hv : (D.small_class 120).count = 2) :
    ∃ n, Acc.read_accrpt Acc.Accdata.zero (sampleRow.take n) = .ub :=
  c102_crash D sampleRow (by unfold Bytes; decide +kernel) h ⟨120, by rw [hv]; decide⟩

/-- The report is cut off after 5 bytes, but the program ends as if it had been written. -/
example : ∃ w', (editop [] (fun _ => true) sampleUnicode []).run [ascii "editop", ascii "a", ascii "b", ascii "report"]
      ((atStart sampleFs).short 5) = .ok () w' ∧ w'.err = [] ∧ w'.out = [] ∧ w'.files (ascii "report") = some (ascii "ocrev") := by
  have h := (c97_reports [] (fun _ => true) sampleUnicode Word.wbProp some Acc.samplePct [] 0
    [ascii "editop", ascii "a", ascii "b", ascii "report"] ((atStart sampleFs).short 5) (by intro o h; cases h)).1
  change Runs id _ ((Process.editop [] (fun _ => true) sampleUnicode [] sampleFs).run _) _ at h
  rw [Signal.sample_run] at h
  unfold Runs at h
  obtain ⟨w', h1, h2⟩ := h
  refine ⟨w', h1, h2.err, h2.out, ?_⟩
  rw [h2.files]
  have e : (Edo.write_edorpt Signal.sampleEdo).take 5 = ascii "ocrev" := by decide +kernel
  simp [written, kept, World.short, e]

end Ocr.Disk
