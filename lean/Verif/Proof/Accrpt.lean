import Verif.Proof.Accsum
import Verif.Props.Text
import Verif.Props.Sort
import Verif.Props.Charclass

namespace Ocr.Acc
open Text Res Charclass Report

/-! ## Bytes and lines -/

theorem escBody_no10 (v : Nat) : 10 ∉ escBody v := by
  intro h
  unfold escBody at h
  split at h
  · simp at h
  · have : HexDig 10 := by split at h <;> exact hexPad_dig _ _ 10 h
    unfold HexDig at this; omega

theorem char_bytes {U : Unicode} (F : UnicodeFacts U) {v : Nat} (hv : v < 0x110000) {s : List Nat}
    (hs : charString U false v true = .ok s) : ∀ b ∈ s, b ≠ 10 ∧ b ≠ 0 := by
  rw [Ngram.charString_tok hv] at hs
  have hs := Res.ok.inj hs
  subst hs
  intro b hb
  obtain ⟨c, hc, hb⟩ := List.mem_flatMap.1 hb
  have hne := (Ngram.tok_scalar F hv c hc).2
  have h10 : c ≠ 10 := by
    rintro rfl
    by_cases h : Escaped U v
    · rw [Ngram.tok_esc h] at hc
      simp at hc
      exact escBody_no10 v hc
    · rw [Ngram.tok_gr h] at hc
      have hb10 : 10 ∈ baseCps U v ∨ v = 10 := by simpa [eq_comm] using hc
      rcases hb10 with h' | h'
      · unfold baseCps at h'
        split at h'
        · simp [DOTTED_CIRCLE] at h'
        · simp at h'
      · exact h (.inl h')
  by_cases hlt : c < 0x80
  · have : encode_char c = [c] := by unfold encode_char; rw [if_pos hlt]
    rw [this] at hb; simp at hb; subst hb; exact ⟨h10, hne⟩
  · have := encode_hi (by omega : 0x80 ≤ c) b hb
    omega

/-- Bytes that may stand inside a line. -/
def Plain (l : List Nat) : Prop := ∀ b ∈ l, b ≠ 10 ∧ b ≠ 0

theorem Plain.append {a b : List Nat} (ha : Plain a) (hb : Plain b) : Plain (a ++ b) := by
  intro x hx
  rcases List.mem_append.1 hx with h | h
  · exact ha x h
  · exact hb x h

theorem Plain.line {l : List Nat} (h : Plain l) (hl : l.length ≤ 97) : Line l :=
  ⟨fun h' => (h _ h').1 rfl, fun h' => (h _ h').2 rfl, hl⟩

theorem plain_fmt (w : Nat) (v : Int) : Plain (fmtLong w v) := fmtLong_bytes w v

theorem plain_ascii {s : String} (h : (ascii s).all (fun b => b ≠ 10 ∧ b ≠ 0) = true) : Plain (ascii s) := by
  intro b hb
  have := List.all_eq_true.1 h b hb
  simpa using this

theorem plain_sp : Plain [32] := by intro b hb; simp at hb; subst hb; decide

variable {pct : Int → Int → List Nat}

theorem plain_pct (hp : PctFormat pct) (n d : Int) : Plain (write_pct pct n d) := by
  unfold write_pct; split
  · exact plain_ascii (by decide)
  · exact hp.bytes n d

theorem pct_len (hp : PctFormat pct) (n d : Int) : (write_pct pct n d).length ≤ 40 := by
  unfold write_pct; split
  · decide
  · exact hp.len n d

theorem pct_width (hp : PctFormat pct) {c : Accclass} (h0 : 0 ≤ c.missed) (h : c.missed ≤ c.count) :
    (write_pct pct (c.count - c.missed) c.count).length = 8 := by
  unfold write_pct; split
  · decide
  · exact hp.width _ _ (by omega) (by omega) (by omega)

theorem read_ops_eq {o : Accops} (h : IsLong o.ins ∧ IsLong o.subst ∧ IsLong o.del ∧ IsLong o.errors) {s : String}
    (hs : Plain (ascii s)) (hl : (ascii s).length ≤ 10) (r : List Nat) : read_ops (write_ops o s ++ r) = some (o, r) := by
  have e3 : ascii "   " = [32, 32, 32] := by decide
  have e : write_ops o s ++ r = (fmtLong 8 o.ins ++ [32] ++ fmtLong 8 o.subst ++ [32] ++ fmtLong 8 o.del ++ [32] ++
      fmtLong 8 o.errors ++ ascii "   " ++ ascii s) ++ 10 :: r := by simp [write_ops]
  rw [e]
  unfold read_ops
  rw [read_line_eq]
  · simp only [Option.bind_eq_bind, Option.bind_some]
    have h1 : ∀ (v : Int) (t : List Nat), scanLong (fmtLong 8 v ++ [32] ++ t) = some (v, [32] ++ t) := by
      intro v t
      have := scan_fmt 0 8 v ([32] ++ t) (by simp [isdigit])
      simpa using this
    have h2 : ∀ (v : Int) (t : List Nat), scanLong ([32] ++ (fmtLong 8 v ++ [32] ++ t)) = some (v, [32] ++ t) := by
      intro v t
      have := scan_fmt 1 8 v ([32] ++ t) (by simp [isdigit])
      simpa using this
    have a1 := h1 o.ins (fmtLong 8 o.subst ++ [32] ++ (fmtLong 8 o.del ++ [32] ++ (fmtLong 8 o.errors ++ [32] ++ ([32, 32] ++ ascii s ++ [10]))))
    have a2 := h2 o.subst (fmtLong 8 o.del ++ [32] ++ (fmtLong 8 o.errors ++ [32] ++ ([32, 32] ++ ascii s ++ [10])))
    have a3 := h2 o.del (fmtLong 8 o.errors ++ [32] ++ ([32, 32] ++ ascii s ++ [10]))
    have a4 := h2 o.errors ([32, 32] ++ ascii s ++ [10])
    have e4 : fmtLong 8 o.ins ++ [32] ++ fmtLong 8 o.subst ++ [32] ++ fmtLong 8 o.del ++ [32] ++
      fmtLong 8 o.errors ++ ascii "   " ++ ascii s ++ [10] = fmtLong 8 o.ins ++ [32] ++ (fmtLong 8 o.subst ++ [32] ++ (fmtLong 8 o.del ++ [32] ++ (fmtLong 8 o.errors ++ [32] ++ ([32, 32] ++ ascii s ++ [10])))) := by
      rw [e3]; simp
    rw [e4]
    have : scanLongs 4 (fmtLong 8 o.ins ++ [32] ++ (fmtLong 8 o.subst ++ [32] ++ (fmtLong 8 o.del ++ [32] ++ (fmtLong 8 o.errors ++ [32] ++ ([32, 32] ++ ascii s ++ [10]))))) = some [o.ins, o.subst, o.del, o.errors] := by
      simp only [scanLongs, a1, Option.bind_eq_bind, Option.bind_some, a2, a3, a4]
    rw [this]
  · apply Plain.line
    · exact ((((((((plain_fmt _ _).append plain_sp).append (plain_fmt _ _)).append plain_sp).append (plain_fmt _ _)).append
        plain_sp).append (plain_fmt _ _)).append (plain_ascii (by decide))).append hs
    · have := fmtLong_len h.1
      have := fmtLong_len h.2.1
      have := fmtLong_len h.2.2.1
      have := fmtLong_len h.2.2.2
      rw [e3]; simp only [List.length_append, List.length_cons, List.length_nil]; omega

/-! ## The top of the report -/

def headOf (D : Accdata) : Head :=
  ⟨D.characters, D.errors, D.reject_characters, D.suspect_markers, D.false_marks, D.marked_ops, D.unmarked_ops, D.total_ops⟩

theorem read_head_eq (hp : PctFormat pct) {D : Accdata} (h : Reportable D) (r : List Nat) :
    read_head (write_head pct D ++ r) = some (headOf D, ascii "   Count   Missed   %Right\n" ++ r) := by
  have pl : ∀ (n d : Int) (s : String), (ascii s).all (fun b => b ≠ 10 ∧ b ≠ 0) = true → (ascii s).length ≤ 40 →
      Line (write_pct pct n d ++ ascii s) := by
    intro n d s h1 h2
    apply Plain.line ((plain_pct hp n d).append (plain_ascii h1))
    have := pct_len hp n d
    rw [List.length_append]; omega
  obtain ⟨l1, l2, l3, l4, l5⟩ := h.long
  have o1 := h.ops D.marked_ops (by simp)
  have o2 := h.ops D.unmarked_ops (by simp)
  have o3 := h.ops D.total_ops (by simp)
  have t1 : TITLE = ascii "ocreval Accuracy Report Version 7.0" ++ [10] := by decide
  have t2 : DIVIDER = ascii "-----------------------------------" ++ [10] := by decide
  have k1 : ascii "%  Accuracy\n\n" = ascii "%  Accuracy" ++ [10, 10] := by decide
  have k2 : ascii "%  Characters Marked\n" = ascii "%  Characters Marked" ++ [10] := by decide
  have k3 : ascii "%  Accuracy After Correction\n" = ascii "%  Accuracy After Correction" ++ [10] := by decide
  have k4 : ascii "\n     Ins    Subst      Del   Errors\n" = [10] ++ ascii "     Ins    Subst      Del   Errors" ++ [10] := by decide
  have k5 : ascii "\n   Count   Missed   %Right\n" = [10] ++ ascii "   Count   Missed   %Right\n" := by decide
  have hb : Line [] := ⟨by simp, by simp, by simp⟩
  obtain ⟨p1, hp1⟩ : ∃ x, x = write_pct pct (D.characters - D.errors) D.characters ++ ascii "%  Accuracy" := ⟨_, rfl⟩
  obtain ⟨p2, hp2⟩ : ∃ x, x = write_pct pct (D.reject_characters + D.suspect_markers) D.characters ++ ascii "%  Characters Marked" := ⟨_, rfl⟩
  obtain ⟨p3, hp3⟩ : ∃ x, x = write_pct pct (D.characters - D.unmarked_ops.errors) D.characters ++ ascii "%  Accuracy After Correction" := ⟨_, rfl⟩
  have L1 : Line p1 := by rw [hp1]; exact pl _ _ _ (by decide) (by decide)
  have L2 : Line p2 := by rw [hp2]; exact pl _ _ _ (by decide) (by decide)
  have L3 : Line p3 := by rw [hp3]; exact pl _ _ _ (by decide) (by decide)
  have L4 : Line (ascii "     Ins    Subst      Del   Errors") := (plain_ascii (by decide)).line (by decide)
  have e : write_head pct D ++ r = ascii "ocreval Accuracy Report Version 7.0" ++ [10] ++ (ascii "-----------------------------------" ++ [10]) ++
      (write_value D.characters "Characters" ++ (write_value D.errors "Errors" ++ (p1 ++ 10 :: ([] ++ 10 ::
      (write_value D.reject_characters "Reject Characters" ++ (write_value D.suspect_markers "Suspect Markers" ++
      (write_value D.false_marks "False Marks" ++ (p2 ++ 10 :: (p3 ++ 10 :: ([] ++ 10 :: (ascii "     Ins    Subst      Del   Errors" ++ 10 ::
      (write_ops D.marked_ops "Marked" ++ (write_ops D.unmarked_ops "Unmarked" ++ (write_ops D.total_ops "Total" ++
      ([] ++ 10 :: (ascii "   Count   Missed   %Right\n" ++ r)))))))))))))))) := by
    unfold write_head
    rw [t1, t2, k1, k2, k3, k4, k5, hp1, hp2, hp3]
    simp only [List.append_assoc, List.cons_append, List.nil_append]
  rw [e]
  unfold read_head
  rw [t1, t2, read_title_eq ((plain_ascii (by decide)).line (by decide)) ((plain_ascii (by decide)).line (by decide))]
  have ln : ∀ s : String, (ascii s).all (fun b => b ≠ 10 ∧ b ≠ 0) = true → (ascii s).length ≤ 40 → Line (ascii s) :=
    fun s h1 h2 => (plain_ascii h1).line (by omega)
  simp only [Option.bind_eq_bind, Option.bind_some]
  rw [read_value_eq l1 (ln _ (by decide) (by decide)) (by decide)]
  simp only [Option.bind_some]
  rw [read_value_eq l2 (ln _ (by decide) (by decide)) (by decide)]
  simp only [Option.bind_some]
  rw [skip_lines_eq L1, skip_lines_eq hb]
  simp only [Report.skip_lines, Option.bind_some]
  rw [read_value_eq l3 (ln _ (by decide) (by decide)) (by decide)]
  simp only [Option.bind_some]
  rw [read_value_eq l4 (ln _ (by decide) (by decide)) (by decide)]
  simp only [Option.bind_some]
  rw [read_value_eq l5 (ln _ (by decide) (by decide)) (by decide)]
  simp only [Option.bind_some, Option.bind_eq_bind]
  rw [read_line_eq L2]; simp only [Option.bind_some]
  rw [read_line_eq L3]; simp only [Option.bind_some]
  rw [read_line_eq hb]; simp only [Option.bind_some]
  rw [read_line_eq L4]; simp only [Option.bind_some]
  rw [read_ops_eq o1 (plain_ascii (by decide)) (by decide)]; simp only [Option.bind_some]
  rw [read_ops_eq o2 (plain_ascii (by decide)) (by decide)]; simp only [Option.bind_some]
  rw [read_ops_eq o3 (plain_ascii (by decide)) (by decide)]; simp only [Option.bind_some]
  rw [read_line_eq hb]; simp only [Option.bind_some]
  rfl

/-! ## The ends of the tables -/

/-- A table ends at an empty line or at the end of the file; `r` follows. -/
def Ends (tail r : List Nat) : Prop := tail = 10 :: r ∨ (tail = [] ∧ r = [])

theorem Ends.read_two {tail r : List Nat} (h : Ends tail r) : read_two tail = none ∧ after_line tail = r := by
  rcases h with rfl | ⟨rfl, rfl⟩
  · refine ⟨read_two_blank r, ?_⟩
    have := read_line_eq (l := []) ⟨by simp, by simp, by simp⟩ r
    simp only [List.nil_append] at this
    unfold after_line; rw [this]; rfl
  · exact ⟨rfl, rfl⟩

/-! ## The classes -/

theorem skipClasses_eq {tail r : List Nat} (ht : Ends tail r) : ∀ (ls : List (List Nat)), (∀ l ∈ ls, Line l ∧ l ≠ []) →
    ∀ fuel, ls.length ≤ fuel → skipClasses fuel (ls.flatMap (· ++ [10]) ++ tail) = .ok r := by
  intro ls
  induction ls with
  | nil =>
    intro _ fuel _
    rw [skipClasses.eq_def]
    simp only [List.flatMap_nil, List.nil_append]
    rcases ht with rfl | ⟨rfl, rfl⟩
    · have := read_line_eq (l := []) ⟨by simp, by simp, by simp⟩ r
      simp only [List.nil_append] at this
      rw [this]; rfl
    · rfl
  | cons l ls ih =>
    intro h fuel hf
    obtain ⟨hl, hne⟩ := h l (by simp)
    match fuel, hf with
    | fuel + 1, hf =>
      rw [skipClasses.eq_def]
      simp only [List.flatMap_cons, List.append_assoc, List.cons_append]
      rw [read_line_eq hl]
      simp only
      rw [if_neg]
      · exact ih (fun x hx => h x (by simp [hx])) fuel (by simpa using hf)
      · cases l with
        | nil => contradiction
        | cons b l =>
          have := hl.nl
          simp only [List.cons_append, List.head?_cons, Option.some.injEq, NEWLINE]
          rintro rfl; simp at this

/-- The line written for a class. -/
def classLine (pct : Int → Int → List Nat) (c : Accclass) (s : List Nat) : List Nat :=
  fmtLong 8 c.count ++ [32] ++ fmtLong 8 c.missed ++
    ([32] ++ write_pct pct (c.count - c.missed) c.count ++ ascii "   " ++ s)

theorem write_class_eq (c : Accclass) (s : List Nat) : write_class pct c s = classLine pct c s ++ [10] := rfl

theorem classLine_line (hp : PctFormat pct) {c : Accclass} (h0 : 0 ≤ c.missed) (h : c.missed ≤ c.count) (hl : c.count < 2^63)
    {s : List Nat} (hs : Plain s) (hs' : s.length ≤ 40) : Line (classLine pct c s) ∧ classLine pct c s ≠ [] := by
  constructor
  · apply Plain.line
    · exact (((plain_fmt _ _).append plain_sp).append (plain_fmt _ _)).append
        (((plain_sp.append (plain_pct hp _ _)).append (plain_ascii (by decide))).append hs)
    · have h1 : IsLong c.count := by unfold IsLong; omega
      have h2 : IsLong c.missed := by unfold IsLong; omega
      have := fmtLong_len h1
      have := fmtLong_len h2
      have := pct_width hp h0 h
      have e3 : (ascii "   ").length = 3 := by decide
      unfold classLine
      simp only [List.length_append, List.length_cons, List.length_nil, e3]; omega
  · unfold classLine; simp

theorem className_plain (v : Nat) : Plain (ascii (className v)) ∧ (ascii (className v)).length ≤ 40 := by
  have key : ∀ r ∈ ranges, (ascii r.name).all (fun b => b ≠ 10 ∧ b ≠ 0) = true ∧ (ascii r.name).length ≤ 40 := by
    decide +kernel
  unfold className
  split
  · rename_i r hr
    have hm := List.mem_of_getLast? hr
    have := key r (List.mem_of_mem_filter hm)
    exact ⟨plain_ascii this.1, this.2⟩
  · exact ⟨plain_ascii (by decide), by decide⟩

theorem sum_bounds (f g : Nat → Int) (h : ∀ v, 0 ≤ f v ∧ f v ≤ g v ∧ g v < 10^8) : ∀ l : List Nat,
    0 ≤ (l.map f).sum ∧ (l.map f).sum ≤ (l.map g).sum ∧ (l.map g).sum ≤ l.length * 10^8 := by
  intro l
  induction l with
  | nil => simp
  | cons a l ih => have := h a; simp only [List.map_cons, List.sum_cons, List.length_cons]; push_cast; omega

theorem exists_pos_of_sum (f : Nat → Int) (hf : ∀ v, 0 ≤ f v) : ∀ l : List Nat, 0 < (l.map f).sum → ∃ v ∈ l, 0 < f v := by
  intro l
  induction l with
  | nil => simp
  | cons a l ih =>
    intro h
    simp only [List.map_cons, List.sum_cons] at h
    by_cases ha : 0 < f a
    · exact ⟨a, by simp, ha⟩
    · obtain ⟨v, hv, h'⟩ := ih (by have := hf a; omega)
      exact ⟨v, by simp [hv], h'⟩

theorem Reportable.large_ok {D : Accdata} (h : Reportable D) (c : Nat) :
    0 ≤ (D.large_class c).missed ∧ (D.large_class c).missed ≤ (D.large_class c).count ∧ (D.large_class c).count < 2^63 := by
  rw [(h.large c).1, (h.large c).2]
  have := sum_bounds (fun v => (D.small_class v).missed) (fun v => (D.small_class v).count) h.small
    ((List.range NUM_CHARVALUES).filter (fun v => charclass v = .ok c))
  have hl := List.length_filter_le (fun v => decide (charclass v = .ok c)) (List.range NUM_CHARVALUES)
  rw [List.length_range] at hl
  unfold NUM_CHARVALUES at *
  omega

theorem Reportable.all_ok {D : Accdata} (h : Reportable D) :
    0 ≤ D.total_class.missed ∧ D.total_class.missed ≤ D.total_class.count ∧ D.total_class.count < 2^63 := by
  rw [h.all.1, h.all.2]
  have := sum_bounds (fun v => (D.small_class v).missed) (fun v => (D.small_class v).count) h.small (List.range NUM_CHARVALUES)
  rw [List.length_range] at this
  unfold NUM_CHARVALUES at *
  omega

theorem write_large_eq (hp : PctFormat pct) {D : Accdata} (h : Reportable D) : ∀ is : List Nat,
    ∃ ls : List (List Nat), write_large pct D is = .ok (ls.flatMap (· ++ [10])) ∧ ∀ l ∈ ls, Line l ∧ l ≠ [] := by
  intro is
  induction is with
  | nil => exact ⟨[], rfl, by simp⟩
  | cons i is ih =>
    obtain ⟨ls, h1, h2⟩ := ih
    rw [write_large, h1]
    by_cases hc : (D.large_class i).count > 0
    · rw [if_pos hc]
      have hpos := hc
      rw [(h.large i).1] at hpos
      obtain ⟨v, hv, hv'⟩ := exists_pos_of_sum _ (fun v => by have := h.small v; omega) _ hpos
      have hcv : charclass v = .ok i := by simpa using (List.mem_filter.1 hv).2
      have hlt : v < 0x10FFFF := List.mem_range.1 (List.mem_filter.1 hv).1
      obtain ⟨c, e1, _, e2⟩ := c15_class v hlt
      rw [hcv] at e1
      have := Res.ok.inj e1
      subst this
      rw [e2]
      have hcl := className_plain v
      have hlo := h.large_ok i
      refine ⟨classLine pct (D.large_class i) (ascii (className v)) :: ls, ?_, ?_⟩
      · simp only [bind_ok, pure_eq, write_class_eq, List.flatMap_cons]
      · intro l hl
        rcases List.mem_cons.1 hl with rfl | hl
        · exact classLine_line hp hlo.1 hlo.2.1 hlo.2.2 hcl.1 hcl.2
        · exact h2 l hl
    · rw [if_neg hc]
      exact ⟨ls, rfl, h2⟩

/-! ## The confusions -/

theorem readConfLoop_eq {tail r : List Nat} (ht : Ends tail r) : ∀ (cs : List Conf) (D : Accdata) (fuel : Nat),
    (∀ c ∈ cs, 0 ≤ c.errors ∧ c.errors < 10^8 ∧ 0 ≤ c.marked ∧ c.marked < 10^8) →
    (∀ c ∈ cs, ∃ s, c.key = s ++ [10] ∧ 10 ∉ s ∧ 0 ∉ s ∧ s.length ≤ 77) →
    ((cs.map Conf.key).Nodup) → (∀ c ∈ cs, ∀ d ∈ D.conftable, d.key ≠ c.key) → cs.length ≤ fuel →
    readConfLoop fuel (cs.flatMap write_conf ++ tail) D = .ok ({ D with conftable := cs.reverse ++ D.conftable }, r) := by
  intro cs
  induction cs with
  | nil =>
    intro D fuel _ _ _ _ _
    rw [readConfLoop.eq_def]
    simp only [List.flatMap_nil, List.nil_append, List.reverse_nil]
    rw [ht.read_two.1, ht.read_two.2]
  | cons c cs ih =>
    intro D fuel h1 h2 h3 h4 hf
    match fuel, hf with
    | fuel + 1, hf =>
      obtain ⟨s, hk, hs1, hs2, hs3⟩ := h2 c (by simp)
      obtain ⟨b1, b2, b3, b4⟩ := h1 c (by simp)
      have w1 := fmtLong_len8 b1 b2
      have w2 := fmtLong_len8 b3 b4
      have e3 : ascii "   " = [32, 32, 32] := by decide
      have hs : Plain s := fun b hb => ⟨fun e => hs1 (e ▸ hb), fun e => hs2 (e ▸ hb)⟩
      have hline : Line (fmtLong 8 c.errors ++ [32] ++ fmtLong 8 c.marked ++ ([32, 32, 32] ++ s)) := by
        apply Plain.line
        · refine (((plain_fmt _ _).append plain_sp).append (plain_fmt _ _)).append (Plain.append ?_ hs)
          rw [← e3]; exact plain_ascii (by decide)
        · simp only [List.length_append, List.length_cons, List.length_nil, w1, w2]; omega
      have e : (c :: cs).flatMap write_conf ++ tail =
          fmtLong 8 c.errors ++ [32] ++ fmtLong 8 c.marked ++ ([32, 32, 32] ++ s) ++ 10 :: (cs.flatMap write_conf ++ tail) := by
        simp [write_conf, e3, hk]
      rw [readConfLoop.eq_def, e]
      simp only
      rw [read_two_eq hline (by simp [isdigit])]
      simp only
      have hat : strAt (fmtLong 8 c.errors ++ [32] ++ fmtLong 8 c.marked ++ ([32, 32, 32] ++ s) ++ [10]) CONF_OFFSET = .ok c.key := by
        unfold strAt CONF_OFFSET
        rw [if_pos (by simp only [List.length_append, List.length_cons, List.length_nil, w1, w2]; omega), hk]
        congr 1
        have : fmtLong 8 c.errors ++ [32] ++ fmtLong 8 c.marked ++ ([32, 32, 32] ++ s) ++ [10] =
          (fmtLong 8 c.errors ++ [32] ++ fmtLong 8 c.marked ++ [32, 32, 32]) ++ (s ++ [10]) := by simp
        rw [this, List.drop_left' (by simp only [List.length_append, List.length_cons, List.length_nil, w1, w2])]
      rw [hat, bind_ok]
      have hadd : add_conf D c.key c.errors c.marked = { D with conftable := c :: D.conftable } := by
        unfold add_conf
        simp only
        congr 1
        unfold Store.add
        rw [(Store.modify_none Conf.key).2 (fun d hd => h4 c (by simp) d hd)]; rfl
      rw [hadd]
      have h3' := List.nodup_cons.1 (by simpa using h3 : (c.key :: cs.map Conf.key).Nodup)
      rw [ih _ _ (fun x hx => h1 x (by simp [hx])) (fun x hx => h2 x (by simp [hx])) h3'.2]
      · simp
      · intro x hx d hd
        rcases List.mem_cons.1 hd with rfl | hd
        · intro e; exact h3'.1 (e ▸ List.mem_map_of_mem hx)
        · exact h4 x (by simp [hx]) d hd
      · simpa using hf

/-! ## The characters -/

/-- `D'` is `D` with the enumerations `S` of the characters `is` added. -/
structure Tally (S : Nat → Accclass) (is : List Nat) (D D' : Accdata) : Prop where
  same   : D' = { D with large_class := D'.large_class, total_class := D'.total_class, small_class := D'.small_class }
  small  : ∀ v, D'.small_class v = if v ∈ is then update_class (D.small_class v) (S v).count (S v).missed else D.small_class v
  all    : D'.total_class = update_class D.total_class ((is.map (fun v => (S v).count)).sum) ((is.map (fun v => (S v).missed)).sum)
  large  : ∀ c, D'.large_class c = update_class (D.large_class c)
             (((is.filter (fun v => charclass v = .ok c)).map (fun v => (S v).count)).sum)
             (((is.filter (fun v => charclass v = .ok c)).map (fun v => (S v).missed)).sum)

theorem Tally.step {S : Nat → Accclass} {i : Nat} {is : List Nat} (hni : i ∉ is) {D D1 D' : Accdata} {c : Nat}
    (hc : charclass i = .ok c)
    (h1 : D1 = { D with
      large_class := fun k => if k = c then update_class (D.large_class k) (S i).count (S i).missed else D.large_class k
      total_class := update_class D.total_class (S i).count (S i).missed
      small_class := fun k => if k = i then update_class (D.small_class k) (S i).count (S i).missed else D.small_class k })
    (h : Tally S is D1 D') : Tally S (i :: is) D D' := by
  constructor
  · rw [h.same, h1]
  · intro v
    rw [h.small, h1]
    simp only [List.mem_cons]
    by_cases hv : v = i
    · subst hv; simp [hni]
    · simp [hv]
  · rw [h.all, h1]; simp only [update_update, List.map_cons, List.sum_cons]
  · intro k
    rw [h.large, h1]
    by_cases hk : k = c
    · subst hk
      rw [List.filter_cons_of_pos (by simpa using hc)]
      simp only [if_true, update_update, List.map_cons, List.sum_cons]
    · rw [List.filter_cons_of_neg (by simp only [hc, decide_eq_true_eq, Res.ok.injEq]; exact fun e => hk e.symm)]
      simp only [if_neg hk]

theorem readClassLoop_eq {U : Unicode} (F : UnicodeFacts U) (hp : PctFormat pct) {D : Accdata}
    (hS : ∀ v, 0 ≤ (D.small_class v).missed ∧ (D.small_class v).missed ≤ (D.small_class v).count ∧ (D.small_class v).count < 10^8) :
    ∀ is : List Nat, is.Nodup → (∀ v ∈ is, v < 0x10FFFF) → ∃ bytes, write_small U pct D is = .ok bytes ∧
      ∀ (E : Accdata) (fuel : Nat), bytes.length ≤ fuel → ∃ E', readClassLoop fuel bytes E = .ok E' ∧ Tally D.small_class is E E' := by
  intro is
  induction is with
  | nil =>
    intro _ _
    refine ⟨[], rfl, ?_⟩
    intro E fuel _
    refine ⟨E, ?_, ?_⟩
    · rw [readClassLoop.eq_def]; rfl
    · constructor <;> simp [update_zero]
  | cons i is ih =>
    intro hnd hlt
    rw [List.nodup_cons] at hnd
    obtain ⟨bytes, hb, hread⟩ := ih hnd.2 (fun v hv => hlt v (by simp [hv]))
    have hi := hlt i (by simp)
    rw [write_small, hb]
    by_cases hc : (D.small_class i).count > 0
    · rw [if_pos hc]
      obtain ⟨s, hs, hrd⟩ := c11_report_chars U F i (by omega)
      have hs' : charString U false i true = .ok s ∧ s.length + 1 ≤ STRING_SIZE := by
        unfold char_to_string at hs
        obtain ⟨x, hx, hx'⟩ := bind_eq_ok.1 hs
        split at hx'
        · rename_i hle
          have := Res.ok.inj hx'; subst this; exact ⟨hx, hle⟩
        · simp at hx'
      rw [hs]
      obtain ⟨b1, b2, b3⟩ := hS i
      have hplain : Plain (ascii "{" ++ s ++ ascii "}") :=
        ((plain_ascii (by decide)).append (char_bytes F (by omega) hs'.1)).append (plain_ascii (by decide))
      have hlen : (ascii "{" ++ s ++ ascii "}").length ≤ 40 := by
        have e1 : (ascii "{").length = 1 := by decide
        have e2 : (ascii "}").length = 1 := by decide
        have := hs'.2
        unfold STRING_SIZE at this
        simp only [List.length_append, e1, e2]; omega
      have hline := (classLine_line hp b1 b2 (by omega) hplain hlen).1
      refine ⟨classLine pct (D.small_class i) (ascii "{" ++ s ++ ascii "}") ++ 10 :: bytes, ?_, ?_⟩
      · simp only [bind_ok, pure_eq, write_class_eq]; simp
      · intro E fuel hf
        match fuel, hf with
        | 0, hf => simp at hf
        | fuel + 1, hf =>
          rw [readClassLoop.eq_def]
          unfold classLine at hline ⊢
          simp only
          rw [read_two_eq hline (by simp [isdigit])]
          simp only
          have hw := pct_width hp b1 b2
          have w1 := fmtLong_len8 (v := (D.small_class i).count) (by omega) b3
          have w2 := fmtLong_len8 b1 (by omega : (D.small_class i).missed < 10^8)
          have e3 : (ascii "   ").length = 3 := by decide
          have hat : strAt (fmtLong 8 (D.small_class i).count ++ [32] ++ fmtLong 8 (D.small_class i).missed ++
              ([32] ++ write_pct pct ((D.small_class i).count - (D.small_class i).missed) (D.small_class i).count ++ ascii "   " ++
                (ascii "{" ++ s ++ ascii "}")) ++ [10]) CLASS_OFFSET = .ok (ascii "{" ++ s ++ ascii "}" ++ [10]) := by
            unfold strAt CLASS_OFFSET
            rw [if_pos (by simp only [List.length_append, List.length_cons, List.length_nil, w1, w2, hw, e3]; omega)]
            congr 1
            have : ∀ a b p t q : List Nat, a ++ [32] ++ b ++ ([32] ++ p ++ t ++ q) ++ [10] =
              (a ++ [32] ++ b ++ [32] ++ p ++ t) ++ (q ++ [10]) := by intro a b p t q; simp
            rw [this, List.drop_left' (by simp only [List.length_append, List.length_cons, List.length_nil, w1, w2, hw, e3])]
          rw [hat, bind_ok]
          have := hrd [10, 0] (by simp)
          have e4 : ascii "{" ++ s ++ ascii "}" ++ [10] ++ [0] = ascii "{" ++ s ++ ascii "}" ++ [10, 0] := by simp
          rw [e4, this, bind_ok, if_neg (by unfold INVALID_CHARVALUE; omega)]
          obtain ⟨c, hcc, hc256, _⟩ := c15_class i hi
          have hadd : ∀ a m, add_class E i a m = .ok { E with
              large_class := fun k => if k = c then update_class (E.large_class k) a m else E.large_class k
              total_class := update_class E.total_class a m
              small_class := fun k => if k = i then update_class (E.small_class k) a m else E.small_class k } := by
            intro a m
            unfold add_class
            rw [hcc, bind_ok, if_pos ⟨by unfold MAX_CHARCLASSES; omega, by unfold NUM_CHARVALUES; omega⟩]; rfl
          rw [hadd, bind_ok]
          obtain ⟨E', h1, h2⟩ := hread _ fuel (by
            simp only [List.length_append, List.length_cons] at hf; omega)
          exact ⟨E', h1, h2.step hnd.1 hcc rfl⟩
    · rw [if_neg hc]
      refine ⟨bytes, rfl, ?_⟩
      intro E fuel hf
      obtain ⟨E', h1, h2⟩ := hread E fuel hf
      obtain ⟨b1, b2, b3⟩ := hS i
      have z1 : (D.small_class i).count = 0 := by omega
      have z2 : (D.small_class i).missed = 0 := by omega
      obtain ⟨c, hcc, hc256, _⟩ := c15_class i hi
      refine ⟨E', h1, h2.step hnd.1 hcc ?_⟩
      have : ∀ x : Accclass, update_class x (D.small_class i).count (D.small_class i).missed = x := by
        intro x; rw [z1, z2]; exact update_zero x
      simp [this]

/-! ## The round trip -/

/-- The figures agree if the enumerations were read. -/
theorem finish {D B E : Accdata} {is : List Nat}
    (hS : ∀ v, 0 ≤ (D.small_class v).missed ∧ (D.small_class v).missed ≤ (D.small_class v).count ∧ (D.small_class v).count < 10^8)
    (hout : ∀ v, 0x10FFFF ≤ v → (D.small_class v).count = 0)
    (hall : D.total_class.count = (is.map (fun v => (D.small_class v).count)).sum ∧
       D.total_class.missed = (is.map (fun v => (D.small_class v).missed)).sum)
    (hlarge : ∀ c, (D.large_class c).count = ((is.filter (fun v => charclass v = .ok c)).map (fun v => (D.small_class v).count)).sum ∧
       (D.large_class c).missed = ((is.filter (fun v => charclass v = .ok c)).map (fun v => (D.small_class v).missed)).sum)
    (his : ∀ v, v ∈ is ↔ v < 0x10FFFF)
    (hno : D.characters ≤ 0 → ∀ v, (D.small_class v).count = 0)
    (hconf : D.conftable.Perm B.conftable)
    (hB : B = { (add_head Accdata.zero (headOf D)) with conftable := B.conftable })
    (t1 : 0 < D.characters → Tally D.small_class is B E) (t2 : ¬ 0 < D.characters → E = B) : D.Same E := by
  have hops : ∀ o : Accops, add_ops ⟨0, 0, 0, 0⟩ o = o := by intro o; simp [add_ops]
  have hcz : ∀ c : Accclass, update_class ⟨0, 0⟩ c.count c.missed = c := by intro c; simp [update_class]
  have b1 : B.small_class = fun _ => ⟨0, 0⟩ := by rw [hB]; rfl
  have b2 : B.large_class = fun _ => ⟨0, 0⟩ := by rw [hB]; rfl
  have b3 : B.total_class = ⟨0, 0⟩ := by rw [hB]; rfl
  by_cases hc : 0 < D.characters
  · have t := t1 hc
    constructor
    · have a1 : E.small_class = D.small_class := by
        funext v
        rw [t.small, b1]
        simp only [hcz]
        by_cases hv : v ∈ is
        · rw [if_pos hv]
        · rw [if_neg hv]
          have := hout v (by have := mt (his v).2 hv; omega)
          have hs := hS v
          generalize D.small_class v = x at *
          obtain ⟨a, b⟩ := x
          simp only at *
          congr <;> omega
      have a2 : E.total_class = D.total_class := by
        rw [t.all, b3, ← hall.1, ← hall.2, hcz]
      have a3 : E.large_class = D.large_class := by
        funext c
        rw [t.large, b2, ← (hlarge c).1, ← (hlarge c).2, hcz]
      rw [t.same, a1, a2, a3, hB]
      simp only [add_head, Accdata.zero, headOf, Int.zero_add, hops]
    · rw [t.same]; exact hconf
  · have t := t2 hc
    rw [t]
    constructor
    · have z := hno (by omega)
      have z1 : ∀ v, D.small_class v = ⟨0, 0⟩ := by
        intro v
        have := z v
        have hs := hS v
        generalize D.small_class v = x at *
        obtain ⟨a, b⟩ := x
        simp only at *
        congr <;> omega
      have z2 : ∀ l : List Nat, (l.map (fun v => (D.small_class v).count)).sum = 0 ∧ (l.map (fun v => (D.small_class v).missed)).sum = 0 := by
        intro l
        clear hall hlarge t1 t2 hS hout hno z his
        induction l with
        | nil => exact ⟨rfl, rfl⟩
        | cons a l ih => rw [List.map_cons, List.sum_cons, ih.1, List.map_cons, List.sum_cons, ih.2, z1]; exact ⟨rfl, rfl⟩
      have a1 : D.small_class = fun _ => ⟨0, 0⟩ := funext z1
      have a2 : D.total_class = ⟨0, 0⟩ := by
        have := hall
        rw [(z2 _).1, (z2 _).2] at this
        generalize D.total_class = x at *
        obtain ⟨a, b⟩ := x
        simp only at *; rw [this.1, this.2]
      have a3 : D.large_class = fun _ => ⟨0, 0⟩ := by
        funext c
        have := hlarge c
        rw [(z2 _).1, (z2 _).2] at this
        generalize D.large_class c = x at *
        obtain ⟨a, b⟩ := x
        simp only at *; rw [this.1, this.2]
      rw [hB]
      simp only [add_head, Accdata.zero, headOf, Int.zero_add, hops, a1, a2, a3]
    · exact hconf

theorem round_trip {U : Unicode} (F : UnicodeFacts U) (hp : PctFormat pct) {D : Accdata} (h : Reportable D) :
    ∃ file E, write_accrpt U pct D = .ok file ∧ read_accrpt Accdata.zero file = .ok E ∧ D.Same E := by
  obtain ⟨ls, hl1, hl2⟩ := write_large_eq hp h (List.range MAX_CHARCLASSES)
  obtain ⟨sm, hs1, hs2⟩ := readClassLoop_eq F hp h.small (List.range NUM_CHARVALUES) List.nodup_range
    (fun v hv => List.mem_range.1 hv)
  have hall := h.all_ok
  have htot := classLine_line hp hall.1 hall.2.1 hall.2.2 (s := ascii "Total") (plain_ascii (by decide)) (by decide)
  have hhead : Line (ascii "   Count   Missed   %Right") := (plain_ascii (by decide)).line (by decide)
  have k1 : ascii "\n   Count   Missed   %Right\n" = 10 :: (ascii "   Count   Missed   %Right" ++ [10]) := by decide
  have k2 : ascii "   Count   Missed   %Right\n" = ascii "   Count   Missed   %Right" ++ [10] := by decide
  have k3 : ascii "\n  Errors   Marked   Correct-Generated\n" = 10 :: (ascii "  Errors   Marked   Correct-Generated" ++ [10]) := by decide
  have hch : Line (ascii "  Errors   Marked   Correct-Generated") := (plain_ascii (by decide)).line (by decide)
  -- the last section
  obtain ⟨sm', hsm'⟩ : ∃ x, x = if D.characters > 0 then ascii "   Count   Missed   %Right" ++ 10 :: sm else [] := ⟨_, rfl⟩
  obtain ⟨small, hsmall⟩ : ∃ x, x = if D.characters > 0 then 10 :: (ascii "   Count   Missed   %Right" ++ 10 :: sm) else [] := ⟨_, rfl⟩
  have hends : Ends small sm' := by
    rw [hsmall, hsm']; split
    · exact .inl rfl
    · exact .inr ⟨rfl, rfl⟩
  -- reading it
  have hclasses : ∀ E : Accdata, ∃ E', readClasses D.characters sm' E = .ok E' ∧
      (0 < D.characters → Tally D.small_class (List.range NUM_CHARVALUES) E E') ∧ (¬ 0 < D.characters → E' = E) := by
    intro E
    unfold readClasses
    by_cases hc : D.characters > 0
    · rw [if_pos hc, hsm', if_pos hc, read_line_eq hhead]
      obtain ⟨E', e1, e2⟩ := hs2 E sm.length (le_refl _)
      exact ⟨E', e1, fun _ => e2, fun h => absurd hc h⟩
    · rw [if_neg hc]
      exact ⟨E, rfl, fun h => absurd h hc, fun _ => rfl⟩
  -- the confusions
  obtain ⟨array, ha1, ha2⟩ := Sort.c03_sort_permutes compare_conf (Store.in_array Conf.key D.conftable) _ (le_refl _)
  have hperm : array.Perm D.conftable := ha2.trans (Store.in_array_perm _ _)
  obtain ⟨confs, hconfs⟩ : ∃ x, x = if D.errors > 0 then 10 :: (ascii "  Errors   Marked   Correct-Generated" ++ 10 ::
    array.flatMap write_conf) else [] := ⟨_, rfl⟩
  -- what is written
  have hw : write_accrpt U pct D = .ok (write_head pct D ++ (ls.flatMap (· ++ [10]) ++
      (classLine pct D.total_class (ascii "Total") ++ 10 :: (confs ++ small)))) := by
    unfold write_accrpt
    rw [hl1, bind_ok]
    have hcf : (if D.errors > 0 then write_confs D else pure []) = Res.ok confs := by
      rw [hconfs]
      split
      · unfold write_confs
        simp only [ha1, bind_ok, pure_eq, k3]
        simp
      · rfl
    have hsf : (if D.characters > 0 then do
        let s ← write_small U pct D (List.range NUM_CHARVALUES)
        pure (ascii "\n   Count   Missed   %Right\n" ++ s)
        else pure []) = Res.ok small := by
      rw [hsmall]
      split
      · rw [hs1, bind_ok, pure_eq, k1]; simp
      · rfl
    rw [hcf, bind_ok, hsf, bind_ok, pure_eq, write_class_eq]
    simp only [List.append_assoc, List.cons_append, List.nil_append]
  have hdata : ∃ E, read_accrpt Accdata.zero (write_head pct D ++ (ls.flatMap (· ++ [10]) ++
      (classLine pct D.total_class (ascii "Total") ++ 10 :: (confs ++ small)))) = .ok E ∧
      (∃ B : Accdata, B = { (add_head Accdata.zero (headOf D)) with conftable := if D.errors > 0 then array.reverse else [] } ∧
      (0 < D.characters → Tally D.small_class (List.range NUM_CHARVALUES) B E) ∧ (¬ 0 < D.characters → E = B)) := by
    unfold read_accrpt
    rw [read_head_eq hp h]
    simp only
    have e : ascii "   Count   Missed   %Right\n" ++ (ls.flatMap (· ++ [10]) ++
        (classLine pct D.total_class (ascii "Total") ++ 10 :: (confs ++ small))) =
        ((ascii "   Count   Missed   %Right" :: ls) ++ [classLine pct D.total_class (ascii "Total")]).flatMap (· ++ [10]) ++
          (confs ++ small) := by
      rw [k2]; simp
    rw [e]
    have hL : ∀ l ∈ (ascii "   Count   Missed   %Right" :: ls) ++ [classLine pct D.total_class (ascii "Total")], Line l ∧ l ≠ [] := by
      intro l hl
      simp only [List.cons_append, List.mem_cons, List.mem_append, List.not_mem_nil, or_false] at hl
      rcases hl with rfl | hl | rfl
      · exact ⟨hhead, by decide⟩
      · exact hl2 l hl
      · exact htot
    have hlen : ∀ (ls : List (List Nat)) (t : List Nat), ls.length ≤ (ls.flatMap (· ++ [10]) ++ t).length := by
      intro ls t
      induction ls with
      | nil => simp
      | cons l ls ih => simp only [List.flatMap_cons, List.length_append, List.length_cons, List.length_nil] at ih ⊢; omega
    by_cases hE : D.errors > 0
    · rw [hconfs, if_pos hE]
      have hE1 : Ends ((10 :: (ascii "  Errors   Marked   Correct-Generated" ++ 10 :: array.flatMap write_conf)) ++ small)
          (ascii "  Errors   Marked   Correct-Generated" ++ 10 :: (array.flatMap write_conf ++ small)) := by
        left; simp
      rw [skipClasses_eq hE1 _ hL _ (hlen _ _), bind_ok]
      unfold readConfs
      have hE' : (headOf D).errors > 0 := hE
      rw [if_pos hE', read_line_eq hch]
      simp only
      have hclen : array.length ≤ (array.flatMap write_conf ++ small).length := by
        have : ∀ (l : List Conf) (t : List Nat), l.length ≤ (l.flatMap write_conf ++ t).length := by
          intro l t
          induction l with
          | nil => simp
          | cons c l ih =>
            simp only [List.flatMap_cons, List.length_append, List.length_cons, write_conf, List.length_nil] at ih ⊢; omega
        exact this _ _
      rw [readConfLoop_eq hends array (add_head Accdata.zero (headOf D)) _ (fun c hc => h.confs c (hperm.mem_iff.1 hc))
        (fun c hc => h.conf_keys c (hperm.mem_iff.1 hc)) ((hperm.map Conf.key).nodup_iff.2 h.nodup) (by simp [add_head, Accdata.zero])
        hclen, bind_ok]
      simp only
      obtain ⟨E', e1, e2, e3⟩ := hclasses { (add_head Accdata.zero (headOf D)) with conftable := array.reverse ++ (add_head Accdata.zero (headOf D)).conftable }
      refine ⟨E', e1, _, ?_, e2, e3⟩
      rw [if_pos hE]; simp [add_head, Accdata.zero]
    · rw [hconfs, if_neg hE, List.nil_append, skipClasses_eq hends _ hL _ (hlen _ _), bind_ok]
      unfold readConfs
      have hE' : ¬ (headOf D).errors > 0 := hE
      rw [if_neg hE', bind_ok]
      simp only
      obtain ⟨E', e1, e2, e3⟩ := hclasses (add_head Accdata.zero (headOf D))
      refine ⟨E', e1, _, ?_, e2, e3⟩
      rw [if_neg hE]; rfl
  obtain ⟨E, hE, B, hB, t1, t2⟩ := hdata
  refine ⟨_, E, hw, hE, ?_⟩
  have hconf : D.conftable.Perm B.conftable := by
    rw [hB]
    simp only
    split
    · exact (List.reverse_perm array).trans hperm |>.symm
    · rename_i hne
      rw [h.noerrors (by omega)]
  refine finish h.small h.outside h.all h.large (fun v => List.mem_range) h.nochars hconf ?_ t1 t2
  rw [hB]

end Ocr.Acc
