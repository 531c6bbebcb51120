import Verif.Proof.AnyChar
import Verif.Proof.AnyEdo
import Verif.Proof.Accuracy

namespace Ocr.AnyReport
open Text Report Res Ocr.Acc

/-! ## The lines consist of bytes of the file -/

theorem mem_pieces : ∀ (file cur : List Nat), ∀ l ∈ pieces cur file, ∀ b ∈ l, b ∈ cur ∨ b ∈ file := by
  intro file
  induction file with
  | nil =>
    intro cur l hl b hb
    cases cur with
    | nil => simp [pieces] at hl
    | cons a c => simp only [pieces, List.mem_singleton] at hl; subst hl; exact Or.inl hb
  | cons x file ih =>
    intro cur l hl b hb
    rw [pieces_cons] at hl
    split at hl
    · rcases List.mem_cons.1 hl with rfl | hl
      · rcases List.mem_append.1 hb with hb | hb
        · exact Or.inl hb
        · simp at hb; subst hb; exact Or.inr (by simp)
      · rcases ih [] l hl b hb with h | h
        · simp at h
        · exact Or.inr (by simp [h])
    · rcases ih (cur ++ [x]) l hl b hb with h | h
      · rcases List.mem_append.1 h with h | h
        · exact Or.inl h
        · simp at h; subst h; exact Or.inr (by simp)
      · exact Or.inr (by simp [h])

theorem mem_lines {file l : List Nat} (h : l ∈ lines file) : 0 ∉ l ∧ ∀ b ∈ l, b ∈ file := by
  unfold lines at h
  obtain ⟨p, hp, rfl⟩ := List.mem_map.1 h
  refine ⟨fun h0 => ?_, fun b hb => ?_⟩
  · exact cstr_no0 p h0
  · rcases mem_pieces file [] p hp b ((List.takeWhile_sublist _).mem hb) with h | h
    · simp at h
    · exact h

/-- Lines without NULs, made of bytes. -/
def Clean (ls : List (List Nat)) : Prop := ∀ l ∈ ls, 0 ∉ l ∧ Bytes l

theorem clean_lines {file : List Nat} (h : Bytes file) : Clean (lines file) :=
  fun _ hl => ⟨(mem_lines hl).1, fun b hb => h b ((mem_lines hl).2 b hb)⟩

theorem mem_afterRows {ls : List (List Nat)} {l : List Nat} (h : l ∈ afterRows ls) : l ∈ ls := by
  unfold afterRows at h
  exact (List.dropWhile_sublist _).mem (List.mem_of_mem_drop h)

theorem mem_rows : ∀ {ls : List (List Nat)} {r : Row}, r ∈ rows ls → r.line ∈ ls := by
  intro ls
  induction ls with
  | nil => intro r h; simp [rows_nil] at h
  | cons l ls ih =>
    intro r h
    cases hr : row? l with
    | none => rw [rows_none hr] at h; simp at h
    | some x =>
      rw [rows_some hr] at h
      rcases List.mem_cons.1 h with rfl | h
      · rw [row?_line hr]; simp
      · exact List.mem_cons_of_mem _ (ih h)

/-! ## The parts of the report -/

theorem read_ops_cons {file l : List Nat} {ls : List (List Nat)} (h : lines file = l :: ls) :
    ∃ f, lines f = ls ∧ Acc.read_ops file = (ops l).map (fun v => (v, f)) := by
  obtain ⟨f, h1, h2, _⟩ := read_line_some h
  refine ⟨f, h2, ?_⟩
  unfold Acc.read_ops ops
  rw [h1]
  simp only [Option.bind_eq_bind, Option.bind_some]
  generalize scanLongs 4 l = o
  rcases o with _ | _ | ⟨a, _ | ⟨b, _ | ⟨c, _ | ⟨d, _ | _⟩⟩⟩⟩ <;> rfl

theorem read_ops_nil {file : List Nat} (h : lines file = []) : Acc.read_ops file = none := by
  unfold Acc.read_ops; rw [read_line_none h]; rfl

theorem skipClasses_spec : ∀ (ls : List (List Nat)) (file : List Nat) (fuel : Nat), lines file = ls → file.length ≤ fuel →
    ∃ f, skipClasses fuel file = .ok f ∧ lines f = (ls.dropWhile (fun l => l.head? ≠ some 10)).drop 1 := by
  intro ls
  induction ls with
  | nil =>
    intro file fuel hl _
    refine ⟨file, ?_, by simp [hl]⟩
    rw [skipClasses, read_line_none hl]
  | cons l ls ih =>
    intro file fuel hl hf
    obtain ⟨f, h1, h2, h3⟩ := read_line_some hl
    obtain ⟨n, rfl⟩ : ∃ n, fuel = n + 1 := ⟨fuel - 1, by omega⟩
    rw [skipClasses, h1]
    simp only
    by_cases hh : l.head? = some 10
    · rw [if_pos (show l.head? = some NEWLINE from hh)]
      exact ⟨f, rfl, by simp [h2, hh]⟩
    · rw [if_neg (show ¬ l.head? = some NEWLINE from hh)]
      obtain ⟨g, g1, g2⟩ := ih f n h2 (by omega)
      refine ⟨g, g1, ?_⟩
      rw [g2]
      simp [hh]

/-- Only the confusions differ: they are those of `D` and of the rows. -/
structure AddsConfs (R : List Row) (D E : Accdata) : Prop where
  same  : E = { D with conftable := E.conftable }
  conf  : ∀ k, confErrors k E = confErrors k D + firsts (fun r => r.line.drop 20 = k) R ∧
               confMarked k E = confMarked k D + seconds (fun r => r.line.drop 20 = k) R
  keys  : ∀ k, k ∈ E.conftable.map Conf.key ↔ k ∈ D.conftable.map Conf.key ∨ ∃ r ∈ R, r.line.drop 20 = k
  nodup : (D.conftable.map Conf.key).Nodup → (E.conftable.map Conf.key).Nodup

theorem AddsConfs.nil (D : Accdata) : AddsConfs [] D D :=
  ⟨rfl, by simp [firsts_nil, seconds_nil], by simp, id⟩

theorem AddsConfs.cons {r : Row} {R : List Row} {D E : Accdata}
    (h : AddsConfs R (add_conf D (r.line.drop 20) r.first r.second) E) : AddsConfs (r :: R) D E := by
  refine ⟨?_, fun k => ?_, fun k => ?_, fun hn => h.nodup (nodup_add_conf _ _ _ _ hn)⟩
  · exact h.same
  · rw [(h.conf k).1, (h.conf k).2, confErrors_add, confMarked_add, firsts_cons, seconds_cons]
    constructor <;> omega
  · rw [h.keys k, keys_add]
    simp only [List.mem_cons, exists_eq_or_imp]
    constructor
    · rintro ((a | a) | a)
      · exact Or.inl a
      · exact Or.inr (Or.inl a.symm)
      · exact Or.inr (Or.inr a)
    · rintro (a | a | a)
      · exact Or.inl (Or.inl a)
      · exact Or.inl (Or.inr a.symm)
      · exact Or.inr a

theorem readConfLoop_spec : ∀ (ls : List (List Nat)) (file : List Nat) (fuel : Nat) (D : Accdata),
    lines file = ls → file.length ≤ fuel →
    (HasNames 20 (rows ls) → ∃ E f, readConfLoop fuel file D = .ok (E, f) ∧ AddsConfs (rows ls) D E ∧ lines f = afterRows ls) ∧
    (¬ HasNames 20 (rows ls) → readConfLoop fuel file D = .ub) := by
  intro ls
  induction ls with
  | nil =>
    intro file fuel D hl _
    rw [readConfLoop, read_two_none (by simp [hl])]
    exact ⟨fun _ => ⟨D, _, rfl, AddsConfs.nil D, after_line_nil hl⟩, fun h => absurd (by simp [HasNames, rows_nil]) h⟩
  | cons l ls ih =>
    intro file fuel D hl hf
    cases hr : row? l with
    | none =>
      rw [readConfLoop, read_two_none (by intro l' ls' h; rw [hl] at h; rw [← (List.cons.inj h).1]; exact hr), rows_none hr,
        afterRows_none hr]
      exact ⟨fun _ => ⟨D, _, rfl, AddsConfs.nil D, after_line_eq hl⟩, fun h => absurd (by simp [HasNames]) h⟩
    | some r =>
      obtain ⟨f, h1, h2, h3⟩ := read_two_some hl hr
      obtain ⟨n, rfl⟩ : ∃ n, fuel = n + 1 := ⟨fuel - 1, by omega⟩
      rw [readConfLoop, h1, rows_some hr, afterRows_some hr]
      simp only
      unfold strAt
      by_cases hlen : 20 ≤ r.line.length
      · rw [if_pos (show CONF_OFFSET ≤ r.line.length from hlen), bind_ok]
        obtain ⟨i1, i2⟩ := ih f n (add_conf D (r.line.drop 20) r.first r.second) h2 (by omega)
        constructor
        · intro h
          obtain ⟨E, g, g1, g2, g3⟩ := i1 (fun x hx => h x (by simp [hx]))
          exact ⟨E, g, g1, g2.cons, g3⟩
        · intro h
          apply i2
          intro h'; apply h
          intro x hx
          rcases List.mem_cons.1 hx with rfl | hx
          · exact hlen
          · exact h' x hx
      · rw [if_neg (show ¬ CONF_OFFSET ≤ r.line.length from hlen), bind_ub]
        exact ⟨fun h => absurd (h r (by simp)) hlen, fun _ => rfl⟩

/-! ## Characters -/

/-- Only the classes differ: they are those of `D` and of the rows. -/
structure AddsClasses (R : List Row) (vs : List Nat) (D E : Accdata) : Prop where
  same  : SameRest D E
  small : ∀ v, (E.small_class v).count = (D.small_class v).count + classFirsts (· = v) R vs ∧
               (E.small_class v).missed = (D.small_class v).missed + classSeconds (· = v) R vs
  large : ∀ c, (E.large_class c).count = (D.large_class c).count + classFirsts (Charclass.charclass · = .ok c) R vs ∧
               (E.large_class c).missed = (D.large_class c).missed + classSeconds (Charclass.charclass · = .ok c) R vs
  all   : E.total_class.count = D.total_class.count + (R.map Row.first).sum ∧
          E.total_class.missed = D.total_class.missed + (R.map Row.second).sum

theorem AddsClasses.nil (D : Accdata) : AddsClasses [] [] D D :=
  ⟨rfl, by simp [classFirsts, classSeconds], by simp [classFirsts, classSeconds], by simp⟩

theorem classFirsts_cons (p : Nat → Prop) [DecidablePred p] (r : Row) (R : List Row) (v : Nat) (vs : List Nat) :
    classFirsts p (r :: R) (v :: vs) = (if p v then r.first else 0) + classFirsts p R vs := by
  unfold classFirsts; by_cases h : p v <;> simp [h]
theorem classSeconds_cons (p : Nat → Prop) [DecidablePred p] (r : Row) (R : List Row) (v : Nat) (vs : List Nat) :
    classSeconds p (r :: R) (v :: vs) = (if p v then r.second else 0) + classSeconds p R vs := by
  unfold classSeconds; by_cases h : p v <;> simp [h]

theorem add_class_ok {D D1 : Accdata} {v : Nat} {a b : Int} (h : add_class D v a b = .ok D1) :
    ∃ c, Charclass.charclass v = .ok c ∧ SameRest D D1 ∧
      D1.total_class = update_class D.total_class a b ∧
      (∀ i, D1.small_class i = if i = v then update_class (D.small_class i) a b else D.small_class i) ∧
      (∀ i, D1.large_class i = if i = c then update_class (D.large_class i) a b else D.large_class i) := by
  unfold Acc.add_class at h
  obtain ⟨c, hc, h⟩ := bind_eq_ok.1 h
  split at h
  · have h := Res.ok.inj h
    subst h
    exact ⟨c, hc, rfl, rfl, fun _ => rfl, fun _ => rfl⟩
  · simp at h

theorem AddsClasses.cons {r : Row} {R : List Row} {v : Nat} {vs : List Nat} {D D1 E : Accdata}
    (h1 : add_class D v r.first r.second = .ok D1) (h : AddsClasses R vs D1 E) : AddsClasses (r :: R) (v :: vs) D E := by
  obtain ⟨c, hc, e1, e2, e3, e4⟩ := add_class_ok h1
  refine ⟨e1.trans h.same, fun i => ?_, fun i => ?_, ?_⟩
  · rw [(h.small i).1, (h.small i).2, e3 i, classFirsts_cons, classSeconds_cons]
    by_cases hi : i = v
    · rw [if_pos hi, if_pos hi.symm, if_pos hi.symm]
      simp only [update_class]; constructor <;> omega
    · rw [if_neg hi, if_neg (fun h => hi h.symm), if_neg (fun h => hi h.symm)]
      constructor <;> omega
  · rw [(h.large i).1, (h.large i).2, e4 i, classFirsts_cons, classSeconds_cons, hc]
    by_cases hi : i = c
    · rw [if_pos hi, if_pos (by rw [hi]), if_pos (by rw [hi])]
      simp only [update_class]; constructor <;> omega
    · rw [if_neg hi, if_neg (fun h => hi (Res.ok.inj h).symm), if_neg (fun h => hi (Res.ok.inj h).symm)]
      constructor <;> omega
  · rw [h.all.1, h.all.2, e2]
    simp only [update_class, List.map_cons, List.sum_cons]; constructor <;> omega

theorem add_class_in (D : Accdata) {v : Nat} (hv : v < 0x10FFFF) (a b : Int) : ∃ D1, add_class D v a b = .ok D1 := by
  obtain ⟨c, e, hc, _⟩ := Charclass.c15_class v hv
  unfold Acc.add_class
  rw [e, bind_ok, if_pos ⟨hc, hv⟩]
  exact ⟨_, rfl⟩

theorem add_class_out (D : Accdata) {v : Nat} (hv : 0x10FFFF ≤ v) (a b : Int) : add_class D v a b = .ub := by
  unfold Acc.add_class Charclass.charclass
  obtain ⟨t, ht, _⟩ := Charclass.initialize_spec
  rw [ht, bind_ok, if_neg (by unfold NUM_CHARVALUES; omega)]; rfl

/-- What the loop does with a row. -/
def classStep (D : Accdata) (r : Row) : Res Accdata := do
  let s ← strAt r.line CLASS_OFFSET
  let v ← read_char (s ++ [0])
  if v = INVALID_CHARVALUE then .err "invalid character in" else add_class D v r.first r.second

theorem readClassLoop_fold : ∀ (ls : List (List Nat)) (file : List Nat) (fuel : Nat) (D : Accdata),
    lines file = ls → file.length ≤ fuel → readClassLoop fuel file D = (rows ls).foldlM classStep D := by
  intro ls
  induction ls with
  | nil =>
    intro file fuel D hl _
    rw [readClassLoop, read_two_none (by simp [hl])]; rfl
  | cons l ls ih =>
    intro file fuel D hl hf
    cases hr : row? l with
    | none =>
      rw [readClassLoop, read_two_none (by intro l' ls' h; rw [hl] at h; rw [← (List.cons.inj h).1]; exact hr), rows_none hr]; rfl
    | some r =>
      obtain ⟨f, h1, h2, h3⟩ := read_two_some hl hr
      obtain ⟨n, rfl⟩ : ∃ n, fuel = n + 1 := ⟨fuel - 1, by omega⟩
      rw [readClassLoop, h1, rows_some hr, List.foldlM_cons]
      simp only [classStep, res_assoc]
      congr 1; funext s
      congr 1; funext v
      by_cases hv : v = INVALID_CHARVALUE
      · rw [if_pos hv, if_pos hv]; rfl
      · rw [if_neg hv, if_neg hv]
        congr 1; funext D1
        exact ih f n D1 h2 (by omega)

theorem brace : ascii "{" = [123] := by decide

theorem classStep_in (D : Accdata) {r : Row} (h0 : 0 ∉ r.line) {v : Nat} (hl : 29 ≤ r.line.length)
    (hn : Names (r.line.drop 29) v) (hv : v < 0x10FFFF) :
    ∃ D1, classStep D r = .ok D1 ∧ add_class D v r.first r.second = .ok D1 := by
  obtain ⟨D1, h1⟩ := add_class_in D hv r.first r.second
  refine ⟨D1, ?_, h1⟩
  unfold classStep strAt
  rw [if_pos (show CLASS_OFFSET ≤ r.line.length from hl), bind_ok]
  rw [show r.line.drop CLASS_OFFSET = r.line.drop 29 from rfl,
    read_char_names hn (fun h => h0 (List.mem_of_mem_drop h)), bind_ok, if_neg (by unfold INVALID_CHARVALUE; omega), h1]

theorem classStep_refused (D : Accdata) {r : Row} (h0 : 0 ∉ r.line) (hb : Bytes r.line) (h : Refused r) :
    classStep D r = .err "invalid character in" := by
  obtain ⟨hl, hne, hN⟩ := h
  rw [brace] at hne
  obtain ⟨v, h1, h2⟩ := read_char_total (s := r.line.drop 29) (fun h => h0 (List.mem_of_mem_drop h))
    (fun b hbm => hb b (List.mem_of_mem_drop hbm)) hne
  have hv : v = INVALID_CHARVALUE := by
    rcases h2 with h2 | h2
    · exact hN v h2
    · exact h2
  unfold classStep strAt
  rw [if_pos (show CLASS_OFFSET ≤ r.line.length from hl), bind_ok,
    show r.line.drop CLASS_OFFSET = r.line.drop 29 from rfl, h1, bind_ok, if_pos hv]

theorem classStep_outside (D : Accdata) {r : Row} (h0 : 0 ∉ r.line) (h : Outside r) : classStep D r = .ub := by
  unfold classStep strAt
  by_cases hl : 29 ≤ r.line.length
  swap
  · rw [if_neg (show ¬ CLASS_OFFSET ≤ r.line.length from hl), bind_ub]
  rw [if_pos (show CLASS_OFFSET ≤ r.line.length from hl), bind_ok, show r.line.drop CLASS_OFFSET = r.line.drop 29 from rfl]
  rcases h with h | h | ⟨v, hn, hv, hne⟩
  · omega
  · rw [h, brace, read_char_bare, bind_ub]
  · rw [read_char_names hn (fun h => h0 (List.mem_of_mem_drop h)), bind_ok, if_neg (by unfold INVALID_CHARVALUE; exact hne),
      add_class_out D hv]

theorem fold_about : ∀ (R : List Row) (vs : List Nat) (D : Accdata), About R vs → (∀ r ∈ R, 0 ∉ r.line) →
    ∃ E, R.foldlM classStep D = .ok E ∧ AddsClasses R vs D E := by
  intro R
  induction R with
  | nil =>
    intro vs D h _
    cases h
    exact ⟨D, rfl, AddsClasses.nil D⟩
  | cons r R ih =>
    intro vs D h hc
    cases h with
    | cons h1 h2 =>
      obtain ⟨hl, hn, hv⟩ := h1
      obtain ⟨D1, s1, s2⟩ := classStep_in D (hc r (by simp)) hl hn hv
      obtain ⟨E, e1, e2⟩ := ih _ D1 h2 (fun x hx => hc x (by simp [hx]))
      refine ⟨E, ?_, e2.cons s2⟩
      rw [List.foldlM_cons, s1, bind_ok, e1]

theorem row_cases (r : Row) :
    (∃ v, 29 ≤ r.line.length ∧ Names (r.line.drop 29) v ∧ v < 0x10FFFF) ∨ Refused r ∨ Outside r := by
  by_cases ho : Outside r
  · exact Or.inr (Or.inr ho)
  have ho' := ho
  simp only [Outside, not_or, not_lt, not_exists, not_and] at ho
  obtain ⟨hl, hne, hbig⟩ := ho
  by_cases hr : Refused r
  · exact Or.inr (Or.inl hr)
  simp only [Refused, not_and] at hr
  have := hr hl hne
  simp only [not_forall] at this
  obtain ⟨v, hn, hv⟩ := this
  refine Or.inl ⟨v, hl, hn, ?_⟩
  by_contra hc
  exact hbig v hn (by omega) hv

/-! ## The report -/

/-- The lines left over. -/
def toLines {α : Type} (x : Option (α × List Nat)) : Option (α × List (List Nat)) := x.map (fun p => (p.1, lines p.2))

def lineValue : List (List Nat) → Option (Int × List (List Nat))
  | [] => none
  | l :: ls => (number l).map (fun v => (v, ls))
def lineOps : List (List Nat) → Option (Accops × List (List Nat))
  | [] => none
  | l :: ls => (ops l).map (fun v => (v, ls))
def lineSkip (n : Nat) (ls : List (List Nat)) : Option (List (List Nat)) := if n ≤ ls.length then some (ls.drop n) else none

theorem toLines_value (file : List Nat) : toLines (read_value file) = lineValue (lines file) := by
  cases h : lines file with
  | nil => rw [read_value_nil h]; rfl
  | cons l ls =>
    obtain ⟨f, h1, h2⟩ := read_value_cons h
    rw [h2, lineValue]; cases number l <;> simp [toLines, h1]

theorem toLines_ops (file : List Nat) : toLines (Acc.read_ops file) = lineOps (lines file) := by
  cases h : lines file with
  | nil => rw [read_ops_nil h]; rfl
  | cons l ls =>
    obtain ⟨f, h1, h2⟩ := read_ops_cons h
    rw [h2, lineOps]; cases ops l <;> simp [toLines, h1]

theorem lines_skip (n : Nat) (file : List Nat) : (Report.skip_lines n file).map lines = lineSkip n (lines file) := by
  unfold lineSkip
  by_cases h : n ≤ (lines file).length
  · obtain ⟨f, h1, h2⟩ := skip_some h
    rw [if_pos h, h1]; simp [h2]
  · rw [if_neg h, skip_none (by omega)]; rfl

theorem toLines_bind {α β : Type} {x : Option (α × List Nat)} {y : Option (α × List (List Nat))} (h : toLines x = y)
    {k : α × List Nat → Option (β × List Nat)} {k' : α × List (List Nat) → Option (β × List (List Nat))}
    (hk : ∀ p, toLines (k p) = k' (p.1, lines p.2)) : toLines (x.bind k) = y.bind k' := by
  subst h
  cases x with
  | none => rfl
  | some p => exact hk p

theorem lines_bind {β : Type} {x : Option (List Nat)} {y : Option (List (List Nat))} (h : x.map lines = y)
    {k : List Nat → Option (β × List Nat)} {k' : List (List Nat) → Option (β × List (List Nat))}
    (hk : ∀ f, toLines (k f) = k' (lines f)) : toLines (x.bind k) = y.bind k' := by
  subst h
  cases x with
  | none => rfl
  | some f => exact hk f

/-- `read_head` after the title, on lines. -/
def lineHead (ls : List (List Nat)) : Option (Head × List (List Nat)) :=
  (lineValue ls).bind fun p1 =>
  (lineValue p1.2).bind fun p2 =>
  (lineSkip 2 p2.2).bind fun ls =>
  (lineValue ls).bind fun p3 =>
  (lineValue p3.2).bind fun p4 =>
  (lineValue p4.2).bind fun p5 =>
  (lineSkip 4 p5.2).bind fun ls =>
  (lineOps ls).bind fun o1 =>
  (lineOps o1.2).bind fun o2 =>
  (lineOps o2.2).bind fun o3 =>
  (lineSkip 1 o3.2).bind fun ls =>
  some (⟨p1.1, p2.1, p3.1, p4.1, p5.1, o1.1, o2.1, o3.1⟩, ls)

theorem toLines_head (file : List Nat) :
    toLines (Acc.read_head file) = (titled Acc.TITLE Acc.DIVIDER (lines file)).bind lineHead := by
  have ht := read_title_spec Acc.TITLE Acc.DIVIDER file
  have ht' : (read_title Acc.TITLE Acc.DIVIDER file).map lines = titled Acc.TITLE Acc.DIVIDER (lines file) := by
    cases hT : titled Acc.TITLE Acc.DIVIDER (lines file) with
    | none => rw [hT] at ht; simp only at ht; rw [ht]; rfl
    | some ls => rw [hT] at ht; obtain ⟨f, h1, h2⟩ := ht; rw [h1]; simp [h2]
  unfold Acc.read_head lineHead
  simp only [Option.bind_eq_bind]
  refine lines_bind ht' fun f => ?_
  refine toLines_bind (toLines_value _) fun a1 => ?_
  refine toLines_bind (toLines_value _) fun a2 => ?_
  refine lines_bind (lines_skip 2 _) fun f => ?_
  refine toLines_bind (toLines_value _) fun a3 => ?_
  refine toLines_bind (toLines_value _) fun a4 => ?_
  refine toLines_bind (toLines_value _) fun a5 => ?_
  refine lines_bind (lines_skip 4 _) fun f => ?_
  refine toLines_bind (toLines_ops _) fun o1 => ?_
  refine toLines_bind (toLines_ops _) fun o2 => ?_
  refine toLines_bind (toLines_ops _) fun o3 => ?_
  refine lines_bind (lines_skip 1 _) fun f => ?_
  rfl

theorem bind_value {β : Type} (l : List Nat) (ls : List (List Nat)) (k : Int × List (List Nat) → Option β) :
    (lineValue (l :: ls)).bind k = (number l).bind fun v => k (v, ls) := by
  rw [lineValue]; cases number l <;> rfl
theorem bind_value_nil {β : Type} (k : Int × List (List Nat) → Option β) : (lineValue []).bind k = none := rfl
theorem bind_ops {β : Type} (l : List Nat) (ls : List (List Nat)) (k : Accops × List (List Nat) → Option β) :
    (lineOps (l :: ls)).bind k = (ops l).bind fun v => k (v, ls) := by
  rw [lineOps]; cases ops l <;> rfl
theorem bind_ops_nil {β : Type} (k : Accops × List (List Nat) → Option β) : (lineOps []).bind k = none := rfl
theorem skip_cons (n : Nat) (l : List Nat) (ls : List (List Nat)) : lineSkip (n + 1) (l :: ls) = lineSkip n ls := by
  unfold lineSkip; simp
theorem skip_nil (n : Nat) : lineSkip (n + 1) [] = none := by unfold lineSkip; simp
theorem skip_zero (ls : List (List Nat)) : lineSkip 0 ls = some ls := by unfold lineSkip; simp
theorem bind_const {α β : Type} (x : Option α) : (x.bind fun _ => (none : Option β)) = none := by cases x <;> rfl

set_option linter.unusedSimpArgs false in
set_option maxHeartbeats 1000000 in
theorem accuracy_eq (ls : List (List Nat)) :
    accuracy ls = ((titled Acc.TITLE Acc.DIVIDER ls).bind lineHead).map (fun p => accuracyBody p.1 p.2) := by
  unfold accuracy
  cases titled Acc.TITLE Acc.DIVIDER ls with
  | none => rfl
  | some ls =>
    simp only [Option.bind_some]
    unfold lineHead
    rcases ls with _ | ⟨a, ls⟩
    · rfl
    rcases ls with _ | ⟨b, ls⟩
    · simp only [bind_value, bind_value_nil, bind_ops, bind_ops_nil, skip_cons, skip_nil, skip_zero, bind_const, Option.bind_none, Option.bind_some, Option.map_none]
    rcases ls with _ | ⟨x1, ls⟩
    · simp only [bind_value, bind_value_nil, bind_ops, bind_ops_nil, skip_cons, skip_nil, skip_zero, bind_const, Option.bind_none, Option.bind_some, Option.map_none]
    rcases ls with _ | ⟨x2, ls⟩
    · simp only [bind_value, bind_value_nil, bind_ops, bind_ops_nil, skip_cons, skip_nil, skip_zero, bind_const, Option.bind_none, Option.bind_some, Option.map_none]
    rcases ls with _ | ⟨c, ls⟩
    · simp only [bind_value, bind_value_nil, bind_ops, bind_ops_nil, skip_cons, skip_nil, skip_zero, bind_const, Option.bind_none, Option.bind_some, Option.map_none]
    rcases ls with _ | ⟨d, ls⟩
    · simp only [bind_value, bind_value_nil, bind_ops, bind_ops_nil, skip_cons, skip_nil, skip_zero, bind_const, Option.bind_none, Option.bind_some, Option.map_none]
    rcases ls with _ | ⟨e, ls⟩
    · simp only [bind_value, bind_value_nil, bind_ops, bind_ops_nil, skip_cons, skip_nil, skip_zero, bind_const, Option.bind_none, Option.bind_some, Option.map_none]
    rcases ls with _ | ⟨x3, ls⟩
    · simp only [bind_value, bind_value_nil, bind_ops, bind_ops_nil, skip_cons, skip_nil, skip_zero, bind_const, Option.bind_none, Option.bind_some, Option.map_none]
    rcases ls with _ | ⟨x4, ls⟩
    · simp only [bind_value, bind_value_nil, bind_ops, bind_ops_nil, skip_cons, skip_nil, skip_zero, bind_const, Option.bind_none, Option.bind_some, Option.map_none]
    rcases ls with _ | ⟨x5, ls⟩
    · simp only [bind_value, bind_value_nil, bind_ops, bind_ops_nil, skip_cons, skip_nil, skip_zero, bind_const, Option.bind_none, Option.bind_some, Option.map_none]
    rcases ls with _ | ⟨x6, ls⟩
    · simp only [bind_value, bind_value_nil, bind_ops, bind_ops_nil, skip_cons, skip_nil, skip_zero, bind_const, Option.bind_none, Option.bind_some, Option.map_none]
    rcases ls with _ | ⟨o1, ls⟩
    · simp only [bind_value, bind_value_nil, bind_ops, bind_ops_nil, skip_cons, skip_nil, skip_zero, bind_const, Option.bind_none, Option.bind_some, Option.map_none]
    rcases ls with _ | ⟨o2, ls⟩
    · simp only [bind_value, bind_value_nil, bind_ops, bind_ops_nil, skip_cons, skip_nil, skip_zero, bind_const, Option.bind_none, Option.bind_some, Option.map_none]
    rcases ls with _ | ⟨o3, ls⟩
    · simp only [bind_value, bind_value_nil, bind_ops, bind_ops_nil, skip_cons, skip_nil, skip_zero, bind_const, Option.bind_none, Option.bind_some, Option.map_none]
    rcases ls with _ | ⟨x7, ls⟩
    · simp only [bind_value, bind_value_nil, bind_ops, bind_ops_nil, skip_cons, skip_nil, skip_zero, bind_const, Option.bind_none, Option.bind_some, Option.map_none]
    simp only [bind_value, bind_value_nil, bind_ops, bind_ops_nil, skip_cons, skip_nil, skip_zero, bind_const, Option.bind_none, Option.bind_some, Option.map_bind, Function.comp_def, Option.map_some, Option.bind_eq_bind]

theorem acc_head_spec (file : List Nat) :
    match accuracy (lines file) with
    | none => Acc.read_head file = none
    | some p => ∃ h f, Acc.read_head file = some (h, f) ∧ p = accuracyBody h (lines f) := by
  rw [accuracy_eq, ← toLines_head]
  cases h : Acc.read_head file with
  | none => rfl
  | some p => exact ⟨p.1, p.2, rfl, rfl⟩

theorem foldlM_app {α β : Type} (f : β → α → Res β) : ∀ (a b : List α) (x : β),
    (a ++ b).foldlM f x = a.foldlM f x >>= fun y => b.foldlM f y := by
  intro a
  induction a with
  | nil => intro b x; rfl
  | cons c a ih =>
    intro b x
    rw [List.cons_append, List.foldlM_cons, List.foldlM_cons, res_assoc]
    congr 1; funext y; exact ih b y

theorem fold_stop {pre post : List Row} {r : Row} {us : List Nat} {D : Accdata} {x : Res Accdata} (h : About pre us)
    (h0 : ∀ r ∈ pre, 0 ∉ r.line) (hx : ∀ D, classStep D r = x) (hs : ∀ D, x ≠ .ok D) :
    (pre ++ r :: post).foldlM classStep D = x := by
  obtain ⟨E, e1, _⟩ := fold_about pre us D h h0
  rw [foldlM_app, e1, bind_ok, List.foldlM_cons, hx]
  cases x with
  | ok D => exact absurd rfl (hs D)
  | err m => rfl
  | ub => rfl
  | fuel => rfl

theorem readConfs_spec (errors : Int) (file : List Nat) (D : Accdata) (R : List Row) (s : List (List Nat))
    (hR : R = if errors > 0 then rows ((lines file).drop 1) else [])
    (hs : s = if errors > 0 then afterRows ((lines file).drop 1) else lines file) :
    (HasNames 20 R → ∃ E f, readConfs errors file D = .ok (E, f) ∧ AddsConfs R D E ∧ lines f = s) ∧
    (¬ HasNames 20 R → readConfs errors file D = .ub) := by
  unfold readConfs
  by_cases he : errors > 0
  · rw [if_pos he] at hR hs ⊢
    cases hl : lines file with
    | nil =>
      rw [hl] at hR hs
      rw [read_line_none hl]
      simp only [List.drop_nil, rows_nil, afterRows_nil] at hR hs
      subst hR; subst hs
      exact ⟨fun _ => ⟨D, file, rfl, AddsConfs.nil D, hl⟩, fun h => absurd (by simp [HasNames]) h⟩
    | cons l ls =>
      rw [hl] at hR hs
      obtain ⟨f, h1, h2, _⟩ := read_line_some hl
      rw [h1]
      simp only [List.drop_succ_cons, List.drop_zero] at hR hs
      subst hR; subst hs
      exact readConfLoop_spec ls f f.length D h2 (le_refl _)
  · rw [if_neg he] at hR hs ⊢
    subst hR
    exact ⟨fun _ => ⟨D, file, rfl, AddsConfs.nil D, hs.symm⟩, fun h => absurd (by simp [HasNames]) h⟩

theorem readClasses_fold (characters : Int) (file : List Nat) (D : Accdata) (R : List Row)
    (hR : R = if characters > 0 then rows ((lines file).drop 1) else []) :
    readClasses characters file D = R.foldlM classStep D := by
  unfold readClasses
  by_cases he : characters > 0
  · rw [if_pos he] at hR ⊢
    cases hl : lines file with
    | nil =>
      rw [hl] at hR
      rw [read_line_none hl]
      simp only [List.drop_nil, rows_nil] at hR
      subst hR; rfl
    | cons l ls =>
      rw [hl] at hR
      obtain ⟨f, h1, h2, _⟩ := read_line_some hl
      rw [h1]
      simp only [List.drop_succ_cons, List.drop_zero] at hR
      subst hR
      exact readClassLoop_fold ls f f.length D h2 (le_refl _)
  · rw [if_neg he] at hR ⊢
    subst hR; rfl

theorem mem_titled {title divider : List Nat} {ls ls' : List (List Nat)} (h : titled title divider ls = some ls') {l : List Nat}
    (hl : l ∈ ls') : l ∈ ls := by
  rcases ls with _ | ⟨t, _ | ⟨d, rest⟩⟩
  · simp [titled] at h
  · simp [titled] at h
  · rw [titled] at h
    split at h
    · rw [← Option.some.inj h] at hl; simp [hl]
    · simp at h

theorem accuracy_clean {ls : List (List Nat)} {p : AccuracyParts} (h : accuracy ls = some p) : ∀ r ∈ p.classes, r.line ∈ ls := by
  intro r hr
  unfold accuracy at h
  split at h
  · rename_i a b _ _ c d e _ _ _ _ o1 o2 o3 _ s hT
    simp only [Option.bind_eq_bind, Option.bind_eq_some_iff] at h
    obtain ⟨_, _, _, _, _, _, _, _, _, _, _, _, _, _, _, _, h⟩ := h
    have h := Option.some.inj h
    rw [← h] at hr
    apply mem_titled hT
    suffices hs : r.line ∈ s by simp [hs]
    unfold accuracyBody at hr
    simp only at hr
    split at hr
    swap
    · simp at hr
    have h1 := List.mem_of_mem_drop (mem_rows hr)
    split at h1
    · exact (List.dropWhile_sublist _).mem (List.mem_of_mem_drop (List.mem_of_mem_drop (mem_afterRows h1)))
    · exact (List.dropWhile_sublist _).mem (List.mem_of_mem_drop h1)
  · simp at h

theorem adds_all {h : Head} {confs classes : List Row} {vs : List Nat} {D D1 E : Accdata}
    (hc : AddsConfs confs (add_head D h) D1) (hk : AddsClasses classes vs D1 E) : (AccuracyParts.mk h confs classes).Adds vs D E := by
  have hs := hk.same
  unfold SameRest at hs
  have e := hc.same
  have hE : E.conftable = D1.conftable := by rw [hs]
  constructor
  case characters => rw [hs, e]; rfl
  case errors => rw [hs, e]; rfl
  case rejects => rw [hs, e]; rfl
  case suspects => rw [hs, e]; rfl
  case falses => rw [hs, e]; rfl
  case marked => rw [hs, e]; simp [add_head, add_ops, sumOps]
  case unmarked => rw [hs, e]; simp [add_head, add_ops, sumOps]
  case total => rw [hs, e]; simp [add_head, add_ops, sumOps]
  case small => intro v; rw [(hk.small v).1, (hk.small v).2, e]; exact ⟨rfl, rfl⟩
  case large => intro v; rw [(hk.large v).1, (hk.large v).2, e]; exact ⟨rfl, rfl⟩
  case all => rw [hk.all.1, hk.all.2, e]; exact ⟨rfl, rfl⟩
  case conf =>
    intro k
    have h1 : confErrors k E = confErrors k D1 := by unfold confErrors; rw [hE]
    have h2 : confMarked k E = confMarked k D1 := by unfold confMarked; rw [hE]
    rw [h1, h2]; exact hc.conf k
  case keys => intro k; rw [hE]; exact hc.keys k
  case nodup => intro hn; rw [hE]; exact hc.nodup hn

theorem read_accrpt_spec (D : Accdata) (file : List Nat) (hb : Bytes file) :
    match accuracy (lines file) with
    | none => read_accrpt D file = .err "invalid format in"
    | some p =>
      (¬ HasNames 20 p.confs → read_accrpt D file = .ub) ∧
      (HasNames 20 p.confs →
        (∀ vs, About p.classes vs → ∃ E, read_accrpt D file = .ok E ∧ p.Adds vs D E) ∧
        (∀ pre r post us, p.classes = pre ++ r :: post → About pre us →
          (Refused r → read_accrpt D file = .err "invalid character in") ∧ (Outside r → read_accrpt D file = .ub))) := by
  have hh := acc_head_spec file
  have hcl := clean_lines hb
  cases hw : accuracy (lines file) with
  | none => unfold read_accrpt; rw [hw] at hh; simp only at hh ⊢; rw [hh]
  | some p =>
    have hlines := accuracy_clean hw
    rw [hw] at hh
    obtain ⟨h, f, h1, rfl⟩ := hh
    have key : ∃ f1, (¬ HasNames 20 (accuracyBody h (lines f)).confs → read_accrpt D file = .ub) ∧
        (HasNames 20 (accuracyBody h (lines f)).confs → ∃ E, AddsConfs (accuracyBody h (lines f)).confs (add_head D h) E ∧
          read_accrpt D file = readClasses h.characters f1 E ∧ 
          (accuracyBody h (lines f)).classes = if h.characters > 0 then rows ((lines f1).drop 1) else []) := by
      obtain ⟨g, g1, g2⟩ := skipClasses_spec (lines f) f f.length rfl (le_refl _)
      have hr : read_accrpt D file = (do
          let (D, f) ← readConfs h.errors g (add_head D h)
          readClasses h.characters f D) := by
        unfold read_accrpt; rw [h1]; simp only; rw [g1, bind_ok]
      obtain ⟨i1, i2⟩ := readConfs_spec h.errors g (add_head D h) (accuracyBody h (lines f)).confs
        (if h.errors > 0 then afterRows ((lines g).drop 1) else lines g) (by rw [g2]; rfl) rfl
      by_cases hn : HasNames 20 (accuracyBody h (lines f)).confs
      · obtain ⟨E, f1, e1, e2, e3⟩ := i1 hn
        refine ⟨f1, fun hc => absurd hn hc, fun _ => ⟨E, e2, ?_, ?_⟩⟩
        · rw [hr, e1, bind_ok]
        · rw [e3, g2]; rfl
      · exact ⟨f, fun _ => by rw [hr, i2 hn, bind_ub], fun hc => absurd hc hn⟩
    obtain ⟨f1, k1, k2⟩ := key
    refine ⟨k1, fun hn => ?_⟩
    obtain ⟨E, e1, e2, e3⟩ := k2 hn
    rw [e2, readClasses_fold _ _ _ _ e3]
    refine ⟨fun vs hv => ?_, fun pre r post us hsplit hv => ?_⟩
    · obtain ⟨E2, a1, a2⟩ := fold_about _ vs E hv (fun r hr => (hcl _ (hlines r hr)).1)
      exact ⟨E2, a1, adds_all e1 a2⟩
    · have hpre : ∀ r ∈ pre, 0 ∉ r.line := fun x hx => (hcl _ (hlines x (by rw [hsplit]; simp [hx]))).1
      have hrl := hcl _ (hlines r (by rw [hsplit]; simp))
      rw [hsplit]
      exact ⟨fun hr => fold_stop hv hpre (fun D => classStep_refused D hrl.1 hrl.2 hr) (by simp),
        fun hr => fold_stop hv hpre (fun D => classStep_outside D hrl.1 hr) (by simp)⟩

theorem first_fault (R : List Row) : (∃ vs, About R vs) ∨
    ∃ pre r post us, R = pre ++ r :: post ∧ About pre us ∧ (Refused r ∨ Outside r) := by
  induction R with
  | nil => exact Or.inl ⟨[], .nil⟩
  | cons r R ih =>
    rcases row_cases r with ⟨v, hv⟩ | hbad
    · rcases ih with ⟨vs, h⟩ | ⟨pre, x, post, us, rfl, h, hx⟩
      · exact Or.inl ⟨v :: vs, .cons hv h⟩
      · exact Or.inr ⟨r :: pre, x, post, v :: us, rfl, .cons hv h, hx⟩
    · exact Or.inr ⟨[], r, R, [], rfl, .nil, hbad⟩

end Ocr.AnyReport
