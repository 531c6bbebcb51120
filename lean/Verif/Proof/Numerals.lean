import Verif.Model.Stdio
import Verif.Spec.Numerals
import Mathlib.Tactic.IntervalCases

/-!
# The numbers found by sscanf
-/

namespace Ocr.Numerals

theorem digit10 {v b : Nat} : digit 10 v b ↔ v < 10 ∧ b = 48 + v := by
  unfold digit
  constructor
  · rintro ⟨h, h'⟩
    refine ⟨h, ?_⟩
    interval_cases v <;> simp [ascii] at h' <;> omega
  · rintro ⟨h, rfl⟩
    refine ⟨h, ?_⟩
    interval_cases v <;> simp [ascii]

theorem digit16 {v b : Nat} : digit 16 v b ↔ hexVal? b = some v := by
  unfold digit
  constructor
  · rintro ⟨h, h'⟩
    interval_cases v <;> simp [ascii] at h' <;> first | (subst h'; decide) | (rcases h' with rfl | rfl <;> decide)
  · intro h
    unfold hexVal? at h
    split at h
    · rename_i hc
      obtain ⟨h1, h2⟩ := hc
      interval_cases b <;> simp at h <;> subst h <;> simp [ascii]
    · split at h
      · rename_i hc
        obtain ⟨h1, h2⟩ := hc
        interval_cases b <;> simp at h <;> subst h <;> simp [ascii]
      · split at h
        · rename_i hc
          obtain ⟨h1, h2⟩ := hc
          interval_cases b <;> simp at h <;> subst h <;> simp [ascii]
        · simp at h

theorem isdigit_iff {b : Nat} : isdigit b = true ↔ ∃ v, digit 10 v b := by
  simp only [digit10, isdigit, Bool.and_eq_true, decide_eq_true_eq]
  constructor
  · rintro ⟨h1, h2⟩; exact ⟨b - 48, by omega, by omega⟩
  · rintro ⟨v, h1, h2⟩; omega

theorem isspace_iff {b : Nat} : isspace b = true ↔ b ∈ ascii " \t\n" ++ [11, 12, 13] := by
  simp [isspace, ascii]
  omega

theorem spaces_iff {s : List Nat} : Spaces s ↔ s.all isspace = true := by
  unfold Spaces
  rw [List.all_eq_true]
  exact ⟨fun h b hb => isspace_iff.2 (h b hb), fun h b hb => isspace_iff.1 (h b hb)⟩

/-- Splitting at the first element without a property. -/
theorem take_split {p : Nat → Bool} {s u v : List Nat} (h : s = u ++ v) (hu : u.all p = true) (hv : ∀ b t, v = b :: t → p b = false) :
    s.takeWhile p = u ∧ s.dropWhile p = v := by
  subst h
  induction u with
  | nil =>
    cases v with
    | nil => simp
    | cons b t => simp [hv b t rfl]
  | cons x u ih =>
    simp only [List.all_cons, Bool.and_eq_true] at hu
    obtain ⟨h1, h2⟩ := ih hu.2
    simp [hu.1, h1, h2]

theorem dropWhile_head {p : Nat → Bool} : ∀ {s : List Nat} {b : Nat} {t : List Nat}, s.dropWhile p = b :: t → p b = false
  | [], b, t, h => by simp at h
  | x :: s, b, t, h => by
    rw [List.dropWhile_cons] at h
    split at h
    · exact dropWhile_head h
    · rename_i hx
      obtain ⟨rfl, _⟩ := List.cons.inj h
      simpa using hx

theorem takeWhile_all {p : Nat → Bool} : ∀ (s : List Nat), (s.takeWhile p).all p = true
  | [] => rfl
  | x :: s => by
    rw [List.takeWhile_cons]
    split
    · rename_i hx; simp [hx, takeWhile_all s]
    · rfl

/-- The sign found. -/
theorem scanSign_eq {s sg r : List Nat} {f : Int} (h : s = sg ++ r) (hs : Sign sg f) (hr : sg = [] → ∀ b t, r = b :: t → b ≠ 45 ∧ b ≠ 43) :
    scanSign s = (decide (f = -1), sg.length, r) := by
  subst h
  rcases hs with ⟨rfl, rfl⟩ | ⟨rfl, rfl⟩ | ⟨rfl, rfl⟩
  · cases r with
    | nil => rfl
    | cons b t =>
      obtain ⟨h1, h2⟩ := hr rfl b t rfl
      simp [scanSign, h1, h2]
  · simp [scanSign, ascii]
  · simp [scanSign, ascii]

theorem scanSign_split (s : List Nat) : ∃ sg f, s = sg ++ (scanSign s).2.2 ∧ Sign sg f ∧ (scanSign s).1 = decide (f = -1) ∧
    (scanSign s).2.1 = sg.length := by
  cases s with
  | nil => exact ⟨[], 1, rfl, Or.inl ⟨rfl, rfl⟩, rfl, rfl⟩
  | cons b t =>
    by_cases h1 : b = 45
    · subst h1
      exact ⟨ascii "-", -1, by simp [ascii, scanSign], Or.inr (Or.inr ⟨rfl, rfl⟩), by simp [scanSign], by simp [scanSign, ascii]⟩
    · by_cases h2 : b = 43
      · subst h2
        exact ⟨ascii "+", 1, by simp [ascii, scanSign], Or.inr (Or.inl ⟨rfl, rfl⟩), by simp [scanSign], by simp [scanSign, ascii]⟩
      · exact ⟨[], 1, by simp [scanSign, h1, h2], Or.inl ⟨rfl, rfl⟩, by simp [scanSign, h1, h2], by simp [scanSign, h1, h2]⟩

theorem digits10_all {vs ds : List Nat} (h : Digits 10 vs ds) : ds.all isdigit = true := by
  unfold Digits at h
  induction h with
  | nil => rfl
  | cons h _ ih => simp [isdigit_iff.2 ⟨_, h⟩, ih]

theorem digits10_exists : ∀ {ds : List Nat}, ds.all isdigit = true → ∃ vs, Digits 10 vs ds
  | [], _ => ⟨[], .nil⟩
  | d :: ds, h => by
    simp only [List.all_cons, Bool.and_eq_true] at h
    obtain ⟨v, hv⟩ := isdigit_iff.1 h.1
    obtain ⟨vs, hvs⟩ := digits10_exists h.2
    exact ⟨v :: vs, .cons hv hvs⟩

theorem value_cons (base v : Nat) (vs : List Nat) : value base (v :: vs) = v * base ^ vs.length + value base vs := by
  unfold value
  rw [List.reverse_cons, Nat.ofDigits_append, Nat.ofDigits_singleton, List.length_reverse]
  rw [Nat.mul_comm, Nat.add_comm]

theorem decVal_eq {vs ds : List Nat} (h : Digits 10 vs ds) : decVal ds = value 10 vs := by
  have key : ∀ acc, ds.foldl (fun v d => 10 * v + (d - 48)) acc = acc * 10 ^ vs.length + value 10 vs := by
    unfold Digits at h
    induction h with
    | nil => intro acc; simp [value]
    | @cons v d vs ds h _ ih =>
      intro acc
      rw [List.foldl_cons, ih, value_cons, List.length_cons, pow_succ, (digit10.1 h).2]
      rw [show 48 + v - 48 = v by omega]
      ring
  unfold decVal
  rw [key 0]; simp

/-- What `%ld` finds. -/
theorem scanLong_iff (s : List Nat) (v : Int) (rest : List Nat) : scanLong s = some (v, rest) ↔ Decimal s v rest := by
  constructor
  · intro h
    unfold scanLong at h
    obtain ⟨sg, f, h1, h2, h3, h4⟩ := scanSign_split (s.dropWhile isspace)
    generalize scanSign (s.dropWhile isspace) = X at h h1 h3 h4
    obtain ⟨neg, l, r⟩ := X
    simp only at h h1 h3 h4
    split at h
    · simp at h
    · rename_i hne
      simp only [Option.some.injEq, Prod.mk.injEq] at h
      obtain ⟨hv, hr⟩ := h
      obtain ⟨vs, hvs⟩ := digits10_exists (takeWhile_all (p := isdigit) r)
      refine ⟨s.takeWhile isspace, sg, vs, r.takeWhile isdigit, f, ?_, spaces_iff.2 (takeWhile_all s), h2, hne, hvs, ?_, ?_⟩
      · rw [List.append_assoc, ← hr, List.takeWhile_append_dropWhile, List.append_assoc, ← h1, List.takeWhile_append_dropWhile]
      · intro b t e w hw
        have := dropWhile_head (hr.trans e)
        rw [isdigit_iff.2 ⟨w, hw⟩] at this
        simp at this
      · rw [← hv, h3, decVal_eq hvs]
        rcases h2 with ⟨_, rfl⟩ | ⟨_, rfl⟩ | ⟨_, rfl⟩ <;> simp
  · rintro ⟨ws, sg, vs, ds, f, e, hw, hs, hne, hd, hend, rfl⟩
    obtain ⟨d0, ds', rfl⟩ : ∃ d0 ds', ds = d0 :: ds' := by cases ds with | nil => exact absurd rfl hne | cons d t => exact ⟨d, t, rfl⟩
    have hd0 : isdigit d0 = true := by have := digits10_all hd; simp only [List.all_cons, Bool.and_eq_true] at this; exact this.1
    have hb : 48 ≤ d0 ∧ d0 ≤ 57 := by simpa [isdigit] using hd0
    obtain ⟨_, e1⟩ := take_split (p := isspace) (s := s) (u := ws) (v := sg ++ (d0 :: ds' ++ rest)) (by rw [e]; simp) (spaces_iff.1 hw) (by
      intro b t e'
      rcases hs with ⟨rfl, _⟩ | ⟨rfl, _⟩ | ⟨rfl, _⟩
      · simp at e'; rw [← e'.1]; simp [isspace]; omega
      · simp [ascii] at e'; rw [← e'.1]; rfl
      · simp [ascii] at e'; rw [← e'.1]; rfl)
    have e2 := scanSign_eq (s := sg ++ (d0 :: ds' ++ rest)) rfl hs (by
      intro _ b t e'
      simp at e'; rw [← e'.1]; omega)
    obtain ⟨e3, e4⟩ := take_split (p := isdigit) (s := d0 :: ds' ++ rest) (u := d0 :: ds') (v := rest) rfl (digits10_all hd) (by
      intro b t e'
      have := hend b t e'
      rw [Bool.eq_false_iff]
      intro hc
      obtain ⟨w, hw⟩ := isdigit_iff.1 hc
      exact this w hw)
    unfold scanLong
    rw [e1, e2]
    simp only
    rw [e3, e4, if_neg (by simp), decVal_eq hd]
    rcases hs with ⟨_, rfl⟩ | ⟨_, rfl⟩ | ⟨_, rfl⟩ <;> simp

/-! ## Hexadecimal numbers -/

theorem scanHexDigits_of {vs ds : List Nat} (h : Digits 16 vs ds) {rest : List Nat} (hr : Ended 16 rest) : ∀ acc n,
    scanHexDigits acc n (ds ++ rest) = (acc * 16 ^ vs.length + value 16 vs, n + ds.length) := by
  unfold Digits at h
  induction h with
  | nil =>
    intro acc n
    cases rest with
    | nil => simp [scanHexDigits, value]
    | cons b t =>
      have : hexVal? b = none := by
        cases hc : hexVal? b with
        | none => rfl
        | some v => exact absurd (digit16.2 hc) (hr b t rfl v)
      simp [scanHexDigits, this, value]
  | @cons v d vs ds h _ ih =>
    intro acc n
    rw [List.cons_append, scanHexDigits, digit16.1 h]
    simp only
    rw [ih, value_cons, List.length_cons, List.length_cons, pow_succ]
    refine Prod.ext ?_ (by simp only; omega)
    simp only
    ring

theorem hex_split : ∀ (s : List Nat), ∃ vs ds rest, s = ds ++ rest ∧ Digits 16 vs ds ∧ Ended 16 rest
  | [] => ⟨[], [], [], rfl, .nil, by intro b t e; simp at e⟩
  | b :: s => by
    cases hc : hexVal? b with
    | none =>
      refine ⟨[], [], b :: s, rfl, .nil, ?_⟩
      intro b' t e v hv
      obtain ⟨rfl, _⟩ := List.cons.inj e
      rw [digit16.1 hv] at hc
      simp at hc
    | some v =>
      obtain ⟨vs, ds, rest, h1, h2, h3⟩ := hex_split s
      exact ⟨v :: vs, b :: ds, rest, by rw [h1]; rfl, .cons (digit16.2 hc) h2, h3⟩

theorem scanPrefix_split (s : List Nat) : ∃ px, s = px ++ (scanPrefix s).2 ∧ (scanPrefix s).1 = px.length ∧
    (px = ascii "0x" ∨ px = ascii "0X" ∨ px = [] ∧ ¬ ascii "0x" <+: (scanPrefix s).2 ∧ ¬ ascii "0X" <+: (scanPrefix s).2) := by
  match s with
  | [] => exact ⟨[], rfl, rfl, Or.inr (Or.inr ⟨rfl, by simp [scanPrefix, ascii], by simp [scanPrefix, ascii]⟩)⟩
  | [a] => exact ⟨[], rfl, rfl, Or.inr (Or.inr ⟨rfl, by simp [scanPrefix, ascii], by simp [scanPrefix, ascii]⟩)⟩
  | a :: b :: t =>
    by_cases h : a = 48 ∧ (b = 120 ∨ b = 88)
    · obtain ⟨rfl, rfl | rfl⟩ := h
      · exact ⟨ascii "0x", by simp [ascii, scanPrefix], by simp [ascii, scanPrefix], Or.inl rfl⟩
      · exact ⟨ascii "0X", by simp [ascii, scanPrefix], by simp [ascii, scanPrefix], Or.inr (Or.inl rfl)⟩
    · have e : scanPrefix (a :: b :: t) = (0, a :: b :: t) := by rw [scanPrefix, if_neg h]
      rw [e]
      refine ⟨[], rfl, rfl, Or.inr (Or.inr ⟨rfl, ?_, ?_⟩)⟩ <;> simp [ascii] <;> omega

theorem scanPrefix_eq {s px r : List Nat} (h : s = px ++ r)
    (hp : px = ascii "0x" ∨ px = ascii "0X" ∨ px = [] ∧ ¬ ascii "0x" <+: r ∧ ¬ ascii "0X" <+: r) : scanPrefix s = (px.length, r) := by
  subst h
  rcases hp with rfl | rfl | ⟨rfl, h1, h2⟩
  · simp [ascii, scanPrefix]
  · simp [ascii, scanPrefix]
  · match r with
    | [] => rfl
    | [a] => rfl
    | a :: b :: t =>
      simp only [ascii] at h1 h2
      simp at h1 h2
      simp only [List.nil_append, scanPrefix, List.length_nil]
      rw [if_neg (by omega)]

theorem mod_eq {f : Int} {sg : List Nat} {n : Nat} (h : Sign sg f) :
    (((if decide (f = -1) = true then 2^32 - n % 2^32 else n) % 2^32 : Nat) : Int) = (f * n) % 2 ^ 32 := by
  rcases h with ⟨_, rfl⟩ | ⟨_, rfl⟩ | ⟨_, rfl⟩
  · simp
  · simp
  · simp only [decide_true, if_true]; omega

/-- What `%x%n` finds. -/
theorem scanHex_iff (s : List Nat) (v n : Nat) : scanHex s = some (v, n) ↔ Hexadecimal s v n := by
  constructor
  · intro h
    unfold scanHex at h
    obtain ⟨sg, f, h1, h2, h3, h4⟩ := scanSign_split (s.dropWhile isspace)
    generalize scanSign (s.dropWhile isspace) = X at h h1 h3 h4
    obtain ⟨neg, l, r⟩ := X
    simp only at h h1 h3 h4
    obtain ⟨px, p1, p2, p3⟩ := scanPrefix_split r
    generalize scanPrefix r = Y at h p1 p2 p3
    obtain ⟨lp, r'⟩ := Y
    simp only at h p1 p2 p3
    obtain ⟨vs, ds, rest, q1, q2, q3⟩ := hex_split r'
    rw [q1, scanHexDigits_of q2 q3] at h
    simp only [Nat.zero_mul, Nat.zero_add] at h
    split at h
    · simp at h
    · rename_i hne
      simp only [Option.some.injEq, Prod.mk.injEq] at h
      obtain ⟨hv, hn⟩ := h
      refine ⟨s.takeWhile isspace, sg, px, vs, ds, rest, f, ?_, ?_, spaces_iff.2 (takeWhile_all s), h2, ?_, ?_, q2, q3, ?_⟩
      · rw [List.append_assoc, ← q1, List.append_assoc, ← p1, List.append_assoc, ← h1, List.takeWhile_append_dropWhile]
      · rw [← hn, h4, p2]; simp only [List.length_append]
      · rw [q1] at p3; exact p3
      · intro hd; subst hd; simp at hne
      · rw [← hv, h3]; exact mod_eq h2
  · rintro ⟨ws, sg, px, vs, ds, rest, f, e, hn, hw, hs, hp, hne, hd, hend, hv⟩
    obtain ⟨d0, ds', hds⟩ : ∃ d0 ds', ds = d0 :: ds' := by cases ds with | nil => exact absurd rfl hne | cons d t => exact ⟨d, t, rfl⟩
    have hb : d0 ≠ 43 ∧ d0 ≠ 45 ∧ isspace d0 = false := by
      subst hds
      unfold Digits at hd
      cases hd with
      | cons h _ =>
        have := digit16.1 h
        refine ⟨?_, ?_, ?_⟩
        · rintro rfl; simp [hexVal?] at this
        · rintro rfl; simp [hexVal?] at this
        · rw [Bool.eq_false_iff]
          intro hc
          unfold hexVal? at this
          simp [isspace] at hc
          rw [if_neg (by omega), if_neg (by omega), if_neg (by omega)] at this
          simp at this
    -- the first byte after the white space and the sign
    have hfirst : ∀ b t, px ++ (ds ++ rest) = b :: t → b ≠ 43 ∧ b ≠ 45 ∧ isspace b = false := by
      intro b t e'
      rcases hp with rfl | rfl | ⟨rfl, _⟩
      · simp [ascii] at e'; rw [← e'.1]; decide
      · simp [ascii] at e'; rw [← e'.1]; decide
      · rw [hds] at e'; simp at e'; rw [← e'.1]; exact hb
    obtain ⟨e0, e1⟩ := take_split (p := isspace) (s := s) (u := ws) (v := sg ++ (px ++ (ds ++ rest))) (by rw [e]; simp) (spaces_iff.1 hw) (by
      intro b t e'
      rcases hs with ⟨rfl, _⟩ | ⟨rfl, _⟩ | ⟨rfl, _⟩
      · exact (hfirst b t e').2.2
      · simp [ascii] at e'; rw [← e'.1]; rfl
      · simp [ascii] at e'; rw [← e'.1]; rfl)
    have e2 := scanSign_eq (s := sg ++ (px ++ (ds ++ rest))) rfl hs (by
      intro _ b t e'
      have := hfirst b t e'
      exact ⟨this.2.1, this.1⟩)
    have e3 := scanPrefix_eq (s := px ++ (ds ++ rest)) rfl hp
    unfold scanHex
    rw [e0, e1, e2]
    simp only
    rw [e3]
    simp only
    rw [scanHexDigits_of hd hend]
    simp only [Nat.zero_mul, Nat.zero_add]
    rw [if_neg (by rw [hds]; simp)]
    congr 2
    · have := mod_eq (n := value 16 vs) hs
      rw [← hv] at this
      exact_mod_cast this
    · rw [hn]; simp only [List.length_append]

/-! ## Numbers printed -/

theorem digits_append {base : Nat} {vs ds vs' ds' : List Nat} (h : Digits base vs ds) (h' : Digits base vs' ds') :
    Digits base (vs ++ vs') (ds ++ ds') := by
  unfold Digits at *
  induction h with
  | nil => exact h'
  | cons h _ ih => exact .cons h ih

theorem decDigits_spec (n : Nat) : ∃ vs, Digits 10 vs (decDigits n) ∧ value 10 vs = n ∧ decDigits n ≠ [] ∧
    ((decDigits n).head? = some 48 → n = 0 ∧ decDigits n = [48]) := by
  induction n using Nat.strong_induction_on with
  | _ n ih =>
    rw [decDigits]
    split
    · rename_i h
      refine ⟨[n], .cons (digit10.2 ⟨h, rfl⟩) .nil, by simp [value], by simp, ?_⟩
      intro hh
      simp at hh
      subst hh
      simp
    · rename_i h
      obtain ⟨vs, h1, h2, h3, h4⟩ := ih (n / 10) (by omega)
      refine ⟨vs ++ [n % 10], digits_append h1 (.cons (digit10.2 ⟨by omega, rfl⟩) .nil), ?_, by simp, ?_⟩
      · unfold value at *
        rw [List.reverse_append, Nat.ofDigits_append]
        simp only [List.reverse_cons, List.reverse_nil, List.nil_append, Nat.ofDigits_singleton, List.length_cons, List.length_nil]
        rw [h2]; omega
      · intro hh
        exfalso
        obtain ⟨d, t, hd⟩ : ∃ d t, decDigits (n / 10) = d :: t := by
          cases hc : decDigits (n / 10) with
          | nil => exact absurd hc h3
          | cons d t => exact ⟨d, t, rfl⟩
        rw [hd] at hh
        simp at hh
        have := h4 (by rw [hd, hh]; rfl)
        omega

/-- What `%<w>ld` prints. -/
theorem fmtLong_spec (w : Nat) (v : Int) : Printed w v (fmtLong w v) := by
  obtain ⟨vs, h1, h2, h3, h4⟩ := decDigits_spec v.natAbs
  unfold fmtLong fmtInt
  split
  · rename_i hv
    refine ⟨w - (45 :: decDigits v.natAbs).length, ascii "-", vs, decDigits v.natAbs, ?_, h3, h1, ?_, ?_, ?_, ?_⟩
    · simp [ascii]
    · rw [if_pos hv]
    · rw [h2]
    · intro hh; have := h4 hh; omega
    · simp [ascii]
  · rename_i hv
    refine ⟨w - (decDigits v.natAbs).length, [], vs, decDigits v.natAbs, ?_, h3, h1, ?_, ?_, ?_, ?_⟩
    · simp
    · rw [if_neg hv]
    · rw [h2]
    · intro hh; exact (h4 hh).2
    · simp

/-- What is printed is read as the same number. -/
theorem Printed.decimal {w : Nat} {v : Int} {s rest : List Nat} (h : Printed w v s) (hr : Ended 10 rest) : Decimal (s ++ rest) v rest := by
  obtain ⟨k, sg, vs, ds, e, hne, hd, hs, hv, _, _⟩ := h
  refine ⟨List.replicate k 32, sg, vs, ds, if v < 0 then -1 else 1, by rw [e], ?_, ?_, hne, hd, hr, ?_⟩
  · intro b hb
    rw [(List.mem_replicate.1 hb).2]
    decide
  · rw [hs]
    split
    · exact Or.inr (Or.inr ⟨rfl, rfl⟩)
    · exact Or.inl ⟨rfl, rfl⟩
  · rw [hv]
    split <;> omega

end Ocr.Numerals
