import Verif.Proof.AnyReport

namespace Ocr.AnyReport
open Text Report Res Ocr.Acc

theorem scalar_ofNat {v : Nat} (h : Scalar v) : ∃ c : Char, c.toNat = v := by
  have hv : v.isValidChar := by unfold Scalar at h; unfold Nat.isValidChar; omega
  exact ⟨Char.ofNatAux v hv, rfl⟩

theorem utf8_one (c : Char) : utf8 [c] = encode_char c.toNat := by rw [utf8_cons]; simp [utf8]

theorem encode_ne0 {v : Nat} (h : v ≠ 0) : 0 ∉ encode_char v := by
  intro h0
  unfold encode_char at h0
  repeat' split at h0
  all_goals simp at h0
  all_goals omega

theorem encode_head {v : Nat} (hv : v < 0x110000) : ∃ b bs, encode_char v = b :: bs ∧ (v < 0x80 → b = v) ∧ (0x80 ≤ v → 0x80 ≤ b) := by
  cases h : encode_char v with
  | nil => exact absurd h (encode_ne_nil hv)
  | cons b bs =>
    refine ⟨b, bs, rfl, fun hl => ?_, fun hl => encode_hi hl b (by rw [h]; simp)⟩
    unfold encode_char at h
    rw [if_pos hl] at h
    exact (List.cons.inj h).1.symm

/-- A character decoded from a C string lies before its end. -/
theorem iterate_cstr {x : List Nat} (hb : Bytes x) {n v : Nat} (h : iterate ((x ++ [0]).take 4) = some (n, v)) (hv : v ≠ 0) :
    Scalar v ∧ n = (encode_char v).length ∧ ∃ r, x = encode_char v ++ r := by
  have hb' : Bytes ((x ++ [0]).take 4) := by
    intro b hbm
    rcases List.mem_append.1 (List.mem_of_mem_take hbm) with hm | hm
    · exact hb b hm
    · simp at hm; omega
  obtain ⟨hs, hn, ht⟩ := iterate_some hb' h
  refine ⟨hs, hn, ?_⟩
  have hp : encode_char v <+: x ++ [0] := by
    rw [← ht]; exact (List.take_prefix _ _).trans (List.take_prefix _ _)
  rcases List.prefix_concat_iff.1 hp with he | ⟨r, hr⟩
  · exact absurd (by rw [he]; simp) (encode_ne0 hv)
  · exact ⟨r, hr.symm⟩

theorem scanHex_le {s : List Nat} {v n : Nat} (h : scanHex s = some (v, n)) : n ≤ s.length := by
  have hd : ∀ (s : List Nat) (a k : Nat), (scanHexDigits a k s).2 ≤ k + s.length := by
    intro s
    induction s with
    | nil => intro a k; simp [scanHexDigits]
    | cons b s ih =>
      intro a k
      rw [scanHexDigits]
      split
      · rename_i d _
        have := ih (16 * a + d) (k + 1); simp only [List.length_cons]; omega
      · simp only; omega
  have hpx : ∀ s : List Nat, (scanPrefix s).1 + (scanPrefix s).2.length = s.length := by
    intro s
    rcases s with _ | ⟨a, _ | ⟨b, t⟩⟩
    · rfl
    · rfl
    · rw [scanPrefix]; split <;> simp; omega
  have hsg : ∀ s : List Nat, (scanSign s).2.1 + (scanSign s).2.2.length = s.length := by
    intro s
    cases s with
    | nil => rfl
    | cons a t => rw [scanSign]; split <;> [simp; (split <;> simp)] <;> omega
  have e4 : (s.takeWhile isspace).length + (s.dropWhile isspace).length = s.length := by
    rw [← List.length_append, List.takeWhile_append_dropWhile]
  have e1 := hsg (s.dropWhile isspace)
  unfold scanHex at h
  simp only at h
  generalize scanSign (s.dropWhile isspace) = A at h e1
  have e2 := hpx A.2.2
  generalize scanPrefix A.2.2 = B at h e2
  have e3 := hd B.2 0 0
  generalize scanHexDigits 0 0 B.2 = C at h e3
  obtain ⟨neg, sg, s1⟩ := A
  obtain ⟨px, s2⟩ := B
  obtain ⟨d, k⟩ := C
  simp only at h e1 e2 e3
  split at h
  · simp at h
  · have h := (Prod.mk.inj (Option.some.inj h)).2
    omega

theorem scanHex_head {b : Nat} {s : List Nat} (h : b = 125 ∨ b = 92) : scanHex (b :: s) = none := by
  rcases h with rfl | rfl <;> cases s <;> rfl

theorem cstr_self' {t : List Nat} (h : 0 ∉ t) : cstr (t ++ [0]) = t := by
  unfold cstr
  rw [List.takeWhile_append_of_pos (by intro b hb; simp; rintro rfl; exact h hb)]
  simp

theorem rd_last {x : List Nat} {n : Nat} (h : n ≤ x.length) : ∃ b, rd (x ++ [0]) n = .ok b ∧ (b ≠ 0 → ∃ r, x.drop n = b :: r) := by
  by_cases hn : n < x.length
  · refine ⟨x[n], ?_, fun _ => ⟨x.drop (n + 1), (List.drop_eq_getElem_cons hn)⟩⟩
    unfold rd; rw [List.getElem?_append_left hn, List.getElem?_eq_getElem hn]
  · have : n = x.length := by omega
    subst this
    refine ⟨0, ?_, fun h => absurd rfl h⟩
    unfold rd; simp

theorem rd_drop {m : List Nat} {n b : Nat} {r : List Nat} (h : m.drop n = b :: r) : rd m n = .ok b := by
  have : m[n]? = some b := by
    have := congrArg List.head? h
    rw [List.head?_drop] at this
    simpa using this
  unfold rd; rw [this]

theorem read_char_names {s : List Nat} {v : Nat} (h : Names s v) (h0 : 0 ∉ s) : read_char (s ++ [0]) = .ok v := by
  cases h with
  | less rest => simp [read_char, rd, ascii]
  | newline rest => simp [read_char, rd, ascii, NEWLINE]
  | hex t rest v n hs hd =>
    have e1 : ascii "{<" = [123, 60] := by decide
    have e2 : ascii ">}" = [62, 125] := by decide
    rw [e1] at h0 ⊢
    rw [e2] at hd
    have ht0 : 0 ∉ t := fun hm => h0 (by simp [hm])
    cases t with
    | nil => simp [scanHex, scanSign, scanPrefix, scanHexDigits] at hs
    | cons d t =>
      have hd1 : d ≠ 125 ∧ d ≠ 92 := by
        constructor <;> intro e <;> rw [scanHex_head (by tauto)] at hs <;> simp at hs
      obtain ⟨m, hm⟩ : ∃ m, m = [123, 60] ++ (d :: t) ++ [0] := ⟨_, rfl⟩
      rw [← hm]
      have hln : n < (d :: t).length := by
        by_contra hc
        rw [List.drop_eq_nil_of_le (by omega)] at hd; simp at hd
      have hdm : m.drop (2 + n) = 62 :: 125 :: (rest ++ [0]) := by
        rw [hm, List.append_assoc, ← List.drop_drop, show List.drop 2 ([123, 60] ++ (d :: t ++ [0])) = d :: t ++ [0] from rfl,
          List.drop_append_of_le_length (by omega), hd]; simp
      have r0 : rd m 0 = .ok 123 := by rw [hm]; rfl
      have r1 : rd m 1 = .ok 60 := by rw [hm]; rfl
      have r2 : rd m 2 = .ok d := by rw [hm]; rfl
      have rp : rd m (2 + n) = .ok 62 := rd_drop hdm
      have rq : rd m (2 + n + 1) = .ok 125 := by
        refine rd_drop (r := rest ++ [0]) ?_
        rw [← List.drop_drop, hdm]; rfl
      have hdr : m.drop 2 = d :: t ++ [0] := by rw [hm]; rfl
      have hin : 0 ∈ m.drop 2 := by rw [hdr]; simp
      have hcs : cstr (m.drop 2) = d :: t := by rw [hdr]; exact cstr_self' ht0
      unfold read_char
      simp only [r0, r1, r2, rp, rq, bind_ok, pure_eq, ne_eq, not_true_eq_false, if_false, if_true, hd1.1, hd1.2, hin, hcs, hs,
        Bool.false_eq_true]
  | char c rest h1 h2 =>
    rw [utf8_one] at *
    have hs := scalar_char c
    have hlt : c.toNat < 0x110000 := by unfold Scalar at hs; omega
    obtain ⟨b, bs, hb, hb1, hb2⟩ := encode_head hlt
    have hc60 : c.toNat ≠ 60 := fun e => h1 (Char.ext (UInt32.toNat.inj e))
    have hb60 : b ≠ 60 := by
      by_cases hl : c.toNat < 0x80
      · rw [hb1 hl]; exact hc60
      · have := hb2 (by omega); omega
    obtain ⟨m, hm⟩ : ∃ m, m = ascii "{" ++ encode_char c.toNat ++ ascii "}" ++ rest ++ [0] := ⟨_, rfl⟩
    rw [← hm]
    have e1 : ascii "{" = [123] := by decide
    have e2 : ascii "}" = [125] := by decide
    rw [e1, e2] at hm
    have r0 : rd m 0 = .ok 123 := by rw [hm]; rfl
    have r1 : rd m 1 = .ok b := by rw [hm, hb]; rfl
    have hit : iterate ((m.drop 1).take 4) = some ((encode_char c.toNat).length, c.toNat) := by
      rw [hm]
      simp only [List.cons_append, List.nil_append, List.append_assoc, List.drop_succ_cons, List.drop_zero]
      exact iterate_take hs _
    have rp : rd m (1 + (encode_char c.toNat).length) = .ok 125 := by
      refine rd_drop (r := rest ++ [0]) ?_
      rw [hm]
      simp only [List.cons_append, List.nil_append, List.append_assoc]
      rw [Nat.add_comm, List.drop_succ_cons, List.drop_left]
    unfold read_char
    simp only [r0, r1, bind_ok, ne_eq, not_true_eq_false, if_false, hb60, hit, rp, ite_self, if_true, pure_eq]
  | mark c rest h1 =>
    have hs := scalar_char c
    have hlt : c.toNat < 0x110000 := by unfold Scalar at hs; omega
    obtain ⟨b, bs, hb, _, hb2⟩ := encode_head hlt
    have hb125 : b ≠ 125 := by have := hb2 (by omega); omega
    have hlen := encode_len_ge h1 hlt
    obtain ⟨m, hm⟩ : ∃ m, m = ascii "{" ++ utf8 ['◌', c] ++ ascii "}" ++ rest ++ [0] := ⟨_, rfl⟩
    rw [← hm]
    have e1 : ascii "{" = [123] := by decide
    have e2 : ascii "}" = [125] := by decide
    have e3 : utf8 ['◌', c] = encode_char DOTTED_CIRCLE ++ encode_char c.toNat := by
      rw [utf8_cons, utf8_one]; rfl
    rw [e1, e2, e3] at hm
    have e4 : encode_char DOTTED_CIRCLE = [226, 151, 140] := by decide
    have r0 : rd m 0 = .ok 123 := by rw [hm]; rfl
    have r1 : rd m 1 = .ok 226 := by rw [hm, e4]; rfl
    have r4 : rd m 4 = .ok b := by rw [hm, e4, hb]; rfl
    have hit : iterate ((m.drop 1).take 4) = some (3, DOTTED_CIRCLE) := by
      rw [hm]
      simp only [List.cons_append, List.nil_append, List.append_assoc, List.drop_succ_cons, List.drop_zero]
      rw [iterate_take (by unfold Scalar DOTTED_CIRCLE; omega), e4]; rfl
    have hit2 : iterate ((m.drop 4).take 4) = some ((encode_char c.toNat).length, c.toNat) := by
      rw [hm, e4]
      simp only [List.cons_append, List.nil_append, List.append_assoc, List.drop_succ_cons, List.drop_zero]
      exact iterate_take hs _
    have rp : rd m (4 + (encode_char c.toNat).length) = .ok 125 := by
      refine rd_drop (r := rest ++ [0]) ?_
      rw [hm, e4]
      simp only [List.cons_append, List.nil_append, List.append_assoc]
      rw [Nat.add_comm, List.drop_succ_cons, List.drop_succ_cons, List.drop_succ_cons, List.drop_succ_cons, List.drop_left]
    unfold read_char
    simp only [r0, r1, bind_ok, ne_eq, not_true_eq_false, if_false, hit, if_true, pure_eq, show (226 : Nat) ≠ 60 by decide,
      show 1 + 3 = 4 from rfl, r4, hb125, not_false_eq_true, hit2, rp, show ¬ (encode_char c.toNat).length < 2 by omega]

theorem res_assoc {α β γ : Type} (x : Res α) (f : α → Res β) (g : β → Res γ) : (x >>= f) >>= g = x >>= fun a => f a >>= g := by
  cases x <;> rfl

theorem read_char_total {s : List Nat} (h0 : 0 ∉ s) (hb : Bytes s) (h1 : s ≠ [123]) :
    ∃ v, read_char (s ++ [0]) = .ok v ∧ (Names s v ∨ v = INVALID_CHARVALUE) := by
  have e1 : ascii "{" = [123] := by decide
  have e2 : ascii "}" = [125] := by decide
  have e3 : ascii "{<" = [123, 60] := by decide
  have e4 : ascii ">}" = [62, 125] := by decide
  have e5 : ascii "{<}" = [123, 60, 125] := by decide
  have e6 : ascii "{<\\n>}" = [123, 60, 92, 110, 62, 125] := by decide
  rcases s with _ | ⟨c0, s⟩
  · exact ⟨INVALID_CHARVALUE, by simp [read_char, rd], Or.inr rfl⟩
  by_cases hc0 : c0 = 123
  swap
  · exact ⟨INVALID_CHARVALUE, by simp [read_char, rd, hc0], Or.inr rfl⟩
  subst hc0
  rcases s with _ | ⟨c1, s⟩
  · exact absurd rfl h1
  obtain ⟨m, hm⟩ : ∃ m, m = 123 :: c1 :: s ++ [0] := ⟨_, rfl⟩
  rw [← hm]
  have r0 : rd m 0 = .ok 123 := by rw [hm]; rfl
  have r1 : rd m 1 = .ok c1 := by rw [hm]; rfl
  have hs0 : 0 ∉ s := fun h => h0 (by simp [h])
  have hrd : ∀ {n}, n ≤ s.length → ∃ b, rd m (2 + n) = .ok b ∧ (b ≠ 0 → ∃ r, s.drop n = b :: r) := by
    intro n hn
    obtain ⟨b, hb1, hb2⟩ := rd_last hn
    refine ⟨b, ?_, hb2⟩
    rw [hm, ← hb1, Nat.add_comm]
    unfold rd; simp
  by_cases hc1 : c1 = 60
  · subst hc1
    obtain ⟨c2, r2, hc2⟩ := hrd (n := 0) (by omega)
    rw [Nat.add_zero] at r2
    by_cases h125 : c2 = 125
    · obtain ⟨r, hr⟩ := hc2 (by omega)
      simp only [List.drop_zero] at hr
      refine ⟨60, ?_, Or.inl ?_⟩
      · unfold read_char
        simp [r0, r1, r2, h125]
      · rw [hr, h125]
        have := Names.less r
        rw [e5] at this; exact this
    · have key : ∃ esc : Option (Nat × Nat),
          (do
            let nl ← (if c2 = 92 then do let c3 ← rd m 3; pure (decide (c3 = 110)) else pure false)
            (if nl then pure (some (NEWLINE, 4))
            else
              if 0 ∈ m.drop 2 then
                match scanHex (cstr (m.drop 2)) with
                | none => pure none
                | some (v, off) => pure (some (v, 2 + off))
              else .ub) : Res (Option (Nat × Nat))) = .ok esc ∧
          ∀ v p, esc = some (v, p) → ∃ n, p = 2 + n ∧ n ≤ s.length ∧
            ∀ r, s.drop n = 62 :: 125 :: r → Names (123 :: 60 :: s) v := by
        have hdr : m.drop 2 = s ++ [0] := by rw [hm]; rfl
        have hin : 0 ∈ m.drop 2 := by rw [hdr]; simp
        have hcs : cstr (m.drop 2) = s := by rw [hdr]; exact cstr_self' hs0
        have hex : ∃ esc : Option (Nat × Nat), ((if 0 ∈ m.drop 2 then
                match scanHex (cstr (m.drop 2)) with
                | none => pure none
                | some (v, off) => pure (some (v, 2 + off))
              else .ub) : Res (Option (Nat × Nat))) = .ok esc ∧
          ∀ v p, esc = some (v, p) → ∃ n, p = 2 + n ∧ n ≤ s.length ∧
            ∀ r, s.drop n = 62 :: 125 :: r → Names (123 :: 60 :: s) v := by
          rw [if_pos hin, hcs]
          cases hx : scanHex s with
          | none => exact ⟨none, rfl, by simp⟩
          | some x =>
            obtain ⟨v, off⟩ := x
            refine ⟨some (v, 2 + off), rfl, ?_⟩
            intro v' p' he
            obtain ⟨rfl, rfl⟩ := Prod.mk.inj (Option.some.inj he)
            refine ⟨off, rfl, scanHex_le hx, fun r hr => ?_⟩
            have := Names.hex s r v off hx (by rw [e4, hr]; rfl)
            rw [e3] at this; exact this
        by_cases h92 : c2 = 92
        · obtain ⟨r, hr⟩ := hc2 (by omega)
          simp only [List.drop_zero] at hr
          obtain ⟨c3, r3, hc3⟩ := hrd (n := 1) (by rw [hr]; simp)
          rw [if_pos h92, show (3 : Nat) = 2 + 1 from rfl, r3, bind_ok]
          by_cases h110 : c3 = 110
          · obtain ⟨r', hr'⟩ := hc3 (by omega)
            refine ⟨some (NEWLINE, 4), by simp [h110, pure_eq], ?_⟩
            intro v p he
            obtain ⟨rfl, rfl⟩ := Prod.mk.inj (Option.some.inj he)
            rw [hr] at hr'
            simp only [List.drop_succ_cons, List.drop_zero] at hr'
            refine ⟨2, rfl, by rw [hr, hr']; simp, fun x hx => ?_⟩
            rw [hr, hr'] at hx ⊢
            simp only [List.drop_succ_cons, List.drop_zero] at hx
            rw [hx, h92, h110]
            have := Names.newline x
            rw [e6] at this; exact this
          · simpa [h110, pure_eq] using hex
        · rw [if_neg h92]
          simpa [pure_eq] using hex
      obtain ⟨esc, k1, k2⟩ := key
      have step : read_char m = (match (generalizing := false) esc with
          | none => .ok INVALID_CHARVALUE
          | some (v, p) => do
            let c ← rd m p
            if c ≠ 62 then .ok INVALID_CHARVALUE
            else do
              let c ← rd m (p + 1)
              if c = 125 then .ok v else .ok INVALID_CHARVALUE) := by
        unfold read_char
        simp only [r0, r1, r2, bind_ok, ne_eq, not_true_eq_false, if_false, if_true, h125, res_assoc]
        rw [← res_assoc]
        refine (congrArg (fun z => z >>= _) k1).trans ?_
        rw [bind_ok]
        cases esc with
        | none => rfl
        | some x =>
          obtain ⟨v, p⟩ := x
          simp only [res_assoc]
          obtain ⟨n, rfl, hn, _⟩ := k2 v p rfl
          obtain ⟨c, rc, _⟩ := hrd hn
          rw [rc, bind_ok, bind_ok]
          by_cases h62 : c = 62
          · rw [if_neg (by simpa using h62), if_neg (by simpa using h62), bind_ok]
          · rw [if_pos (by simpa using h62), if_pos (by simpa using h62), bind_ok]
      rw [step]
      cases esc with
      | none => exact ⟨_, rfl, Or.inr rfl⟩
      | some x =>
        obtain ⟨v, p⟩ := x
        obtain ⟨n, rfl, hn, hN⟩ := k2 v p rfl
        obtain ⟨c, rc, hc⟩ := hrd hn
        simp only [rc, bind_ok]
        by_cases h62 : c = 62
        · obtain ⟨r, hr⟩ := hc (by omega)
          have hn' : n + 1 ≤ s.length := by
            by_contra hcon
            rw [List.drop_eq_nil_of_le (by omega)] at hr; simp at hr
          obtain ⟨d, rdd, hd⟩ := hrd hn'
          rw [if_neg (by simpa using h62), show 2 + n + 1 = 2 + (n + 1) from by omega, rdd, bind_ok]
          by_cases h125' : d = 125
          · obtain ⟨r', hr'⟩ := hd (by omega)
            rw [if_pos h125']
            refine ⟨v, rfl, Or.inl (hN r' ?_)⟩
            rw [← List.drop_drop, hr] at hr'
            simp only [List.drop_succ_cons, List.drop_zero] at hr'
            rw [hr, hr', h62, h125']
          · rw [if_neg h125']; exact ⟨_, rfl, Or.inr rfl⟩
        · rw [if_pos (by simpa using h62)]; exact ⟨_, rfl, Or.inr rfl⟩
  · have hd1 : m.drop 1 = (c1 :: s) ++ [0] := by rw [hm]; rfl
    have hc0 : c1 ≠ 0 := fun h => h0 (by simp [h])
    have hb1 : Bytes (c1 :: s) := fun b hbm => hb b (by simp at hbm ⊢; tauto)
    cases hit : iterate ((m.drop 1).take 4) with
    | none => exact ⟨INVALID_CHARVALUE, by unfold read_char; simp only [r0, r1, bind_ok, hc1, hit, ne_eq, not_true_eq_false, if_false], Or.inr rfl⟩
    | some x =>
      obtain ⟨n, v⟩ := x
      have hv0 : v ≠ 0 := by
        rintro rfl
        rw [hd1] at hit
        have hb' : Bytes (((c1 :: s) ++ [0]).take 4) := by
          intro b hbm
          rcases List.mem_append.1 (List.mem_of_mem_take hbm) with hm' | hm'
          · exact hb1 b hm'
          · simp at hm'; omega
        obtain ⟨_, hn, ht⟩ := iterate_some hb' hit
        have : encode_char 0 = [0] := by decide
        rw [this] at hn ht
        subst hn
        simp at ht
        exact hc0 ht
      have hit' := hit
      rw [hd1] at hit'
      obtain ⟨hsc, hn, r, hr⟩ := iterate_cstr hb1 hit' hv0
      obtain ⟨c, hcv⟩ := scalar_ofNat hsc
      have hmr : m = 123 :: encode_char v ++ (r ++ [0]) := by rw [hm, hr]; simp
      have hr0 : 0 ∉ r := fun h => h0 (by rw [hr]; simp [h])
      have hbr : Bytes r := fun b hbm => hb1 b (by rw [hr]; simp [hbm])
      have hrd2 : ∀ {k}, k ≤ r.length → ∃ b, rd m (1 + n + k) = .ok b ∧ (b ≠ 0 → ∃ r', r.drop k = b :: r') := by
        intro k hk
        obtain ⟨b, hb1, hb2⟩ := rd_last hk
        refine ⟨b, ?_, hb2⟩
        rw [hmr, ← hb1, hn]
        unfold rd
        rw [show 123 :: encode_char v ++ (r ++ [0]) = (123 :: encode_char v) ++ (r ++ [0]) from rfl,
          List.getElem?_append_right (by simp; omega)]
        congr 2
        simp; omega
      obtain ⟨b, hb1', hb2'⟩ := hrd2 (k := 0) (by omega)
      rw [Nat.add_zero] at hb1'
      have hchar : ∀ r', r = 125 :: r' → Names (123 :: c1 :: s) v := by
        intro r' hr'
        have hcl : c ≠ '<' := by
          rintro rfl
          have : v = 60 := hcv.symm
          rw [this] at hr
          have e60 : encode_char 60 = [60] := by decide
          rw [e60] at hr
          exact hc1 (List.cons.inj hr).1
        have hcz : c ≠ '\x00' := by rintro rfl; exact hv0 hcv.symm
        have := Names.char c r' hcl hcz
        rw [utf8_one, hcv, e1, e2] at this
        rw [hr, hr']
        simpa using this
      by_cases hdot : v = DOTTED_CIRCLE
      · by_cases h125 : b = 125
        · obtain ⟨r', hr'⟩ := hb2' (by omega)
          refine ⟨v, ?_, Or.inl (hchar r' (by simpa [h125] using hr'))⟩
          unfold read_char
          simp only [r0, r1, bind_ok, hc1, hit, ne_eq, not_true_eq_false, if_false, hb1', h125, if_true, ite_self]
        · have hdr : m.drop (1 + n) = r ++ [0] := by
            rw [hmr, Nat.add_comm, hn]; simp
          cases hit2 : iterate ((m.drop (1 + n)).take 4) with
          | none =>
            refine ⟨INVALID_CHARVALUE, ?_, Or.inr rfl⟩
            unfold read_char
            simp only [r0, r1, bind_ok, hc1, hit, ne_eq, not_true_eq_false, if_false, hb1', h125, not_false_eq_true, if_true, hdot, hit2]
          | some y =>
            obtain ⟨n2, v2⟩ := y
            by_cases h2 : n2 < 2
            · refine ⟨INVALID_CHARVALUE, ?_, Or.inr rfl⟩
              unfold read_char
              simp only [r0, r1, bind_ok, hc1, hit, ne_eq, not_true_eq_false, if_false, hb1', h125, not_false_eq_true, if_true, hdot, hit2, h2]
            · have hit2' := hit2
              rw [hdr] at hit2'
              have hv2 : v2 ≠ 0 := by
                rintro rfl
                have hb' : Bytes ((r ++ [0]).take 4) := by
                  intro b hbm
                  rcases List.mem_append.1 (List.mem_of_mem_take hbm) with hm' | hm'
                  · exact hbr b hm'
                  · simp at hm'; omega
                obtain ⟨_, hn2, _⟩ := iterate_some hb' hit2'
                have : (encode_char 0).length = 1 := by decide
                omega
              obtain ⟨hsc2, hn2, q, hq⟩ := iterate_cstr hbr hit2' hv2
              obtain ⟨c', hcv'⟩ := scalar_ofNat hsc2
              obtain ⟨b3, hb3, hb3'⟩ := hrd2 (k := n2) (by rw [hq, hn2]; simp)
              have h80 : 128 ≤ v2 := by
                by_contra hlt
                have : (encode_char v2).length = 1 := by unfold encode_char; rw [if_pos (by omega)]; rfl
                omega
              by_cases h3 : b3 = 125
              · obtain ⟨q', hq'⟩ := hb3' (by omega)
                refine ⟨v2, ?_, Or.inl ?_⟩
                · unfold read_char
                  simp only [r0, r1, bind_ok, hc1, hit, ne_eq, not_true_eq_false, if_false, hb1', h125, not_false_eq_true, if_true, hdot, hit2, h2, hb3, h3]
                · have := Names.mark c' q' (by rw [hcv']; exact h80)
                  have e7 : utf8 ['◌', c'] = encode_char DOTTED_CIRCLE ++ encode_char c'.toNat := by
                    rw [utf8_cons, utf8_one]; rfl
                  rw [e7, hcv', e1, e2] at this
                  rw [hq, hn2, List.drop_left, h3] at hq'
                  rw [hr, hq, hq', hdot]
                  simpa using this
              · refine ⟨INVALID_CHARVALUE, ?_, Or.inr rfl⟩
                unfold read_char
                simp only [r0, r1, bind_ok, hc1, hit, ne_eq, not_true_eq_false, if_false, hb1', h125, not_false_eq_true, if_true, hdot, hit2, h2, hb3, h3]
      · by_cases h125 : b = 125
        · obtain ⟨r', hr'⟩ := hb2' (by omega)
          refine ⟨v, ?_, Or.inl (hchar r' (by simpa [h125] using hr'))⟩
          unfold read_char
          simp only [r0, r1, bind_ok, hc1, hit, ne_eq, not_true_eq_false, if_false, hb1', h125, if_true, hdot]
        · refine ⟨INVALID_CHARVALUE, ?_, Or.inr rfl⟩
          unfold read_char
          simp only [r0, r1, bind_ok, hc1, hit, ne_eq, not_true_eq_false, if_false, hb1', h125, hdot]

theorem read_char_bare : read_char ([123] ++ [0]) = .ub := by decide +kernel

end Ocr.AnyReport
