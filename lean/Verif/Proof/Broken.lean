import Verif.Spec.Process
import Verif.Proof.Text
import Verif.Proof.AnyText

namespace Ocr.Process
open Text Res Spec AnyText

theorem announces_class {b n : Nat} (h : Announces b n) : utf8class b = n := by
  unfold utf8class
  cases h <;> (repeat' split) <;> omega

theorem class_announces {b : Nat} (h : ¬ utf8class b < 1) : Announces b (utf8class b) := by
  unfold utf8class at h ⊢
  by_cases h1 : b < 0x80
  · simp only [if_pos h1]; exact .one h1
  · by_cases h2 : b < 0xC0
    · simp [h1, h2] at h
    · by_cases h3 : b < 0xE0
      · simp only [if_neg h1, if_neg h2, if_pos h3]; exact .two (by omega) h3
      · by_cases h4 : b < 0xF0
        · simp only [if_neg h1, if_neg h2, if_neg h3, if_pos h4]; exact .three (by omega) h4
        · by_cases h5 : b < 0xF8
          · simp only [if_neg h1, if_neg h2, if_neg h3, if_neg h4, if_pos h5]; exact .four (by omega) h5
          · simp [h1, h2, h3, h4, h5] at h

theorem Broken.cons {body : List Nat} {m : String} (c : Char) (h : Broken body m) : Broken (encode_char c.toNat ++ body) m := by
  cases h with
  | lead cs b r e h => exact .lead (c :: cs) b r (by rw [utf8_cons, e]; simp) h
  | short cs b r n e h h' => exact .short (c :: cs) b r n (by rw [utf8_cons, e]; simp) h h'
  | other cs b r n e h h' h'' => exact .other (c :: cs) b r n (by rw [utf8_cons, e]; simp) h h' h''

theorem char_of {cp : Nat} (hs : Scalar cp) : (Char.ofNat cp).toNat = cp := by
  have hvalid : cp.isValidChar := by
    unfold Scalar at hs; simp [Nat.isValidChar]; omega
  simp [Char.ofNat, hvalid, Char.ofNatAux, Char.toNat]

/-- The message says where the bytes stop being UTF-8. -/
theorem readLoop_broken (fm : Bool) (m : Nat) : ∀ (n : Nat) (file buf : List Nat) (s : Bool) (msg : String),
    Bytes file → Bytes buf → readLoop fm m n file buf s = .err msg → Broken file msg := by
  intro n
  induction n with
  | zero =>
    intro file buf s msg _ _ h
    cases file <;> simp [readLoop] at h
  | succ k ih =>
    intro file buf s msg hfile hbuf h
    cases file with
    | nil => simp [readLoop] at h
    | cons byte rest =>
      simp only [readLoop] at h
      by_cases h1 : utf8class byte < 1
      · rw [if_pos h1] at h
        cases h
        exact .lead [] byte rest rfl (fun n hn => by have := announces_class hn; cases hn <;> omega)
      · rw [if_neg h1] at h
        by_cases h2 : (rest.take (utf8class byte - 1)).length ≠ utf8class byte - 1
        · rw [if_pos h2] at h
          cases h
          refine .short [] byte rest _ rfl (class_announces h1) ?_
          rw [List.length_take] at h2
          omega
        · rw [if_neg h2] at h
          have h2 : (rest.take (utf8class byte - 1)).length = utf8class byte - 1 := Classical.not_not.1 h2
          have hle : utf8class byte - 1 ≤ rest.length := by rw [List.length_take] at h2; omega
          have hrest : Bytes rest := fun b hb => hfile b (by simp [hb])
          have hbuf' : Bytes (byte :: rest.take (utf8class byte - 1) ++ buf.drop (utf8class byte)) := by
            intro b hb
            simp only [List.cons_append, List.mem_cons, List.mem_append] at hb
            rcases hb with rfl | hb | hb
            · exact hfile _ (by simp)
            · exact hrest b (List.mem_of_mem_take hb)
            · exact hbuf b (List.mem_of_mem_drop hb)
          have stop : (¬ ∃ cp, iterate (byte :: rest.take (utf8class byte - 1) ++ buf.drop (utf8class byte)) = some (utf8class byte, cp)) →
              Broken (byte :: rest) "utf8proc_errmsg" := by
            intro hno
            refine .other [] byte rest _ rfl (class_announces h1) hle ?_
            rintro c ⟨t, ht⟩
            have hsc := scalar_char c
            have hlt : c.toNat < 0x110000 := by unfold Scalar at hsc; omega
            obtain ⟨b0, bs, e, hb, hcl⟩ := utf8class_encode hlt
            have hu : utf8 [c] = encode_char c.toNat := by rw [utf8_cons]; simp [utf8]
            rw [hu, e, List.cons_append] at ht
            obtain ⟨rfl, rfl⟩ := List.cons.inj ht
            refine hno ⟨c.toNat, ?_⟩
            have := iterate_encode hsc (buf.drop (utf8class b0))
            rw [e] at this
            rw [hcl] at this ⊢
            simpa using this
          cases hit : iterate (byte :: rest.take (utf8class byte - 1) ++ buf.drop (utf8class byte)) with
          | none =>
            rw [hit] at h
            cases h
            exact stop (by rw [hit]; simp)
          | some p =>
            obtain ⟨j, cp⟩ := p
            rw [hit] at h
            simp only at h
            by_cases h3 : j ≠ utf8class byte
            · rw [if_pos h3] at h
              cases h
              refine stop ?_
              rintro ⟨cp', e⟩
              rw [hit] at e
              cases e
              exact h3 rfl
            · rw [if_neg h3] at h
              have h3 : j = utf8class byte := Classical.not_not.1 h3
              obtain ⟨hs, hn, htake⟩ := iterate_some hbuf' hit
              have hlen : (byte :: rest.take (utf8class byte - 1)).length = j := by
                simp [h2, h3]; omega
              rw [List.take_append_of_le_length (by omega), List.take_of_length_le (by omega)] at htake
              have hfileeq : byte :: rest = encode_char cp ++ rest.drop (utf8class byte - 1) := by
                rw [← htake]; simp
              have key : ∀ s', readLoop fm m k (rest.drop (utf8class byte - 1))
                    (byte :: rest.take (utf8class byte - 1) ++ buf.drop (utf8class byte)) s' = .err msg → Broken (byte :: rest) msg := by
                intro s' e
                rw [hfileeq, ← char_of hs]
                exact (ih _ _ s' msg (fun b hb => hrest b (List.mem_of_mem_drop hb)) hbuf' e).cons _
              by_cases h4 : fm = true ∧ cp = m
              · rw [if_pos h4] at h
                exact key _ h
              · rw [if_neg h4] at h
                cases e : readLoop fm m k (rest.drop (utf8class byte - 1))
                    (byte :: rest.take (utf8class byte - 1) ++ buf.drop (utf8class byte)) false with
                | ok r => rw [e] at h; cases h
                | err msg' => rw [e, bind_err] at h; cases h; exact key _ e
                | ub => rw [e] at h; cases h
                | fuel => rw [e] at h; cases h

theorem utf8_one (c : Char) : utf8 [c] = encode_char c.toNat := by rw [utf8_cons]; simp [utf8]

/-- Where no character begins. -/
theorem Broken.stop {body : List Nat} {m : String} (h : Broken body m) : ∃ cs b r, body = utf8 cs ++ b :: r ∧
    (∀ c : Char, ¬ utf8 [c] <+: b :: r) ∧
    ((m = "invalid UTF-8 character" ∧ utf8class b < 1) ∨ (m = "unexpected end of input" ∧ 1 ≤ utf8class b ∧ r.length < utf8class b - 1) ∨
      (m = "utf8proc_errmsg" ∧ 1 ≤ utf8class b ∧ utf8class b - 1 ≤ r.length)) := by
  have first : ∀ {b : Nat} {r : List Nat} {c : Char}, utf8 [c] <+: b :: r → 1 ≤ utf8class b ∧ utf8class b - 1 ≤ r.length := by
    rintro b r c ⟨t, ht⟩
    have hsc := scalar_char c
    have hlt : c.toNat < 0x110000 := by unfold Scalar at hsc; omega
    obtain ⟨b0, bs, e, hb, hcl⟩ := utf8class_encode hlt
    rw [utf8_one, e, List.cons_append] at ht
    obtain ⟨rfl, rfl⟩ := List.cons.inj ht
    rw [hcl]
    simp
  cases h with
  | lead cs b r e h =>
    have h1 : utf8class b < 1 := by
      by_contra hn
      exact h _ (class_announces hn)
    exact ⟨cs, b, r, e, fun c hc => by have := first hc; omega, .inl ⟨rfl, h1⟩⟩
  | short cs b r n e h h' =>
    have h1 := announces_class h
    have h2 : 1 ≤ n := by cases h <;> omega
    exact ⟨cs, b, r, e, fun c hc => by have := first hc; omega, .inr (.inl ⟨rfl, by omega, by omega⟩)⟩
  | other cs b r n e h h' h'' =>
    have h1 := announces_class h
    have h2 : 1 ≤ n := by cases h <;> omega
    exact ⟨cs, b, r, e, h'', .inr (.inr ⟨rfl, by omega, by omega⟩)⟩

/-- The part that is UTF-8 is determined. -/
theorem utf8_stop : ∀ (cs cs' : List Char) (x y : List Nat), utf8 cs ++ x = utf8 cs' ++ y → (∀ c : Char, ¬ utf8 [c] <+: x) →
    (∀ c : Char, ¬ utf8 [c] <+: y) → x = y
  | [], [], x, y, h, _, _ => by simpa [utf8] using h
  | [], c :: cs', x, y, h, hx, _ => by
    refine absurd ⟨utf8 cs' ++ y, ?_⟩ (hx c)
    rw [utf8_one, ← List.append_assoc, ← utf8_cons, ← h]
    simp [utf8]
  | c :: cs, [], x, y, h, _, hy => by
    refine absurd ⟨utf8 cs ++ x, ?_⟩ (hy c)
    rw [utf8_one, ← List.append_assoc, ← utf8_cons, h]
    simp [utf8]
  | c :: cs, c' :: cs', x, y, h, hx, hy => by
    rw [utf8_cons, utf8_cons, List.append_assoc, List.append_assoc] at h
    have h1 := iterate_encode (scalar_char c) (utf8 cs ++ x)
    have h2 := iterate_encode (scalar_char c') (utf8 cs' ++ y)
    rw [h, h2] at h1
    simp only [Option.some.injEq, Prod.mk.injEq] at h1
    rw [h1.2] at h
    exact utf8_stop cs cs' x y (List.append_cancel_left h) hx hy

theorem no_prefix_nil (c : Char) : ¬ utf8 [c] <+: [] := by
  intro h
  have := List.prefix_nil.1 h
  have hsc := scalar_char c
  have hlt : c.toNat < 0x110000 := by unfold Scalar at hsc; omega
  obtain ⟨b0, bs, e, hb, hcl⟩ := utf8class_encode hlt
  rw [utf8_one, e] at this
  cases this

theorem Broken.unique {body : List Nat} {m m' : String} (h : Broken body m) (h' : Broken body m') : m = m' := by
  obtain ⟨cs, b, r, e, hn, hm⟩ := h.stop
  obtain ⟨cs', b', r', e', hn', hm'⟩ := h'.stop
  rw [e] at e'
  obtain ⟨rfl, rfl⟩ := List.cons.inj (utf8_stop _ _ _ _ e' hn hn')
  rcases hm with ⟨rfl, _⟩ | ⟨rfl, _⟩ | ⟨rfl, _⟩ <;> rcases hm' with ⟨rfl, _⟩ | ⟨rfl, _⟩ | ⟨rfl, _⟩ <;> first | rfl | omega

theorem Broken.not_utf8 {body : List Nat} {m : String} (h : Broken body m) : ¬ ∃ cs, body = utf8 cs := by
  rintro ⟨cs, e⟩
  obtain ⟨cs', b, r, e', hn, _⟩ := h.stop
  have := utf8_stop cs cs' [] (b :: r) (by rw [List.append_nil, ← e, e']) no_prefix_nil hn
  cases this

/-- The message for any file that is not text. -/
theorem read_broken (U : Unicode) (junk : List Nat) (fold b : Bool) (file : List Nat) (hf : Bytes file) (hj : Bytes junk) (m : String) :
    read_text U junk [] file { pageText fold with found_header := b } = .err m ↔ Broken (bodyOf file) m := by
  have fwd : ∀ m, read_text U junk [] file { pageText fold with found_header := b } = .err m → Broken (bodyOf file) m := by
    intro m h
    unfold read_text pageText at h
    rw [if_pos rfl, read_header_any] at h
    simp only [bind_ok, pure_eq] at h
    cases e : read_contents (bodyOf file) true (if (0 : Nat) ≠ 0 then 0 else SUSPECT_MARKER) junk with
    | err m' =>
      rw [e, bind_err] at h
      cases h
      exact readLoop_broken _ _ _ _ _ _ _ (Bytes_suffix (bodyOf_suffix file) hf) hj e
    | ok r => rw [e] at h; cases h
    | ub => rw [e] at h; cases h
    | fuel => rw [e] at h; cases h
  refine ⟨fwd m, fun h => ?_⟩
  obtain ⟨m', e⟩ := read_refused U junk fold b file hf hj h.not_utf8
  rw [h.unique (fwd m' e), e]

end Ocr.Process
