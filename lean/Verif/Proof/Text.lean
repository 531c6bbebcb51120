import Verif.Spec.Text
import Verif.Proof.Utf8

namespace Ocr.Text

theorem markedFrom_nil (m b) : markedFrom m b [] = [] := by simp [markedFrom]

theorem markedFrom_cons (m b c cs) : markedFrom m b (c :: cs) =
    (if c = m then [] else [⟨b = some m, c⟩]) ++ markedFrom m (some c) cs := by
  simp only [markedFrom, List.map_cons, List.zip_cons_cons, List.filterMap_cons]
  split <;> rename_i h <;> split at h <;> simp_all

/-- Reading well-formed UTF-8. -/
theorem readLoop_utf8 (fm : Bool) (m : Nat) (cs : List Char) : ∀ (fuel : Nat) (buf : List Nat) (s : Bool)
    (b : Option Nat), (fm = true → (s = true ↔ b = some m)) → (fm = false → s = false) →
    (utf8 cs).length ≤ fuel →
    readLoop fm m fuel (utf8 cs) buf s =
      .ok (if fm then markedFrom m b (cs.map Char.toNat) else cs.map (fun c => ⟨false, c.toNat⟩)) := by
  induction cs with
  | nil =>
    intro fuel buf s b _ _ _
    cases fuel <;> simp [utf8, readLoop, markedFrom_nil]
  | cons c cs ih =>
    intro fuel buf s b hs hs' hf
    rw [utf8_cons] at hf ⊢
    have hsc := scalar_char c
    have hlt : c.toNat < 0x110000 := by unfold Scalar at hsc; omega
    obtain ⟨b0, bs, e, hb, hcl⟩ := utf8class_encode hlt
    have hit := iterate_encode hsc (buf.drop (utf8class b0))
    rw [e] at hit hf ⊢
    obtain ⟨fuel, rfl⟩ : ∃ f, fuel = f + 1 := ⟨fuel - 1, by simp at hf; omega⟩
    simp only [List.cons_append, readLoop, hcl, Nat.add_sub_cancel]
    have hf' : (utf8 cs).length ≤ fuel := by simp at hf; omega
    rw [hcl] at hit
    simp only [List.take_left, List.drop_left, ne_eq, not_true_eq_false, if_false]
    simp only [List.cons_append, List.length_cons] at hit
    rw [if_neg (by omega), hit]
    simp only [not_true_eq_false, if_false]
    cases fm with
    | false =>
      have hs0 := hs' rfl
      subst hs0
      simp [ih fuel _ false none (by simp) (by simp) hf']
    | true =>
      by_cases hm : c.toNat = m
      · simp only [hm, and_self, if_true]
        rw [ih fuel _ true (some m) (by simp) (by simp) hf']
        simp [markedFrom_cons, hm]
      · simp only [hm, and_false, if_false]
        rw [ih fuel _ false (some c.toNat) (by simp [hm]) (by simp) hf']
        simp only [if_true, Res.bind_ok, Res.pure_eq, List.map_cons, markedFrom_cons, hm, if_false,
          List.singleton_append]
        congr 3
        have := hs rfl
        by_cases hb : b = some m <;> cases s <;> simp_all

/-- If reading succeeds, the file is well-formed UTF-8; reading never runs out of fuel and has no undefined
behaviour. -/
theorem readLoop_cases (fm : Bool) (m : Nat) : ∀ (fuel : Nat) (file buf : List Nat) (s : Bool),
    Bytes file → Bytes buf → file.length ≤ fuel →
    (∃ cs r, file = utf8 cs ∧ readLoop fm m fuel file buf s = .ok r) ∨
    (∃ msg, readLoop fm m fuel file buf s = .err msg) := by
  intro fuel
  induction fuel with
  | zero =>
    intro file buf s _ _ hf
    have : file = [] := by simpa using hf
    subst this
    exact .inl ⟨[], [], by simp [utf8], by simp [readLoop]⟩
  | succ fuel ih =>
    intro file buf s hfile hbuf hf
    cases file with
    | nil => exact .inl ⟨[], [], by simp [utf8], by simp [readLoop]⟩
    | cons byte rest =>
      simp only [readLoop]
      by_cases h1 : utf8class byte < 1
      · rw [if_pos h1]; exact .inr ⟨_, rfl⟩
      · rw [if_neg h1]
        by_cases h2 : (rest.take (utf8class byte - 1)).length ≠ utf8class byte - 1
        · rw [if_pos h2]; exact .inr ⟨_, rfl⟩
        · rw [if_neg h2]
          have h2 : (rest.take (utf8class byte - 1)).length = utf8class byte - 1 := Classical.not_not.1 h2
          have hrest : Bytes rest := fun b hb => hfile b (by simp [hb])
          have hbuf' : Bytes (byte :: rest.take (utf8class byte - 1) ++ buf.drop (utf8class byte)) := by
            intro b hb
            simp only [List.cons_append, List.mem_cons, List.mem_append] at hb
            rcases hb with rfl | hb | hb
            · exact hfile _ (by simp)
            · exact hrest b (List.mem_of_mem_take hb)
            · exact hbuf b (List.mem_of_mem_drop hb)
          cases hit : iterate (byte :: rest.take (utf8class byte - 1) ++ buf.drop (utf8class byte)) with
          | none => exact .inr ⟨_, rfl⟩
          | some p =>
            obtain ⟨n, cp⟩ := p
            simp only
            by_cases h3 : n ≠ utf8class byte
            · rw [if_pos h3]; exact .inr ⟨_, rfl⟩
            · rw [if_neg h3]
              have h3 : n = utf8class byte := Classical.not_not.1 h3
              obtain ⟨hs, hn, htake⟩ := iterate_some hbuf' hit
              have hlen : (byte :: rest.take (utf8class byte - 1)).length = n := by
                simp [h2, h3]; omega
              rw [List.take_append_of_le_length (by omega), List.take_of_length_le (by omega)] at htake
              have hfileeq : byte :: rest = encode_char cp ++ rest.drop (utf8class byte - 1) := by
                rw [← htake]; simp
              have hdl : (rest.drop (utf8class byte - 1)).length ≤ fuel := by
                simp at hf ⊢; omega
              have hvalid : cp.isValidChar := by
                unfold Scalar at hs; simp [Nat.isValidChar]; omega
              have hch : (Char.ofNat cp).toNat = cp := by
                simp [Char.ofNat, hvalid, Char.ofNatAux, Char.toNat]
              have key : ∀ s', (∃ cs r, rest.drop (utf8class byte - 1) = utf8 cs ∧
                  readLoop fm m fuel (rest.drop (utf8class byte - 1))
                    (byte :: rest.take (utf8class byte - 1) ++ buf.drop (utf8class byte)) s' = .ok r) ∨
                  (∃ msg, readLoop fm m fuel (rest.drop (utf8class byte - 1))
                    (byte :: rest.take (utf8class byte - 1) ++ buf.drop (utf8class byte)) s' = .err msg) :=
                fun s' => ih _ _ s' (fun b hb => hrest b (List.mem_of_mem_drop hb)) hbuf' hdl
              by_cases h4 : fm = true ∧ cp = m
              · rw [if_pos h4]
                rcases key true with ⟨cs, r, e1, e2⟩ | ⟨msg, e2⟩
                · refine .inl ⟨Char.ofNat cp :: cs, r, ?_, e2⟩
                  rw [utf8_cons, hch, ← e1, hfileeq]
                · exact .inr ⟨msg, e2⟩
              · rw [if_neg h4]
                rcases key false with ⟨cs, r, e1, e2⟩ | ⟨msg, e2⟩
                · refine .inl ⟨Char.ofNat cp :: cs, _, ?_, by rw [e2]; rfl⟩
                  rw [utf8_cons, hch, ← e1, hfileeq]
                · exact .inr ⟨msg, by rw [e2]; rfl⟩

end Ocr.Text
