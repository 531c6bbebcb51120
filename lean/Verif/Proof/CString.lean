import Verif.Model.CString
import Verif.Proof.AnyChar

namespace Ocr.Text
open Res

/-- Four bytes in memory. -/
theorem iterateMem_four (a b c d : Nat) (r : List Nat) :
    iterateMem (a :: b :: c :: d :: r) = .ok (iterate [a, b, c, d]) := by
  simp only [iterateMem, iterate, rd, List.getElem?_cons_zero, bind_ok, pure_eq, List.getElem?_cons_succ]
  by_cases h1 : a < 0x80
  · simp only [h1, if_true]
  · by_cases h2 : a < 0xC2 ∨ a > 0xF4
    · simp only [h1, h2, if_true, if_false]
    · by_cases h3 : utfCont b = true
      · by_cases h4 : a < 0xE0
        · simp only [h1, h2, h3, h4, if_true, if_false, not_true_eq_false]
        · by_cases h5 : utfCont c = true
          · by_cases h6 : a < 0xF0
            · simp only [h1, h2, h3, h4, h5, h6, if_true, if_false, not_true_eq_false, and_self]
              split
              · rfl
              · split <;> rfl
            · by_cases h7 : utfCont d = true
              · simp only [h1, h2, h3, h4, h5, h6, h7, if_true, if_false, not_true_eq_false, and_self]
                split
                · rfl
                · split <;> rfl
              · simp only [h1, h2, h3, h4, h5, h6, h7, if_true, if_false, not_true_eq_false, and_false, not_false_eq_true,
                  Bool.false_eq_true]
          · by_cases h6 : a < 0xF0
            · simp only [h1, h2, h3, h4, h5, h6, if_true, if_false, not_true_eq_false, and_false, not_false_eq_true,
                Bool.false_eq_true]
            · simp only [h1, h2, h3, h4, h5, h6, if_true, if_false, not_true_eq_false, and_false, false_and, not_false_eq_true,
                Bool.false_eq_true]
      · by_cases h4 : a < 0xE0
        · simp only [h1, h2, h3, h4, if_true, if_false, not_false_eq_true, Bool.false_eq_true]
        · by_cases h6 : a < 0xF0
          · simp only [h1, h2, h3, h4, h6, if_true, if_false, false_and, not_false_eq_true, Bool.false_eq_true]
          · simp only [h1, h2, h3, h4, h6, if_true, if_false, false_and, not_false_eq_true, Bool.false_eq_true]

/-- The bytes after a NUL are not looked at. -/
theorem iterateMem_one (a : Nat) (x y : List Nat) : iterateMem (a :: 0 :: x) = iterateMem (a :: 0 :: y) := by
  have z : utfCont 0 = false := by decide
  simp only [iterateMem, rd, List.getElem?_cons_zero, bind_ok, List.getElem?_cons_succ, z, Bool.false_eq_true,
    not_false_eq_true, if_true]

theorem iterateMem_two (a b : Nat) (x y : List Nat) : iterateMem (a :: b :: 0 :: x) = iterateMem (a :: b :: 0 :: y) := by
  have z : utfCont 0 = false := by decide
  simp only [iterateMem, rd, List.getElem?_cons_zero, bind_ok, List.getElem?_cons_succ, z, Bool.false_eq_true,
    not_false_eq_true, if_true]

theorem iterate_one (a : Nat) (x : List Nat) : iterate (a :: 0 :: x) = iterate [a, 0] := by
  have z : utfCont 0 = false := by decide
  unfold iterate
  simp only [z, Bool.false_eq_true, if_false]
  rcases x with _ | ⟨b, _ | ⟨c, x⟩⟩ <;> rfl

theorem iterate_two (a b : Nat) (x : List Nat) : iterate (a :: b :: 0 :: x) = iterate [a, b, 0] := by
  have z : utfCont 0 = false := by decide
  unfold iterate
  simp only [z, Bool.false_eq_true, and_false, if_false]
  rcases x with _ | ⟨c, x⟩
  · rfl
  · simp only [z, Bool.false_eq_true, false_and, and_false, if_false]

theorem iterateMem_eq (s after : List Nat) (hs : s ≠ []) :
    iterateMem (s ++ 0 :: after) = .ok (iterate ((s ++ [0]).take 4)) := by
  rcases s with _ | ⟨a, _ | ⟨b, _ | ⟨c, _ | ⟨d, s⟩⟩⟩⟩
  · exact absurd rfl hs
  · show iterateMem (a :: 0 :: after) = .ok (iterate [a, 0])
    rw [iterateMem_one a after [0, 0], iterateMem_four, iterate_one]
  · show iterateMem (a :: b :: 0 :: after) = .ok (iterate [a, b, 0])
    rw [iterateMem_two a b after [0], iterateMem_four, iterate_two]
  · exact iterateMem_four a b c 0 after
  · exact iterateMem_four a b c d (s ++ 0 :: after)

/-- The characters at the start of a string, and what follows them. -/
theorem cstringLoop_spec : ∀ (n : Nat) (fuel : Nat) (s after : List Nat) (text : List Ch), s.length ≤ n → s.length ≤ fuel →
    0 ∉ s → Bytes s → ∃ cs rest, s = utf8 cs ++ rest ∧
      cstringLoop fuel (s ++ 0 :: after) text = .ok (text ++ cs.map (fun c => ⟨false, c.toNat⟩), decide (rest = [])) ∧
      ∀ c, ¬ utf8 [c] <+: rest := by
  intro n
  induction n with
  | zero =>
    intro fuel s after text hn hf h0 hb
    have : s = [] := List.length_eq_zero_iff.1 (by omega)
    subst this
    refine ⟨[], [], rfl, ?_, ?_⟩
    · unfold cstringLoop; simp [rd]
    · intro c hc
      have := List.prefix_nil.1 hc
      rw [utf8_cons] at this
      simp only [List.append_eq_nil_iff] at this
      exact encode_ne_nil (by have := scalar_char c; unfold Scalar at this; omega) this.1
  | succ n ih =>
    intro fuel s after text hn hf h0 hb
    by_cases hs : s = []
    · exact ih fuel s after text (by simp [hs]) (by simp [hs]) h0 hb
    · have hne : ∃ b, (s ++ 0 :: after)[0]? = some b ∧ b ≠ 0 := by
        rcases s with _ | ⟨b, s⟩
        · exact absurd rfl hs
        · exact ⟨b, rfl, fun e => h0 (by simp [e])⟩
      obtain ⟨b, hb0, hbne⟩ := hne
      have hit := iterateMem_eq s after hs
      cases hi : iterate ((s ++ [0]).take 4) with
      | none =>
        refine ⟨[], s, rfl, ?_, ?_⟩
        · unfold cstringLoop
          simp only [rd, hb0, bind_ok, hbne, if_false, hit, hi, pure_eq]
          simp [hs]
        · rintro c ⟨r, hr⟩
          rw [utf8_cons] at hr
          have : utf8 [] = [] := rfl
          rw [this, List.append_nil] at hr
          have h := iterate_take (scalar_char c) (r ++ [0])
          rw [← List.append_assoc, hr, hi] at h
          cases h
      | some x =>
        obtain ⟨k, v⟩ := x
        have hv : v ≠ 0 := by
          rintro rfl
          have hb' : Bytes ((s ++ [0]).take 4) := by
            intro b hbm
            rcases List.mem_append.1 (List.mem_of_mem_take hbm) with hm | hm
            · exact hb b hm
            · simp at hm; omega
          obtain ⟨_, e1, e2⟩ := iterate_some hb' hi
          rcases s with _ | ⟨b, s⟩
          · exact absurd rfl hs
          · have e3 : encode_char 0 = [0] := by decide
            rw [e3] at e1 e2
            simp only [List.length_singleton] at e1
            subst e1
            simp at e2
            exact h0 (by simp [e2])
        obtain ⟨hsc, hk, r, hr⟩ := AnyReport.iterate_cstr hb hi hv
        have hlt : v < 0x110000 := by unfold Scalar at hsc; omega
        have hlen : 0 < (encode_char v).length := List.length_pos_iff.2 (encode_ne_nil hlt)
        have hsl : s.length = (encode_char v).length + r.length := by rw [hr]; simp
        have hvalid : v.isValidChar := by
          unfold Scalar at hsc; unfold Nat.isValidChar; omega
        have hc : (Char.ofNat v).toNat = v := by
          unfold Char.ofNat; rw [dif_pos hvalid]; rfl
        cases fuel with
        | zero => omega
        | succ fuel =>
          obtain ⟨cs, rest, e1, e2, e3⟩ := ih fuel r after (append_char text false v) (by omega) (by omega)
            (fun h => h0 (by rw [hr]; simp [h])) (fun b h => hb b (by rw [hr]; simp [h]))
          refine ⟨Char.ofNat v :: cs, rest, ?_, ?_, e3⟩
          · rw [utf8_cons, hc, List.append_assoc, ← e1]; exact hr
          · unfold cstringLoop
            simp only [rd, hb0, bind_ok, hbne, if_false, hit, hi]
            have : (s ++ 0 :: after).drop k = r ++ 0 :: after := by
              rw [hr, hk, List.append_assoc, List.drop_left]
            rw [this, e2]
            simp [append_char, hc]

end Ocr.Text
