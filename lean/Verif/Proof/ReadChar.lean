import Verif.Proof.Chars

namespace Ocr

theorem rd_append {α} (a : List α) (b : α) (c : List α) (n : Nat) (h : n = a.length) :
    rd (a ++ b :: c) n = .ok b := by
  subst h; simp [rd]

theorem encode_hi {v : Nat} (h : 0x80 ≤ v) : ∀ b ∈ encode_char v, 0x80 ≤ b := by
  intro b hb
  unfold encode_char at hb
  rw [if_neg (by omega)] at hb
  split at hb
  · simp at hb; omega
  · split at hb
    · simp at hb; omega
    · split at hb
      · simp at hb; omega
      · simp at hb

theorem encode_len_le (v : Nat) : (encode_char v).length ≤ 4 := by
  unfold encode_char; repeat' split
  all_goals simp

theorem encode_len_ge {v : Nat} (h : 0x80 ≤ v) (hv : v < 0x110000) : 2 ≤ (encode_char v).length := by
  unfold encode_char
  rw [if_neg (by omega)]
  split
  · simp
  · split
    · simp
    · simp

theorem iterate_take {v : Nat} (h : Scalar v) (s : List Nat) :
    iterate ((encode_char v ++ s).take 4) = some ((encode_char v).length, v) := by
  rw [List.take_append, List.take_of_length_le (encode_len_le v)]
  exact iterate_encode h _

namespace Text

theorem charString_len {U : Unicode} {v : Nat} (hv : v < 0x110000) (sus fn : Bool) :
    ∃ s, charString U sus v fn = .ok s ∧
      (s.length + 1 ≤ STRING_SIZE ↔ ¬ (sus = true ∧ v ≠ NEWLINE ∧ is_graphic U v = false ∧ 0x100000 ≤ v)) := by
  have hm : (markBytes sus).length ≤ 1 := by cases sus <;> simp [markBytes]
  by_cases hn : v = NEWLINE
  · refine ⟨markBytes sus ++ (if fn then ascii "<\\n>" else ascii "\n"), ?_, ?_⟩
    · unfold charString; rw [mark_eq]; simp [hn]
    · simp only [hn]
      have : (if fn then ascii "<\\n>" else ascii "\n").length ≤ 4 := by cases fn <;> decide
      rw [List.length_append]
      simp [STRING_SIZE]; omega
  by_cases hg : is_graphic U v = true
  · refine ⟨_, charString_graphic (by simp [Escaped, hn, hg]) hv sus fn, ?_⟩
    have h1 := encode_len_le v
    have h2 : ((baseCps U v).flatMap encode_char).length ≤ 3 := by
      unfold baseCps; split
      · decide
      · simp
    simp only [List.flatMap_append, List.flatMap_singleton, List.length_append, STRING_SIZE, hg]
    constructor
    · intro _ h; simp at h
    · intro _; omega
  · have hg' : is_graphic U v = false := by simpa using hg
    have e : charString U sus v fn = .ok (markBytes sus ++ 60 :: escBody v ++ [62]) := by
      rw [← charString_esc (Or.inr hg') sus]
      unfold charString
      simp [hn, hg']
    refine ⟨_, e, ?_⟩
    simp only [List.length_append, List.length_cons, List.length_nil, STRING_SIZE]
    unfold escBody
    rw [if_neg hn]
    have h6 := hexUpper_len_le 5 v (by norm_num; omega)
    by_cases h256 : v < 256
    · have h2 := hexUpper_len_le 1 v (by norm_num; omega)
      rw [if_pos h256, hexPad_len]
      constructor
      · intro _; omega
      · intro _; omega
    · rw [if_neg h256, hexPad_len]
      by_cases hbig : 0x100000 ≤ v
      · have h6' := hexUpper_len_ge 5 v (by norm_num; omega)
        cases sus <;> simp [markBytes, hn, hg', hbig] <;> omega
      · have h5 := hexUpper_len_le 4 v (by norm_num; omega)
        constructor
        · intro _; omega
        · intro _; omega

end Text

namespace Acc
open Text

theorem read_char_bytes {U : Unicode} (F : UnicodeFacts U) {v : Nat} (hv : v < 0x110000) (s rest : List Nat)
    (hs : charString U false v true = .ok s) (h0 : 0 ∈ rest) :
    read_char (123 :: s ++ 125 :: rest) = .ok v := by
  by_cases hesc : Escaped U v
  · rw [charString_esc hesc] at hs
    simp only [markBytes, Bool.false_eq_true, if_false, List.nil_append, Res.ok.injEq] at hs
    subst hs
    have hlen := escBody_len v
    have hne := escBody_ne v
    by_cases hn : v = NEWLINE
    · subst hn
      simp [read_char, rd, escBody]
    · have hpad : ∃ w, 2 ≤ w ∧ escBody v = hexPad w v := by
        unfold escBody; rw [if_neg hn]; split
        · exact ⟨2, le_refl _, rfl⟩
        · exact ⟨4, by omega, rfl⟩
      obtain ⟨w, hw, he⟩ := hpad
      have hdig : ∀ b ∈ escBody v, HexDig b := by rw [he]; exact hexPad_dig w v
      have hscan := scanHex_hexPad w v (cstr (125 :: rest)) hw (by omega)
      rw [← he] at hscan
      have hcstr : cstr (escBody v ++ 62 :: 125 :: rest) = escBody v ++ 62 :: cstr (125 :: rest) := by
        unfold cstr
        rw [List.takeWhile_append_of_pos (by intro b hb; simpa using (hne b hb).2.2.2.1)]
        simp
      have hmem : 123 :: (60 :: escBody v ++ [62]) ++ 125 :: rest =
          123 :: 60 :: (escBody v ++ 62 :: 125 :: rest) := by simp
      rw [hmem]
      unfold read_char
      have r0 : rd (123 :: 60 :: (escBody v ++ 62 :: 125 :: rest)) 0 = .ok 123 := rfl
      have r1 : rd (123 :: 60 :: (escBody v ++ 62 :: 125 :: rest)) 1 = .ok 60 := rfl
      have rp : rd (123 :: 60 :: (escBody v ++ 62 :: 125 :: rest)) (2 + (escBody v).length) = .ok 62 := by
        rw [show 123 :: 60 :: (escBody v ++ 62 :: 125 :: rest) = (123 :: 60 :: escBody v) ++ 62 :: 125 :: rest by simp]
        exact rd_append _ _ _ _ (by simp; omega)
      have rq : rd (123 :: 60 :: (escBody v ++ 62 :: 125 :: rest)) (2 + (escBody v).length + 1) = .ok 125 := by
        rw [show 123 :: 60 :: (escBody v ++ 62 :: 125 :: rest) = (123 :: 60 :: escBody v ++ [62]) ++ 125 :: rest by simp]
        exact rd_append _ _ _ _ (by simp; omega)
      obtain ⟨d, ds, hd⟩ : ∃ d ds, escBody v = d :: ds := by
        cases h : escBody v with
        | nil => rw [h] at hlen; simp at hlen
        | cons d ds => exact ⟨d, ds, rfl⟩
      have r2 : rd (123 :: 60 :: (escBody v ++ 62 :: 125 :: rest)) 2 = .ok d := by rw [hd]; rfl
      have hdd := hdig d (by rw [hd]; simp)
      have hd1 : d ≠ 125 ∧ d ≠ 92 := by unfold HexDig at hdd; omega
      have hdrop : List.drop 2 (123 :: 60 :: (escBody v ++ 62 :: 125 :: rest)) = escBody v ++ 62 :: 125 :: rest := rfl
      have hin : 0 ∈ escBody v ++ 62 :: 125 :: rest := by simp [h0]
      rw [r0, r1]
      simp only [Res.bind_ok, ne_eq, not_true_eq_false, if_false, if_true, r2, hd1.1, hd1.2, hdrop, hin, hcstr,
        hscan, rp, rq, Res.pure_eq, Bool.false_eq_true]
  · rw [charString_graphic hesc hv] at hs
    simp only [markBytes, Bool.false_eq_true, if_false, List.nil_append, Res.ok.injEq] at hs
    subst hs
    unfold Escaped at hesc
    simp only [not_or, Bool.not_eq_false] at hesc
    have hsc : Scalar v := by
      unfold Scalar
      by_contra hcon
      have := F.surrogate v (by omega) (by omega)
      rw [this] at hesc; simp at hesc
    by_cases hc : is_combining U v = true
    · have h80 : 0x80 ≤ v := by
        by_contra hcon
        have := F.ascii v (by omega)
        rw [this] at hc; simp at hc
      have e1 : encode_char DOTTED_CIRCLE = [0xE2, 0x97, 0x8C] := by decide
      have hb : baseCps U v = [DOTTED_CIRCLE] := by simp [baseCps, hc]
      have hmem : 123 :: (baseCps U v ++ [v]).flatMap encode_char ++ 125 :: rest =
          123 :: (encode_char DOTTED_CIRCLE ++ (encode_char v ++ 125 :: rest)) := by simp [hb]
      rw [hmem]
      have hit1 := iterate_take (v := DOTTED_CIRCLE) (by unfold Scalar DOTTED_CIRCLE; omega) (encode_char v ++ 125 :: rest)
      have hit2 := iterate_take hsc (125 :: rest)
      obtain ⟨b, bs, hbs⟩ : ∃ b bs, encode_char v = b :: bs := by
        cases h : encode_char v with
        | nil => exact absurd h (encode_ne_nil hv)
        | cons b bs => exact ⟨b, bs, rfl⟩
      have hb80 := encode_hi h80 b (by rw [hbs]; simp)
      have hl2 := encode_len_ge h80 hv
      have rp : rd (123 :: (encode_char DOTTED_CIRCLE ++ (encode_char v ++ 125 :: rest)))
          (4 + (encode_char v).length) = .ok 125 := by
        rw [show 123 :: (encode_char DOTTED_CIRCLE ++ (encode_char v ++ 125 :: rest)) =
          (123 :: (encode_char DOTTED_CIRCLE ++ encode_char v)) ++ 125 :: rest by simp]
        exact rd_append _ _ _ _ (by simp [e1]; omega)
      unfold read_char
      have d1 : List.drop 1 (123 :: (encode_char DOTTED_CIRCLE ++ (encode_char v ++ 125 :: rest))) =
        encode_char DOTTED_CIRCLE ++ (encode_char v ++ 125 :: rest) := rfl
      have d4 : List.drop 4 (123 :: (encode_char DOTTED_CIRCLE ++ (encode_char v ++ 125 :: rest))) =
        encode_char v ++ 125 :: rest := by rw [e1]; rfl
      have r0 : rd (123 :: (encode_char DOTTED_CIRCLE ++ (encode_char v ++ 125 :: rest))) 0 = .ok 123 := rfl
      have r1 : rd (123 :: (encode_char DOTTED_CIRCLE ++ (encode_char v ++ 125 :: rest))) 1 = .ok 0xE2 := by
        rw [e1]; rfl
      have r4 : rd (123 :: (encode_char DOTTED_CIRCLE ++ (encode_char v ++ 125 :: rest))) 4 = .ok b := by
        rw [e1, hbs]; rfl
      have l1 : (encode_char DOTTED_CIRCLE).length = 3 := by rw [e1]; rfl
      rw [l1] at hit1
      rw [r0, r1]
      simp only [Res.bind_ok, ne_eq, not_true_eq_false, if_false, if_true, d1, hit1, Nat.reduceAdd, r4, d4, hit2,
        show ¬ (0xE2 = 60) by decide, show ¬ (b = 125) by omega, show ¬ ((encode_char v).length < 2) by omega,
        not_false_eq_true, rp]
    · have hb : baseCps U v = [] := by simp [baseCps, hc]
      have hmem : 123 :: (baseCps U v ++ [v]).flatMap encode_char ++ 125 :: rest =
          123 :: (encode_char v ++ 125 :: rest) := by simp [hb]
      rw [hmem]
      by_cases h60 : v = 60
      · subst h60
        have e1 : encode_char 60 = [60] := by decide
        rw [e1]
        simp [read_char, rd]
      · have hit2 := iterate_take hsc (125 :: rest)
        obtain ⟨b, bs, hbs⟩ : ∃ b bs, encode_char v = b :: bs := by
          cases h : encode_char v with
          | nil => exact absurd h (encode_ne_nil hv)
          | cons b bs => exact ⟨b, bs, rfl⟩
        have hb60 : b ≠ 60 := by
          by_cases h80 : 0x80 ≤ v
          · have := encode_hi h80 b (by rw [hbs]; simp)
            omega
          · unfold encode_char at hbs
            rw [if_pos (by omega)] at hbs
            simp at hbs; omega
        have r0 : rd (123 :: (encode_char v ++ 125 :: rest)) 0 = .ok 123 := rfl
        have r1 : rd (123 :: (encode_char v ++ 125 :: rest)) 1 = .ok b := by rw [hbs]; rfl
        have rp : rd (123 :: (encode_char v ++ 125 :: rest)) (1 + (encode_char v).length) = .ok 125 := by
          rw [show 123 :: (encode_char v ++ 125 :: rest) = (123 :: encode_char v) ++ 125 :: rest by simp]
          exact rd_append _ _ _ _ (by simp; omega)
        have d1 : List.drop 1 (123 :: (encode_char v ++ 125 :: rest)) = encode_char v ++ 125 :: rest := rfl
        unfold read_char
        rw [r0, r1]
        simp only [Res.bind_ok, ne_eq, not_true_eq_false, if_false, if_true, d1, hit2, hb60, rp]
        split <;> simp only [Res.bind_ok, rp, if_true]

end Acc
end Ocr
