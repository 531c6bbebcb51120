import Verif.Proof.Page

namespace Ocr.Text
open Res Spec

theorem loop_fixed : ∀ (cs : List Ch) (found : Bool), (found = false → ∀ c ∈ cs.head?, c.value ≠ BLANK ∧ c.value ≠ NEWLINE) →
    cs.IsChain (fun c d => c.value = NEWLINE ∨ c.value = BLANK → d.value ≠ BLANK ∧ d.value ≠ NEWLINE) →
    (∀ c ∈ cs.getLast?, c.value ≠ BLANK) → compressLoop found cs = cs := by
  intro cs
  induction cs with
  | nil => intro found _ _ _; rw [compressLoop]
  | cons c rest ih =>
    intro found h1 h2 h3
    rw [loop_cons, if_neg]
    · rw [ih]
      · intro hf d hd
        cases rest with
        | nil => simp at hd
        | cons e rest =>
          simp only [List.head?_cons, Option.mem_def, Option.some.injEq] at hd
          subst hd
          by_cases hc : c.value = NEWLINE
          · exact (List.isChain_cons_cons.1 h2).1 (.inl hc)
          · rw [if_neg hc] at hf; cases hf
      · exact h2.tail
      · intro d hd
        cases rest with
        | nil => simp at hd
        | cons e rest => exact h3 d (by simpa using hd)
    · rintro (⟨hb, hx⟩ | ⟨hn, hf⟩)
      · rcases hx with hf | hn | ha
        · exact (h1 hf c (by simp)).1 hb
        · cases rest with
          | nil => exact h3 c (by simp) hb
          | cons e rest => simp at hn
        · cases rest with
          | nil => simp at ha
          | cons e rest =>
            have := (List.isChain_cons_cons.1 h2).1 (.inr hb)
            simp at ha
            rcases ha with ha | ha
            · exact this.1 ha
            · exact this.2 ha
      · exact (h1 hf c (by simp)).2 hn

theorem normal_fixed {U : Unicode} {cs : List Ch} (h : NormalForm U cs) : compress_spacing U cs = cs := by
  unfold compress_spacing
  have : cs.map (fun c => if is_blank U c.value then { c with value := BLANK } else c) = cs := by
    rw [List.map_congr_left (g := id) ?_, List.map_id]
    intro c hc
    split
    · rename_i hb
      have := h.only_blank c hc (.inr hb)
      cases c
      simp only at this
      simp [this]
    · rfl
  rw [this]
  refine loop_fixed cs false ?_ h.chain h.stop
  intro _ c hc
  have := h.start c hc
  exact ⟨fun e => this.1 (.inl e), this.2⟩

theorem normal_values {U : Unicode} {cs ds : List Ch} (h : NormalForm U cs) (e : ds.map Ch.value = cs.map Ch.value) : NormalForm U ds := by
  have hm : ∀ d ∈ ds, ∃ c ∈ cs, c.value = d.value := by
    intro d hd
    have : d.value ∈ cs.map Ch.value := e ▸ List.mem_map_of_mem hd
    obtain ⟨c, hc, e⟩ := List.mem_map.1 this
    exact ⟨c, hc, e⟩
  have hh : ds.head?.map Ch.value = cs.head?.map Ch.value := by rw [← List.head?_map, ← List.head?_map, e]
  have hl : ds.getLast?.map Ch.value = cs.getLast?.map Ch.value := by rw [← List.getLast?_map, ← List.getLast?_map, e]
  refine ⟨?_, ?_, ?_, ?_⟩
  · intro d hd hb
    obtain ⟨c, hc, ev⟩ := hm d hd
    rw [← ev] at hb ⊢
    exact h.only_blank c hc hb
  · intro d hd
    rw [Option.mem_def] at hd
    rw [hd] at hh
    cases hc : cs.head? with
    | none => rw [hc] at hh; cases hh
    | some c =>
      rw [hc] at hh
      have ev : d.value = c.value := by simpa using hh
      have := h.start c hc
      unfold Visible at this ⊢
      rw [ev]; exact this
  · have h1 := h.chain
    have h2 : (cs.map Ch.value).IsChain (fun c d => c = NEWLINE ∨ c = BLANK → d ≠ BLANK ∧ d ≠ NEWLINE) := (List.isChain_map _).2 h1
    rw [← e] at h2
    exact (List.isChain_map _).1 h2
  · intro d hd
    rw [Option.mem_def] at hd
    rw [hd] at hl
    cases hc : cs.getLast? with
    | none => rw [hc] at hl; cases hl
    | some c =>
      rw [hc] at hl
      have ev : d.value = c.value := by simpa using hl
      rw [ev]; exact h.stop c hc

theorem page_normal {U : Unicode} {file : List Nat} {t : List Ch} (h : IsPage U false file t) : NormalForm U t := by
  obtain ⟨cs, g0, parts, rfl, h1, h2, h3, rfl⟩ := h
  have : (normalized parts).map (fun c => if false = true then { c with value := U.tolower c.value } else c) = normalized parts := by simp
  rw [this]
  exact normal_form U parts h2

/-- A text with normal spacing is the text of the file written for it. -/
theorem written_page {U : Unicode} {t : List Ch} (h : ∀ c ∈ t, Writable U c.value) (hn : NormalForm U t) :
    ∃ file, write_text U t none = .ok file ∧ IsPage U false file t := by
  obtain ⟨cs, h1, h2⟩ := scalars_char _ (written_scalar t h)
  have hm : marked 94 (cs.map Char.toNat) = t := by
    rw [h1]
    exact marked_written (U := U) t none (by simp) h
  obtain ⟨g0, parts, hp, ha⟩ := parts_exist U t
  refine ⟨utf8 cs, ?_, cs, g0, parts, rfl, hp.1, hp.2, hm.trans ha, ?_⟩
  · unfold write_text
    rw [writeLoop_eq t h, ← h2]
    simp
  · rw [← compress_parts U g0 parts hp, ← ha, normal_fixed hn]
    simp

/-- The bytes written and read without any change. -/
theorem written_raw {U : Unicode} {t : List Ch} (h : ∀ c ∈ t, Writable U c.value) :
    ∃ cs, write_text U t none = .ok (utf8 cs) ∧ marked 94 (cs.map Char.toNat) = t := by
  obtain ⟨cs, h1, h2⟩ := scalars_char _ (written_scalar t h)
  refine ⟨cs, ?_, ?_⟩
  · unfold write_text
    rw [writeLoop_eq t h, ← h2]
    simp
  · rw [h1]
    exact marked_written (U := U) t none (by simp) h

end Ocr.Text
