import Verif.Spec.Text

namespace Ocr.Text

/-- Blanks (already normalized) and newlines only. -/
def Gap' (g : List Ch) : Prop := ∀ c ∈ g, c.value = BLANK ∨ c.value = NEWLINE
/-- Neither. -/
def Vis' (c : Ch) : Prop := c.value ≠ BLANK ∧ c.value ≠ NEWLINE

theorem loop_cons (found : Bool) (c : Ch) (rest : List Ch) : compressLoop found (c :: rest) =
    if (c.value = BLANK ∧ (found = false ∨ rest.head? = none ∨
          rest.head?.any (fun n => n.value = BLANK ∨ n.value = NEWLINE))) ∨
        (c.value = NEWLINE ∧ found = false) then
      match rest with
      | [] => []
      | n :: rest =>
        if found = true ∧ n.value = BLANK then
          compressLoop found ({ n with suspect := n.suspect || c.suspect } :: rest)
        else compressLoop found (n :: rest)
    else
      c :: compressLoop (if c.value = NEWLINE then false else true) rest := by
  rw [compressLoop.eq_def]; rfl

theorem loop_false_gap (g rest : List Ch) (hg : Gap' g) :
    compressLoop false (g ++ rest) = compressLoop false rest := by
  induction g with
  | nil => rfl
  | cons c g ih =>
    have hc := hg c (by simp)
    have hg' : Gap' g := fun d hd => hg d (by simp [hd])
    rw [← ih hg', List.cons_append, loop_cons]
    rw [if_pos (by rcases hc with h | h <;> simp [h])]
    cases h : g ++ rest with
    | nil => rw [compressLoop]
    | cons n r => simp

theorem loop_vis (found : Bool) (c : Ch) (rest : List Ch) (hc : Vis' c) :
    compressLoop found (c :: rest) = c :: compressLoop true rest := by
  rw [loop_cons, if_neg (by have := hc; unfold Vis' at this; simp [this]), if_neg hc.2]

theorem loop_true_gap (n : Nat) : ∀ (g rest : List Ch), g.length = n → Gap' g → (∀ c ∈ rest.head?, Vis' c) →
    compressLoop true (g ++ rest) =
      match g.find? (fun c => c.value = NEWLINE) with
      | some nl => nl :: compressLoop false rest
      | none => if g = [] then compressLoop true rest else
          if rest = [] then [] else ⟨g.any (·.suspect), BLANK⟩ :: compressLoop true rest := by
  induction n with
  | zero =>
    intro g rest hn _ _
    have : g = [] := by simpa using hn
    subst this; simp
  | succ n ih =>
    intro g rest hn hg hr
    cases g with
    | nil => simp at hn
    | cons c g =>
      have hc := hg c (by simp)
      have hg' : Gap' g := fun d hd => hg d (by simp [hd])
      by_cases hnl : c.value = NEWLINE
      · rw [List.cons_append, loop_cons, if_neg (by simp [hnl, BLANK, NEWLINE]), if_pos hnl,
          loop_false_gap _ _ hg']
        simp [hnl]
      · have hb : c.value = BLANK := hc.resolve_right hnl
        have hbn : BLANK ≠ NEWLINE := by decide
        cases g with
        | nil =>
          cases rest with
          | nil => rw [List.cons_append, loop_cons]; simp [hb, hbn]
          | cons v r =>
            have hv := hr v (by simp)
            unfold Vis' at hv
            rw [List.cons_append, loop_cons]
            rw [if_neg (by simp [hb, hv, hbn])]
            obtain ⟨cs, cv⟩ := c
            simp only at hb
            subst hb
            simp [hbn]
        | cons d g =>
          rw [List.cons_append, loop_cons]
          have hd := hg' d (by simp)
          rw [if_pos (by simpa [hb] using hd)]
          simp only [List.cons_append]
          have hfind : (c :: d :: g).find? (fun c => c.value = NEWLINE) =
              (d :: g).find? (fun c => c.value = NEWLINE) := by
            rw [List.find?_cons_of_neg (by simp [hnl])]
          rw [hfind]
          by_cases hdb : d.value = BLANK
          · rw [if_pos ⟨trivial, hdb⟩]
            have := ih ({ d with suspect := d.suspect || c.suspect } :: g) rest (by simpa using hn)
              (by intro x hx; rcases List.mem_cons.1 hx with rfl | hx
                  · exact hd
                  · exact hg' x (by simp [hx])) hr
            rw [List.cons_append] at this
            rw [this]
            rw [List.find?_cons_of_neg (by simp [hdb, hbn]), List.find?_cons_of_neg (by simp [hdb, hbn])]
            simp [← Bool.or_assoc, Bool.or_comm]
          · rw [if_neg (by simp [hdb])]
            have hdn := hd.resolve_left hdb
            have := ih (d :: g) rest (by simpa using hn) hg' hr
            rw [List.cons_append] at this
            rw [this]
            simp [hdn]

/-- The value normalization of the first loop. -/
def blankMap (U : Unicode) (c : Ch) : Ch := if is_blank U c.value then { c with value := BLANK } else c

theorem blankMap_vis {U c} (h : Visible U c) : blankMap U c = c ∧ Vis' c := by
  unfold Visible blankish at h
  simp only [not_or] at h
  exact ⟨by simp [blankMap, h.1.2], h.1.1, h.2⟩

theorem is_blank_nl (U) : is_blank U NEWLINE = false := by simp [is_blank]

theorem blankMap_gap {U g} (h : Gap U g) : Gap' (g.map (blankMap U)) := by
  intro c hc
  obtain ⟨d, hd, rfl⟩ := List.mem_map.1 hc
  unfold blankMap
  rcases h d hd with (h | h) | h
  · split <;> simp [h]
  · simp [h]
  · simp [h, is_blank_nl]

theorem blankMap_find (U) (g : List Ch) : (g.map (blankMap U)).find? (fun c => c.value = NEWLINE) =
    g.find? (fun c => c.value = NEWLINE) := by
  induction g with
  | nil => rfl
  | cons c g ih =>
    simp only [List.map_cons, List.find?_cons, ih]
    by_cases h : c.value = NEWLINE
    · have : blankMap U c = c := by simp [blankMap, h, is_blank_nl]
      simp [this, h]
    · have : (blankMap U c).value ≠ NEWLINE := by
        unfold blankMap; split
        · simp [BLANK, NEWLINE]
        · exact h
      simp [this, h]

theorem blankMap_any (U) (g : List Ch) : (g.map (blankMap U)).any (·.suspect) = g.any (·.suspect) := by
  have : ∀ c, (blankMap U c).suspect = c.suspect := by intro c; unfold blankMap; split <;> rfl
  simp [List.any_map, Function.comp_def, this]

/-- Well-formed decompositions. -/
def Parts (U : Unicode) (g0 : List Ch) (parts : List (Ch × List Ch)) : Prop :=
  Gap U g0 ∧ ∀ p ∈ parts, Visible U p.1 ∧ Gap U p.2

theorem loop_parts (U) (parts : List (Ch × List Ch)) (h : ∀ p ∈ parts, Visible U p.1 ∧ Gap U p.2) (found : Bool) :
    compressLoop found ((parts.flatMap (fun (c, g) => c :: g)).map (blankMap U)) = normalized parts := by
  induction parts generalizing found with
  | nil => simp [normalized, compressLoop]
  | cons p parts ih =>
    obtain ⟨c, g⟩ := p
    obtain ⟨hv, hg⟩ := h (c, g) (by simp)
    have h' : ∀ p ∈ parts, Visible U p.1 ∧ Gap U p.2 := fun p hp => h p (by simp [hp])
    obtain ⟨e, hv'⟩ := blankMap_vis hv
    simp only [List.flatMap_cons, List.cons_append, List.map_cons, List.map_append, e]
    rw [loop_vis _ _ _ hv', loop_true_gap _ _ _ rfl (blankMap_gap hg), blankMap_find, blankMap_any]
    · cases parts with
      | nil =>
        simp only [normalized, finalGap, List.flatMap_nil, List.map_nil, if_true]
        cases g.find? (fun c => c.value = NEWLINE) with
        | none => simp [compressLoop]
        | some nl => simp [compressLoop]
      | cons q parts =>
        have i1 := ih h' false
        have i2 := ih h' true
        rw [i1, i2]
        simp only [normalized, innerGap]
        cases g.find? (fun c => c.value = NEWLINE) with
        | none =>
          by_cases hg0 : g = []
          · simp [hg0]
          · simp [hg0]
        | some nl => simp
    · cases parts with
      | nil => simp
      | cons q parts =>
        obtain ⟨hv2, _⟩ := h' q (by simp)
        obtain ⟨e2, hv2'⟩ := blankMap_vis hv2
        simp [e2, hv2']

theorem compress_parts (U) (g0 : List Ch) (parts : List (Ch × List Ch)) (h : Parts U g0 parts) :
    compress_spacing U (assemble g0 parts) = normalized parts := by
  have : compress_spacing U (assemble g0 parts) =
      compressLoop false ((assemble g0 parts).map (blankMap U)) := rfl
  rw [this, assemble, List.map_append, loop_false_gap _ _ (blankMap_gap h.1), loop_parts U parts h.2]

/-- Every text has such a decomposition. -/
theorem parts_exist (U) (cs : List Ch) : ∃ g0 parts, Parts U g0 parts ∧ cs = assemble g0 parts := by
  induction cs with
  | nil => exact ⟨[], [], ⟨by simp [Gap], by simp⟩, by simp [assemble]⟩
  | cons c cs ih =>
    obtain ⟨g0, parts, ⟨hg, hp⟩, rfl⟩ := ih
    by_cases h : blankish U c.value ∨ c.value = NEWLINE
    · refine ⟨c :: g0, parts, ⟨?_, hp⟩, by simp [assemble]⟩
      intro d hd
      rcases List.mem_cons.1 hd with rfl | hd
      · exact h
      · exact hg d hd
    · refine ⟨[], (c, g0) :: parts, ⟨by simp [Gap], ?_⟩, by simp [assemble]⟩
      intro p hp'
      rcases List.mem_cons.1 hp' with rfl | hp'
      · exact ⟨not_or.1 h, hg⟩
      · exact hp p hp'

/-- The decomposition of the normal form. -/
def reduced : List (Ch × List Ch) → List (Ch × List Ch)
  | [] => []
  | [(c, g)] => [(c, finalGap g)]
  | (c, g) :: rest => (c, innerGap g) :: reduced rest

theorem reduced_assemble (parts) : normalized parts = assemble [] (reduced parts) := by
  fun_induction reduced parts with
  | case1 => simp [normalized, assemble]
  | case2 c g => simp [normalized, assemble]
  | case3 c g rest h ih =>
    rw [normalized]
    · simp [ih, assemble]
    · exact h

theorem finalGap_gap (U) {g} : Gap U (finalGap g) := by
  intro c hc
  simp only [finalGap, Option.mem_toList] at hc
  right; simpa using List.find?_some hc

theorem innerGap_gap (U) {g} : Gap U (innerGap g) := by
  intro c hc
  unfold innerGap at hc
  split at hc
  · rename_i nl h
    simp at hc; subst hc
    right; simpa using List.find?_some h
  · split at hc
    · simp at hc
    · simp at hc; subst hc; left; left; rfl

theorem reduced_parts (U) (parts) (h : ∀ p ∈ parts, Visible U p.1 ∧ Gap U p.2) :
    ∀ p ∈ reduced parts, Visible U p.1 ∧ Gap U p.2 := by
  fun_induction reduced parts with
  | case1 => simp
  | case2 c g =>
    intro p hp
    simp at hp; subst hp
    exact ⟨(h (c, g) (by simp)).1, finalGap_gap U⟩
  | case3 c g rest hne ih =>
    intro p hp
    rcases List.mem_cons.1 hp with rfl | hp
    · exact ⟨(h (c, g) (by simp)).1, innerGap_gap U⟩
    · exact ih (fun p hp => h p (by simp [hp])) p hp

theorem finalGap_idem (g) : finalGap (finalGap g) = finalGap g := by
  unfold finalGap
  cases h : g.find? (fun c => c.value = NEWLINE) with
  | none => simp
  | some nl => have := List.find?_some h; simp at this; simp [this]

theorem innerGap_idem (g) : innerGap (innerGap g) = innerGap g := by
  unfold innerGap
  cases h : g.find? (fun c => c.value = NEWLINE) with
  | none =>
    by_cases hg : g = []
    · simp [hg]
    · simp [hg, BLANK, NEWLINE]
  | some nl => have := List.find?_some h; simp at this; simp [this]

theorem reduced_ne {parts} (h : parts ≠ []) : reduced parts ≠ [] := by
  fun_cases reduced parts <;> simp_all

theorem reduced_idem (parts) : reduced (reduced parts) = reduced parts := by
  fun_induction reduced parts with
  | case1 => rfl
  | case2 c g => simp [reduced, finalGap_idem]
  | case3 c g rest hne ih =>
    have hr : rest ≠ [] := by rintro rfl; exact hne rfl
    have := reduced_ne hr
    rw [reduced, innerGap_idem, ih]
    exact this

theorem compress_idem (U) (cs : List Ch) :
    compress_spacing U (compress_spacing U cs) = compress_spacing U cs := by
  obtain ⟨g0, parts, h, rfl⟩ := parts_exist U cs
  rw [compress_parts U _ _ h]
  conv => lhs; rw [reduced_assemble]
  rw [compress_parts U _ _ ⟨by simp [Gap], reduced_parts U _ h.2⟩, reduced_assemble, reduced_idem,
    ← reduced_assemble]

theorem normalized_head (parts) : (normalized parts).head? = parts.head?.map Prod.fst := by
  fun_cases normalized parts <;> simp

theorem normal_form (U) (parts) (h : ∀ p ∈ parts, Visible U p.1 ∧ Gap U p.2) :
    NormalForm U (normalized parts) := by
  have hbn : BLANK ≠ NEWLINE := by decide
  induction parts with
  | nil => exact ⟨by simp [normalized], by simp [normalized], by simp [normalized], by simp [normalized]⟩
  | cons p parts ih =>
    obtain ⟨c, g⟩ := p
    obtain ⟨hv, hg⟩ := h (c, g) (by simp)
    have h' : ∀ p ∈ parts, Visible U p.1 ∧ Gap U p.2 := fun p hp => h p (by simp [hp])
    have ih := ih h'
    have hv' := (blankMap_vis hv).2
    have hnlb : ¬ blankish U NEWLINE := by
      simp [blankish, is_blank_nl]; decide
    cases parts with
    | nil =>
      simp only [normalized]
      cases hf : g.find? (fun c => c.value = NEWLINE) with
      | none =>
        simp only [finalGap, hf, Option.toList_none]
        exact ⟨by simp; intro hb; exact absurd hb hv.1, by simpa using hv, by simp, by simpa using hv'.1⟩
      | some nl =>
        have hnl : nl.value = NEWLINE := by simpa using List.find?_some hf
        simp only [finalGap, hf, Option.toList_some]
        refine ⟨?_, by simpa using hv, ?_, by simp [hnl]; decide⟩
        · intro d hd hb
          simp at hd
          rcases hd with rfl | rfl
          · exact absurd hb hv.1
          · rw [hnl] at hb; exact absurd hb hnlb
        · simp [hv'.1, hv'.2]
    | cons q parts =>
      rw [normalized]
      · have hq := (h' q (by simp)).1
        have hq' := (blankMap_vis hq).2
        have hhead : (normalized (q :: parts)).head? = some q.1 := by rw [normalized_head]; rfl
        obtain ⟨tl, htl⟩ : ∃ tl, normalized (q :: parts) = q.1 :: tl := by
          cases hn : normalized (q :: parts) with
          | nil => rw [hn] at hhead; simp at hhead
          | cons a b => rw [hn] at hhead; simp at hhead; exact ⟨b, by rw [hhead]⟩
        rw [htl] at ih ⊢
        unfold innerGap
        cases hf : g.find? (fun c => c.value = NEWLINE) with
        | some nl =>
          have hnl : nl.value = NEWLINE := by simpa using List.find?_some hf
          refine ⟨?_, by simpa using hv, ?_, ?_⟩
          · intro d hd hb
            simp at hd
            rcases hd with rfl | rfl | hd
            · exact absurd hb hv.1
            · rw [hnl] at hb; exact absurd hb hnlb
            · exact ih.only_blank d (by simpa using hd) hb
          · simp [hv'.1, hv'.2, hnl, hq'.1, hq'.2]
            exact ih.chain
          · have := ih.stop; simpa [List.getLast?_cons_cons] using this
        | none =>
          by_cases hg0 : g = []
          · simp only [hg0, if_true, List.append_nil, List.cons_append, List.nil_append]
            refine ⟨?_, by simpa using hv, ?_, ?_⟩
            · intro d hd hb
              rcases List.mem_cons.1 hd with rfl | hd
              · exact absurd hb hv.1
              · exact ih.only_blank d hd hb
            · simp [hv'.1, hv'.2]
              exact ih.chain
            · have := ih.stop; simpa [List.getLast?_cons_cons] using this
          · simp only [hg0, if_false]
            refine ⟨?_, by simpa using hv, ?_, ?_⟩
            · intro d hd hb
              simp at hd
              rcases hd with rfl | rfl | hd
              · exact absurd hb hv.1
              · rfl
              · exact ih.only_blank d (by simpa using hd) hb
            · simp [hv'.1, hv'.2, hq'.1, hq'.2]
              exact ih.chain
            · have := ih.stop; simpa [List.getLast?_cons_cons] using this
      · simp

end Ocr.Text
