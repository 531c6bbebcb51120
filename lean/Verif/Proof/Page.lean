import Verif.Spec.Options
import Verif.Spec.Page
import Verif.Proof.ReadValues
import Verif.Proof.Header
import Verif.Proof.Spacing
import Verif.Props.Text

namespace Ocr.Text
open Res Spec

theorem go_shorter (n b : Nat) (file : List Nat) : (fgets.go (n + 1) (b :: file)).2.length ≤ file.length := by
  rw [fgets.go]
  split
  · exact le_refl _
  · exact (go_suffix n file).length_le

theorem skip_total : ∀ (fuel count : Nat) (file : List Nat), file.length ≤ fuel → ∃ body, skipHeader fuel count file = .ok body := by
  intro fuel
  induction fuel with
  | zero =>
    intro count file h
    have : file = [] := List.length_eq_zero_iff.1 (by omega)
    subst this
    rw [skipHeader.eq_def]
    simp only [fgets_nil]
    split <;> exact ⟨_, rfl⟩
  | succ fuel ih =>
    intro count file h
    rw [skipHeader.eq_def]
    simp only
    split
    · cases file with
      | nil => exact ⟨[], rfl⟩
      | cons b f =>
        rw [fgets_cons]
        simp only
        refine ih _ _ ?_
        have : (fgets.go 98 (b :: f)).2.length ≤ f.length := go_shorter 97 b f
        simp at h
        omega
    · exact ⟨_, rfl⟩

theorem header_total (file : List Nat) : ∃ found body, read_header file = .ok (found, body) := by
  unfold read_header
  split
  · rename_i line rest e
    split
    · obtain ⟨body, hb⟩ := skip_total file.length 0 rest ((fgets_suffix e).length_le)
      exact ⟨true, body, by rw [hb]; rfl⟩
    · exact ⟨_, _, rfl⟩
  · exact ⟨_, _, rfl⟩

/-- Reading ends: with a text or with a message. -/
theorem read_total (U : Unicode) (junk : List Nat) (text : List Ch) (file : List Nat) (opt : Textopt) (hf : Bytes file)
    (hj : Bytes junk) :
    (∃ r, read_text U junk text file opt = .ok r) ∨ ∃ msg, read_text U junk text file opt = .err msg := by
  have key : ∀ (o : Textopt) (body : List Nat), Bytes body →
      (∃ r, read_contents body o.find_markers (if o.suspect_marker ≠ 0 then o.suspect_marker else SUSPECT_MARKER) junk = .ok r) ∨
      ∃ msg, read_contents body o.find_markers (if o.suspect_marker ≠ 0 then o.suspect_marker else SUSPECT_MARKER) junk = .err msg := by
    intro o body hb
    rcases readLoop_cases o.find_markers (if o.suspect_marker ≠ 0 then o.suspect_marker else SUSPECT_MARKER) body.length body junk
      false hb hj (le_refl _) with ⟨_, r, _, e⟩ | h
    · exact .inl ⟨r, e⟩
    · exact .inr h
  have hh : ∃ o body, Bytes body ∧ (if opt.find_header then do
      let (found, body) ← read_header file
      pure ({ opt with found_header := found }, body)
    else pure (opt, file) : Res (Textopt × List Nat)) = .ok (o, body) := by
    split
    · obtain ⟨found, body, e⟩ := header_total file
      exact ⟨_, body, Bytes_suffix (read_header_suffix e) hf, by rw [e]; rfl⟩
    · exact ⟨opt, file, hf, rfl⟩
  obtain ⟨o, body, hb, e⟩ := hh
  unfold read_text
  rw [e, bind_ok]
  simp only
  rcases key o body hb with ⟨r, e⟩ | ⟨msg, e⟩
  · rw [e]; exact .inl ⟨_, rfl⟩
  · rw [e]; exact .inr ⟨msg, rfl⟩

theorem read_plain {U : Unicode} {junk : List Nat} {fold : Bool} {file : List Nat} (h : ¬ Headed file) :
    read_text U junk [] file (pageText fold) = (do
      let new ← read_contents file true SUSPECT_MARKER junk
      let new := compress_spacing U new
      return (if fold then lowercase U new else new, pageText fold)) := by
  unfold read_text
  simp only [pageText, if_true, read_header_not h, bind_ok, pure_eq, ne_eq, not_true_eq_false, if_false, List.nil_append]

/-- What reading a page gives. -/
theorem read_page (U : Unicode) (junk : List Nat) (fold : Bool) (file : List Nat) (hf : Bytes file) (hj : Bytes junk)
    (hh : ¬ Headed file) (t : List Ch) (opt : Textopt) :
    read_text U junk [] file (pageText fold) = .ok (t, opt) ↔ IsPage U fold file t ∧ opt = pageText fold := by
  have hut : ∀ cs, read_contents (utf8 cs) true SUSPECT_MARKER junk = .ok (marked 94 (cs.map Char.toNat)) := by
    intro cs
    unfold read_contents
    rw [readLoop_utf8 true _ cs _ junk false none (by simp) (by simp) (le_refl _)]
    rfl
  have hfold : ∀ cs : List Ch, (if fold then lowercase U cs else cs) =
      cs.map (fun c => if fold then { c with value := U.tolower c.value } else c) := by
    intro cs
    cases fold with
    | true => rfl
    | false => simp
  rw [read_plain hh]
  constructor
  · intro h
    obtain ⟨new, h1, h⟩ := bind_eq_ok.1 h
    rcases readLoop_cases true SUSPECT_MARKER file.length file junk false hf hj (le_refl _) with ⟨cs, r, e, _⟩ | ⟨msg, e⟩
    · subst e
      rw [hut] at h1
      cases h1
      obtain ⟨g0, parts, hp, hm⟩ := parts_exist U (marked 94 (cs.map Char.toNat))
      simp only [pure_eq] at h
      cases h
      refine ⟨⟨cs, g0, parts, rfl, hp.1, hp.2, hm, ?_⟩, rfl⟩
      rw [hm, compress_parts U _ _ hp, hfold]
    · unfold read_contents at h1
      rw [e] at h1; cases h1
  · rintro ⟨⟨cs, g0, parts, rfl, h1, h2, h3, rfl⟩, rfl⟩
    rw [hut, bind_ok, h3]
    simp only [pure_eq]
    rw [compress_parts U _ _ ⟨h1, h2⟩, hfold]

/-- What reading a list gives. -/
theorem read_list (U : Unicode) (junk : List Nat) (marks fold : Bool) (file : List Nat) (hf : Bytes file) (hj : Bytes junk)
    (t : List Ch) (opt : Textopt) :
    read_text U junk [] file ⟨false, marks, 0, true, fold, false⟩ = .ok (t, opt) ↔
      IsList U marks fold file t ∧ opt = ⟨false, marks, 0, true, fold, false⟩ := by
  have hut : ∀ cs, read_contents (utf8 cs) marks SUSPECT_MARKER junk =
      .ok (if marks then marked 94 (cs.map Char.toNat) else cs.map (fun c => ⟨false, c.toNat⟩)) := by
    intro cs
    unfold read_contents
    rw [readLoop_utf8 marks _ cs _ junk false none (by simp) (by simp) (le_refl _)]
    cases marks <;> rfl
  have hfold : ∀ cs : List Ch, (if fold then lowercase U cs else cs) =
      cs.map (fun c => if fold then { c with value := U.tolower c.value } else c) := by
    intro cs
    cases fold with
    | true => rfl
    | false => simp
  have hread : read_text U junk [] file ⟨false, marks, 0, true, fold, false⟩ = (do
      let new ← read_contents file marks SUSPECT_MARKER junk
      let new := compress_spacing U new
      return (if fold then lowercase U new else new, ⟨false, marks, 0, true, fold, false⟩)) := by
    unfold read_text
    simp only [Bool.false_eq_true, if_true, bind_ok, pure_eq, ne_eq, not_true_eq_false, if_false, List.nil_append]
  rw [hread]
  constructor
  · intro h
    obtain ⟨new, h1, h⟩ := bind_eq_ok.1 h
    rcases readLoop_cases marks SUSPECT_MARKER file.length file junk false hf hj (le_refl _) with ⟨cs, r, e, _⟩ | ⟨msg, e⟩
    · subst e
      rw [hut] at h1
      cases h1
      obtain ⟨g0, parts, hp, hm⟩ := parts_exist U (if marks then marked 94 (cs.map Char.toNat) else cs.map (fun c => ⟨false, c.toNat⟩))
      simp only [pure_eq] at h
      cases h
      refine ⟨⟨cs, g0, parts, rfl, hp.1, hp.2, hm, ?_⟩, rfl⟩
      rw [hm, compress_parts U _ _ hp, hfold]
    · unfold read_contents at h1
      rw [e] at h1; cases h1
  · rintro ⟨⟨cs, g0, parts, rfl, h1, h2, h3, rfl⟩, rfl⟩
    rw [hut, bind_ok, h3]
    simp only [pure_eq]
    rw [compress_parts U _ _ ⟨h1, h2⟩, hfold]

theorem plain_headed {U : Unicode} {junk : List Nat} {fold : Bool} {body : List Nat} :
    read_text U junk [] body { pageText fold with find_header := false } = (do
      let new ← read_contents body true SUSPECT_MARKER junk
      let new := compress_spacing U new
      return (if fold then lowercase U new else new, { pageText fold with find_header := false })) := by
  unfold read_text
  simp only [pageText, Bool.false_eq_true, pure_eq, bind_ok, if_true, ne_eq, not_true_eq_false, if_false, List.nil_append]

theorem page_contents {U : Unicode} {junk : List Nat} {fold : Bool} {body : List Nat} {t : List Ch} (h : IsPage U fold body t) :
    (do let new ← read_contents body true SUSPECT_MARKER junk
        let new := compress_spacing U new
        return (if fold then lowercase U new else new : List Ch) : Res (List Ch)) = .ok t := by
  obtain ⟨cs, g0, parts, rfl, h1, h2, h3, rfl⟩ := h
  have hut : read_contents (utf8 cs) true SUSPECT_MARKER junk = .ok (marked 94 (cs.map Char.toNat)) := by
    unfold read_contents
    rw [readLoop_utf8 true _ cs _ junk false none (by simp) (by simp) (le_refl _)]
    rfl
  rw [hut, bind_ok, h3]
  simp only [pure_eq]
  rw [compress_parts U _ _ ⟨h1, h2⟩]
  cases fold with
  | true => rfl
  | false => simp

/-- Reading a file that holds a text. -/
theorem read_holds {U : Unicode} {junk : List Nat} {fold : Bool} {file : List Nat} {t : List Ch} (h : HoldsText U fold file t) :
    ∃ found, read_text U junk [] file (pageText fold) = .ok (t, { pageText fold with found_header := found }) ∧
      (found = true ↔ Headed file) := by
  rcases h with ⟨h, hp⟩ | ⟨body, ⟨title, before, after, h1, h2, h3, h4, h5, rfl⟩, hp⟩
  · refine ⟨false, ?_, by simp [h]⟩
    rw [read_plain h]
    obtain ⟨new, e1, e2⟩ := bind_eq_ok.1 (page_contents (junk := junk) hp)
    rw [e1, bind_ok]
    simp only [pure_eq, Res.ok.injEq] at e2 ⊢
    rw [e2]; rfl
  · refine ⟨true, ?_, ?_⟩
    · have := c14_header_skipped U junk [] (pageText fold) title before after body h1 h2 h3 h4 h5
      rw [plain_headed] at this
      obtain ⟨new, e1, e2⟩ := bind_eq_ok.1 (page_contents (junk := junk) hp)
      rw [e1, bind_ok] at this
      simp only [pure_eq, Res.ok.injEq] at e2
      simp only [pure_eq, bind_ok, e2] at this
      exact this
    · refine iff_of_true rfl ?_
      unfold Headed
      rw [← h1]
      have hl : 45 ≤ title.length := by
        have := congrArg List.length h1
        rw [List.length_take, List.length_take, show TITLE.length = 49 by decide] at this
        omega
      simp only [List.append_assoc]
      rw [List.take_append_of_le_length hl]

end Ocr.Text
