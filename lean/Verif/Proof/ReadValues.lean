import Verif.Proof.Text
import Verif.Proof.Spacing

/-!
# The characters of a text that was read
-/

namespace Ocr.Text
open Res

theorem readLoop_scalar (fm : Bool) (m : Nat) : ∀ (fuel : Nat) (file buf : List Nat) (s : Bool) (r : List Ch),
    Bytes file → Bytes buf → readLoop fm m fuel file buf s = .ok r → ∀ c ∈ r, Scalar c.value := by
  intro fuel
  induction fuel with
  | zero =>
    intro file buf s r _ _ h
    cases file with
    | nil => simp [readLoop] at h; subst h; simp
    | cons _ _ => simp [readLoop] at h
  | succ fuel ih =>
    intro file buf s r hfile hbuf h
    cases file with
    | nil => simp [readLoop] at h; subst h; simp
    | cons byte rest =>
      simp only [readLoop] at h
      split at h
      · cases h
      split at h
      · cases h
      have hrest : Bytes rest := fun b hb => hfile b (by simp [hb])
      have hbuf' : Bytes (byte :: rest.take (utf8class byte - 1) ++ buf.drop (utf8class byte)) := by
        intro b hb
        simp only [List.cons_append, List.mem_cons, List.mem_append] at hb
        rcases hb with rfl | hb | hb
        · exact hfile _ (by simp)
        · exact hrest b (List.mem_of_mem_take hb)
        · exact hbuf b (List.mem_of_mem_drop hb)
      have hdrop : Bytes (rest.drop (utf8class byte - 1)) := fun b hb => hrest b (List.mem_of_mem_drop hb)
      cases hit : iterate (byte :: rest.take (utf8class byte - 1) ++ buf.drop (utf8class byte)) with
      | none => rw [hit] at h; cases h
      | some p =>
        obtain ⟨n, cp⟩ := p
        rw [hit] at h
        simp only at h
        split at h
        · cases h
        split at h
        · exact ih _ _ _ _ hdrop hbuf' h
        · obtain ⟨cs, h1, h⟩ := bind_eq_ok.1 h
          cases h
          intro c hc
          rcases List.mem_cons.1 hc with rfl | hc
          · exact (iterate_some hbuf' hit).1
          · exact ih _ _ _ _ hdrop hbuf' h1 c hc

theorem compressLoop_values (P : Nat → Prop) : ∀ (n : Nat) (b : Bool) (cs : List Ch), cs.length ≤ n → (∀ c ∈ cs, P c.value) →
    ∀ c ∈ compressLoop b cs, P c.value := by
  intro n
  induction n with
  | zero =>
    intro b cs h _
    have : cs = [] := by simpa using h
    subst this
    rw [compressLoop]; simp
  | succ n ih =>
    intro b cs hl hP
    cases cs with
    | nil => rw [compressLoop]; simp
    | cons c rest =>
      rw [loop_cons]
      simp only [List.length_cons] at hl
      split
      · cases rest with
        | nil => simp
        | cons y rest =>
          simp only
          simp only [List.length_cons] at hl
          split
          · refine ih _ _ (by simp; omega) ?_
            intro x hx
            rcases List.mem_cons.1 hx with rfl | hx
            · exact hP y (by simp)
            · exact hP x (by simp [hx])
          · exact ih _ _ (by simp; omega) (fun x hx => hP x (List.mem_cons_of_mem _ hx))
      · intro x hx
        rcases List.mem_cons.1 hx with rfl | hx
        · exact hP x (by simp)
        · exact ih _ _ (by omega) (fun x hx => hP x (List.mem_cons_of_mem _ hx)) x hx

theorem compress_values (U : Unicode) (P : Nat → Prop) (hb : P BLANK) (cs : List Ch) (h : ∀ c ∈ cs, P c.value) :
    ∀ c ∈ compress_spacing U cs, P c.value := by
  unfold compress_spacing
  refine compressLoop_values P _ _ _ (Nat.le_refl _) ?_
  intro c hc
  obtain ⟨x, hx, rfl⟩ := List.mem_map.1 hc
  split
  · exact hb
  · exact h x hx

theorem Bytes_suffix {a b : List Nat} (h : b <:+ a) (ha : Bytes a) : Bytes b := fun x hx => ha x (h.subset hx)

theorem go_suffix : ∀ (n : Nat) (file : List Nat), (fgets.go n file).2 <:+ file := by
  intro n
  induction n with
  | zero => intro file; cases file <;> simp [fgets.go]
  | succ n ih =>
    intro file
    cases file with
    | nil => simp [fgets.go]
    | cons b file =>
      rw [fgets.go]
      split
      · exact List.suffix_cons _ _
      · exact (ih file).trans (List.suffix_cons _ _)

theorem fgets_suffix {n : Nat} {file line rest : List Nat} (h : fgets n file = some (line, rest)) : rest <:+ file := by
  cases file with
  | nil => cases h
  | cons b f =>
    have h' : fgets.go n (b :: f) = (line, rest) := Option.some.inj h
    have := go_suffix n (b :: f)
    rw [h'] at this
    exact this

theorem skipHeader_suffix : ∀ (fuel count : Nat) (file body : List Nat), skipHeader fuel count file = .ok body → body <:+ file := by
  intro fuel
  induction fuel with
  | zero =>
    intro count file body h
    rw [skipHeader.eq_def] at h
    simp only at h
    split at h
    · split at h
      · cases h; exact List.suffix_refl _
      · cases h
    · cases h; exact List.suffix_refl _
  | succ fuel ih =>
    intro count file body h
    rw [skipHeader.eq_def] at h
    simp only at h
    split at h
    · split at h
      · cases h; exact List.suffix_refl _
      · rename_i e
        exact (ih _ _ _ h).trans (fgets_suffix e)
    · cases h; exact List.suffix_refl _

theorem read_header_suffix {file body : List Nat} {found : Bool} (h : read_header file = .ok (found, body)) : body <:+ file := by
  unfold read_header at h
  split at h
  · rename_i e
    split at h
    · obtain ⟨b, h1, h⟩ := bind_eq_ok.1 h
      cases h
      exact (skipHeader_suffix _ _ _ _ h1).trans (fgets_suffix e)
    · cases h; exact List.suffix_refl _
  · cases h; exact List.suffix_refl _

/-- The characters are Unicode scalar values, in lower case if asked for. -/
theorem read_text_values (U : Unicode) (junk : List Nat) (file : List Nat) (opt opt' : Textopt) (text : List Ch)
    (hf : Bytes file) (hj : Bytes junk) (h : read_text U junk [] file opt = .ok (text, opt')) :
    (∀ c ∈ text, ∃ v, Scalar v ∧ c.value = if opt.case_insensitive then U.tolower v else v) ∧
      opt'.case_insensitive = opt.case_insensitive ∧ opt'.normalize = opt.normalize ∧ opt'.find_header = opt.find_header ∧
      opt'.find_markers = opt.find_markers ∧ opt'.suspect_marker = opt.suspect_marker := by
  unfold read_text at h
  obtain ⟨⟨o, body⟩, h1, h⟩ := bind_eq_ok.1 h
  obtain ⟨new, h2, h⟩ := bind_eq_ok.1 h
  have ho : Bytes body ∧ o.case_insensitive = opt.case_insensitive ∧ o.normalize = opt.normalize ∧
      o.find_header = opt.find_header ∧ o.find_markers = opt.find_markers ∧ o.suspect_marker = opt.suspect_marker := by
    split at h1
    · obtain ⟨⟨found, b⟩, h3, h1⟩ := bind_eq_ok.1 h1
      cases h1
      exact ⟨Bytes_suffix (read_header_suffix h3) hf, rfl, rfl, rfl, rfl, rfl⟩
    · cases h1
      exact ⟨hf, rfl, rfl, rfl, rfl, rfl⟩
  simp only [List.nil_append, pure_eq, Res.ok.injEq, Prod.mk.injEq] at h
  obtain ⟨h3, rfl⟩ := h
  refine ⟨?_, ho.2⟩
  have hs : ∀ c ∈ new, Scalar c.value := readLoop_scalar _ _ _ _ _ _ _ ho.1 hj h2
  have hc : ∀ c ∈ (if o.normalize = true then compress_spacing U new else new), Scalar c.value := by
    split
    · exact compress_values U Scalar (by unfold Scalar BLANK; omega) new hs
    · exact hs
  rw [← h3, ho.2.1]
  intro c hc'
  split at hc'
  · rename_i hci
    obtain ⟨x, hx, rfl⟩ := List.mem_map.1 hc'
    exact ⟨x.value, hc x hx, by simp [hci]⟩
  · rename_i hci
    exact ⟨c.value, hc c hc', by simp [hci]⟩

end Ocr.Text
