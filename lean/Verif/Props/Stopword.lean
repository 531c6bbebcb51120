import Verif.Spec.Options
import Verif.Model.Stopword
import Verif.Proof.Store
import Verif.Props.Word

/-!
# C38: stopwords
-/

namespace Ocr.Stopword
open Text Res

theorem lookup_some (key : List Nat) (t : List (List Nat)) : (Store.lookup id key t).isSome = decide (key ∈ t) := by
  unfold Store.lookup
  rw [List.isSome_find?, Bool.eq_iff_iff]
  simp

/-- The words of a list that occurred earlier in it or in `seen`. -/
def repeated : (seen : List (List Nat)) → List (List Nat) → List (List Nat)
  | _, [] => []
  | seen, w :: ws => (if w ∈ seen then [w] else []) ++ repeated (w :: seen) ws

theorem repeated_congr {s t : List (List Nat)} (h : ∀ w, w ∈ s ↔ w ∈ t) : ∀ (ws : List (List Nat)), repeated s ws = repeated t ws := by
  intro ws
  induction ws generalizing s t with
  | nil => rfl
  | cons w ws ih =>
    unfold repeated
    have h1 : (if w ∈ s then [w] else []) = (if w ∈ t then [w] else []) := by
      by_cases hw : w ∈ s
      · rw [if_pos hw, if_pos ((h w).1 hw)]
      · rw [if_neg hw, if_neg (fun e => hw ((h w).2 e))]
    rw [h1, ih (s := w :: s) (t := w :: t) (fun x => by simp [h x])]

theorem save_spec : ∀ (ws : List (List Nat)) (S : State), ∃ T, saveWords (ws.map some) S = .ok T ∧ T.initialized = S.initialized ∧
    (∀ w, w ∈ T.table ↔ w ∈ S.table ∨ w ∈ ws) ∧ T.warnings = S.warnings ++ repeated S.table ws := by
  intro ws
  induction ws with
  | nil => intro S; exact ⟨S, rfl, rfl, by simp, by simp [repeated]⟩
  | cons w ws ih =>
    intro S
    obtain ⟨T, e, h1, h2, h3⟩ := ih (save_stopword w S)
    have hl := lookup_some w S.table
    refine ⟨T, e, ?_, ?_, ?_⟩
    · rw [h1]; unfold save_stopword; split <;> rfl
    · intro x
      rw [h2]
      unfold save_stopword
      split
      · rename_i e'
        have hw : w ∈ S.table := by rw [e'] at hl; simpa using hl.symm
        constructor
        · rintro (h | h)
          · exact .inl h
          · exact .inr (by simp [h])
        · rintro (h | h)
          · exact .inl h
          · rcases List.mem_cons.1 h with rfl | h
            · exact .inl hw
            · exact .inr h
      · simp only [List.mem_cons]
        tauto
    · rw [h3, show repeated S.table (w :: ws) = (if w ∈ S.table then [w] else []) ++ repeated (w :: S.table) ws from rfl]
      unfold save_stopword
      split
      · rename_i e'
        have hw : w ∈ S.table := by rw [e'] at hl; simpa using hl.symm
        rw [if_pos hw, List.append_assoc]
        rw [repeated_congr (s := w :: S.table) (t := S.table)]
        intro x; simp only [List.mem_cons, or_iff_right_iff_imp]; rintro rfl; exact hw
      · rename_i e'
        have hw : w ∉ S.table := by rw [e'] at hl; simpa using hl
        rw [if_neg hw]; rfl

/-- C38 (file).  After initialization from a file that can be read and whose words can be normalized, a string is a stopword
exactly if it is one of the words of the file.  The words listed before in the file cause warnings and nothing else. -/
theorem c38_file (U : Unicode) (prop : Nat → Word.WB) (nfc : List Nat → Option (List Nat)) (junk : List Nat) (junk' : Nat)
    (file : List Nat) (text : List Ch) (opt : Textopt) (hr : read_text U junk [] file Spec.wordList = .ok (text, opt))
    (words : List (List Nat)) (hw : Word.find_words U prop nfc junk' text = .ok (words.map some)) :
    ∃ S, init_stopwords U prop nfc junk junk' (some file) State.start = .ok S ∧ S.warnings = repeated [] words ∧
      ∀ w, is_stopword w S = .ok (decide (w ∈ words)) := by
  obtain ⟨T, e, h1, h2, h3⟩ := save_spec words State.start
  refine ⟨{ T with initialized := true }, ?_, by simpa [State.start] using h3, ?_⟩
  · unfold init_stopwords
    rw [if_neg (by simp [State.start])]
    simp only
    rw [show read_text U junk [] file textopt = _ from hr, bind_ok]
    simp only
    rw [hw, bind_ok, e, bind_ok]; rfl
  · intro w
    unfold is_stopword
    rw [if_pos rfl, lookup_some]
    have := h2 w
    simp [State.start] at this
    simp [this]

/-- C38 (default).  Without a file the stopwords are exactly the 110 default words, and there is no warning. -/
theorem c38_default (U : Unicode) (prop : Nat → Word.WB) (nfc : List Nat → Option (List Nat)) (junk : List Nat) (junk' : Nat) :
    ∃ S, init_stopwords U prop nfc junk junk' none State.start = .ok S ∧ S.warnings = [] ∧
      (∀ w, is_stopword w S = .ok (decide (w ∈ default_stopword.map ascii))) ∧
      default_stopword.length = 110 ∧ (default_stopword.map ascii).Nodup := by
  obtain ⟨T, e, h1, h2, h3⟩ := save_spec (default_stopword.map ascii) State.start
  refine ⟨{ T with initialized := true }, ?_, ?_, ?_, rfl, by decide +kernel⟩
  · unfold init_stopwords
    rw [if_neg (by simp [State.start])]
    simp only
    rw [List.map_map] at e
    have e' : default_stopword.map (fun s => some (ascii s)) = default_stopword.map (some ∘ ascii) := rfl
    rw [e', e, bind_ok]; rfl
  · show T.warnings = []
    rw [h3]
    decide +kernel
  · intro w
    unfold is_stopword
    rw [if_pos rfl, lookup_some]
    have := h2 w
    simp [State.start] at this
    simp [this]

/-- C38 (order of calls).  A query before the initialization is an error, and so is a second initialization after any
successful one; a failed initialization does not continue. -/
theorem c38_calls (U : Unicode) (prop : Nat → Word.WB) (nfc : List Nat → Option (List Nat)) (junk : List Nat) (junk' : Nat) :
    (∀ w, is_stopword w State.start = .err "stopwords not initialized") ∧
    ∀ (file file' : Option (List Nat)) (S T : State), init_stopwords U prop nfc junk junk' file S = .ok T →
      init_stopwords U prop nfc junk junk' file' T = .err "stopwords already initialized" := by
  refine ⟨fun w => rfl, ?_⟩
  intro file file' S T h
  unfold init_stopwords at h
  split at h
  · cases h
  · obtain ⟨S', _, h⟩ := bind_eq_ok.1 h
    cases h
    unfold init_stopwords
    rw [if_pos rfl]

/-! Non-vacuity -/

def sampleFile : List Nat := ascii "The and THE"

example : read_text sampleUnicode [0, 0, 0, 0, 0] [] sampleFile textopt =
    .ok ((ascii "the and the").map (fun v => ⟨false, v⟩), textopt) := by decide +kernel
example : Word.find_words sampleUnicode Word.wbProp some 0 ((ascii "the and the").map (fun v => ⟨false, v⟩)) =
    .ok ((["the", "and", "the"].map ascii).map some) := by decide +kernel
example : repeated [] (["the", "and", "the"].map ascii) = [ascii "the"] := by decide
example : ascii "your" ∈ default_stopword.map ascii ∧ ascii "ocr" ∉ default_stopword.map ascii := by decide +kernel

end Ocr.Stopword
