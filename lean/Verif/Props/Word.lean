import Verif.Proof.WordUax
import Verif.Props.Text

/-!
# C35, C36, C37: word segmentation
-/

namespace Ocr.Word
open WB Res Text

/-! ## C37 -/

/-- C37 (search).  For every table of disjoint ascending ranges the binary search terminates without an invalid access and
returns the property of the range containing the value, or Other. -/
theorem c37_search (table : List Range) (hs : SortedTable table) (v : Nat) :
    ∃ p, propertyIn table v = .ok p ∧ Assigned table v p ∧ ∀ q, Assigned table v q → q = p := by
  obtain ⟨p, h1, h2⟩ := search_spec table hs v table.length 0 (table.length - 1) (by omega) (by omega) (by omega)
    (fun i _ h => by omega) (fun i h h' => by omega)
  exact ⟨p, h1, h2, fun q hq => assigned_unique hs hq h2⟩

/-- Are the ranges from here on in order and above `stop`? -/
def ascending : (stop : Nat) → List Range → Bool
  | _, [] => true
  | stop, r :: rs => decide (stop < r.start) && decide (r.start ≤ r.stop) && ascending r.stop rs

theorem ascending_above : ∀ (table : List Range) (stop : Nat), ascending stop table = true → ∀ r ∈ table, stop < r.start := by
  intro table
  induction table with
  | nil => intro _ _ r h; cases h
  | cons r rs ih =>
    intro stop h x hx
    simp only [ascending, Bool.and_eq_true, decide_eq_true_eq] at h
    rcases List.mem_cons.1 hx with rfl | hx
    · exact h.1.1
    · have := ih _ h.2 x hx; omega

theorem ascending_sorted : ∀ (table : List Range) (stop : Nat), ascending stop table = true → SortedTable table := by
  intro table
  induction table with
  | nil => intro _ _; exact ⟨by simp, .nil⟩
  | cons r rs ih =>
    intro stop h
    simp only [ascending, Bool.and_eq_true, decide_eq_true_eq] at h
    obtain ⟨h1, h2⟩ := ih _ h.2
    refine ⟨?_, .cons (ascending_above rs _ h.2) h2⟩
    intro x hx
    rcases List.mem_cons.1 hx with rfl | hx
    · exact h.1.2
    · exact h1 x hx

/-- C37 (table).  The table of word break properties consists of disjoint ranges in ascending order. -/
theorem c37_table : SortedTable WORD_BREAK_PROPERTY := ascending_sorted _ 0 (by decide +kernel)

/-- C37 (lookup).  `property` is defined for every value and returns the property the table assigns to it. -/
theorem c37_property (v : Nat) : ∃ p, property v = .ok p ∧ Assigned WORD_BREAK_PROPERTY v p ∧
    ∀ q, Assigned WORD_BREAK_PROPERTY v q → q = p := c37_search _ c37_table v

/-- The word break property of a value. -/
def wbProp (v : Nat) : WB := match property v with
  | .ok p => p
  | _ => Other

/-! ## C35 and C36 -/

/-- C35, C36.  Every text that has a character other than Extend and Format is cut into nonempty segments exactly where the
rules, evaluated on the whole text with Extend and Format skipped, demand it; the words are the strings of the segments that
start with a word character.  The program terminates without an invalid access. -/
theorem c35_words (U : Unicode) (prop : Nat → WB) (nfc : List Nat → Option (List Nat)) (junk : Nat) (text : List Ch)
    (hv : ∀ c ∈ text, c.value < 0x110000) (h : text = [] ∨ ∃ c ∈ text, isExt (prop c.value) = false) :
    ∃ segs, CutAt (SkipBreak prop) (text.map (·.value)) segs ∧ find_words U prop nfc junk text = .ok (wordsOf U nfc segs) := by
  obtain ⟨e, gs, h1, h2, h3⟩ := exists_groups prop (text.map (·.value))
  unfold find_words
  by_cases h0 : gs = []
  · subst h0
    have hnil : text = [] := by
      rcases h with h | ⟨c, hc, hx⟩
      · exact h
      · have : c.value ∈ e := by
          have := List.mem_map_of_mem (f := fun c : Ch => c.value) hc
          rw [h1] at this
          simpa [flat] using this
        have := h2 _ this
        unfold E at this
        rw [this] at hx; cases hx
    subst hnil
    refine ⟨[], ⟨rfl, by simp, ?_⟩, by rw [wordsLoop.eq_def]; rfl⟩
    intro before after h hb _
    simp at h
    exact absurd h.1 hb
  · have hlen : gs.length ≤ text.length := by
      have h4 : text.length = (e ++ flat gs).length := by rw [← h1]; simp
      have : ∀ gs : List Group, gs.length ≤ (flat gs).length := by
        intro gs
        induction gs with
        | nil => simp
        | cons g gs ih => rw [flat_cons]; simp; omega
      have := this gs
      rw [h4, List.length_append]
      omega
    rw [h1]
    refine ⟨_, segs_cutAt h2 h3 h0, wordsLoop_spec U nfc junk _ gs rfl _ e hlen h3 h2 h0 ?_⟩
    intro v hv'
    rw [← h1] at hv'
    obtain ⟨c, hc, rfl⟩ := List.mem_map.1 hv'
    exact hv c hc

/-- C35 (exception).  A text consisting only of Extend and Format characters yields no word, whatever its characters. -/
theorem c35_dropped (U : Unicode) (prop : Nat → WB) (nfc : List Nat → Option (List Nat)) (junk : Nat) (text : List Ch)
    (h : ∀ c ∈ text, isExt (prop c.value) = true) : find_words U prop nfc junk text = .ok [] := by
  unfold find_words
  rw [wordsLoop.eq_def]
  simp only
  rw [find_next_ext (by
    intro x hx
    obtain ⟨c, hc, rfl⟩ := List.mem_map.1 hx
    exact h c hc), bind_ok]
  cases text <;> rfl

/-- C36 (UAX #29).  If no Extend or Format character stands at the start of the text or directly after CR, LF or Newline, the
cuts are exactly those of UAX #29. -/
theorem c36_uax (U : Unicode) (prop : Nat → WB) (nfc : List Nat → Option (List Nat)) (junk : Nat) (text : List Ch)
    (hv : ∀ c ∈ text, c.value < 0x110000) (h : Attached prop (text.map (·.value))) :
    ∃ segs, CutAt (UaxBreak prop) (text.map (·.value)) segs ∧ find_words U prop nfc junk text = .ok (wordsOf U nfc segs) := by
  obtain ⟨segs, h1, h2⟩ := c35_words U prop nfc junk text hv (by
    cases text with
    | nil => exact .inl rfl
    | cons c text =>
      refine .inr ⟨c, by simp, ?_⟩
      cases hc : isExt (prop c.value) with
      | false => rfl
      | true =>
        obtain ⟨w, hw, _⟩ := h [] c.value _ rfl hc
        cases hw)
  refine ⟨segs, ⟨h1.whole, h1.nonempty, ?_⟩, h2⟩
  intro before after e hb ha
  rw [h1.cut before after e hb ha, uax_eq h before after e hb ha]

/-- C36 (uniqueness).  The cuts determine the segments. -/
theorem c36_unique (brk : List Nat → List Nat → Bool) (text : List Nat) (s t : List (List Nat)) (hs : CutAt brk text s)
    (ht : CutAt brk text t) : s = t := cutAt_unique hs ht

/-- C36 (deviation).  UAX #29 demands boundaries after CR and before LF when an Extend character is between them, and after
an Extend character at the start of the text; the program cuts at none of these places. -/
theorem c36_deviation (prop : Nat → WB) (x y z : Nat) (hx : prop x = CR) (hy : prop y = Extend) (hz : prop z = LF) :
    (UaxBreak prop [x] [y, z] = true ∧ SkipBreak prop [x] [y, z] = false) ∧
    (UaxBreak prop [x, y] [z] = true ∧ SkipBreak prop [x, y] [z] = false) ∧
    ∀ w, isExt (prop w) = false → isNewline (prop w) = false → UaxBreak prop [y] [w] = true ∧ SkipBreak prop [y] [w] = false := by
  refine ⟨?_, ?_, ?_⟩
  · simp [UaxBreak, SkipBreak, hx, hy, hz, isNewline, isExt]
  · simp [UaxBreak, SkipBreak, hx, hy, hz, isNewline, isExt, boundary]
  · intro w hw hw'
    constructor
    · simp only [UaxBreak, List.map_cons, List.map_nil, hy, List.getLast?_singleton, List.head?_cons, collapse]
      rw [if_neg (by simp), if_neg (by simp [hw']; decide), if_neg (by simp [hw])]
      simp [forbidden, rules, matchesCtx, ahLetter, midNumLetQ]
    · simp [SkipBreak, hy, boundary, isExt]

/-! ## Non-vacuity -/

def chars (s : String) : List Ch := (ascii s).map (fun v => ⟨false, v⟩)

/-- The apostrophe, the comma and the full stop do not cut; the blank, the hyphen and the full stop at the end do. -/
example : find_words sampleUnicode wbProp some 0 (chars "don't buy a 1,200.5-ton_2 ox.") =
    .ok (["don't", "buy", "a", "1,200.5", "ton_2", "ox"].map (fun w => some (ascii w))) := by decide +kernel

/-- A combining acute accent between a letter and an apostrophe. -/
example : find_words sampleUnicode wbProp some 0 [⟨false, 97⟩, ⟨false, 0x301⟩, ⟨false, 39⟩, ⟨false, 98⟩] =
    .ok [some [97, 0xCC, 0x81, 39, 98]] := by decide +kernel

example : property 0x301 = .ok Extend ∧ property 0x10FFFF = .ok Other ∧ property 0x1F1E6 = .ok Regional_Indicator := by decide +kernel

example : ∃ segs, CutAt (SkipBreak wbProp) (ascii "it's me") segs ∧
    find_words sampleUnicode wbProp some 0 (chars "it's me") = .ok (wordsOf sampleUnicode some segs) :=
  c35_words sampleUnicode wbProp some 0 (chars "it's me") (by decide) (.inr ⟨⟨false, 105⟩, by decide, by decide +kernel⟩)

/-- An accent alone: no word, although it may start one. -/
example : find_words sampleUnicode wbProp some 0 [⟨false, 0x301⟩] = .ok [] ∧ is_word_start ⟨fun _ => .MN, id⟩ 0x301 = true :=
  ⟨c35_dropped _ _ _ _ _ (by decide +kernel), rfl⟩

example : ∃ segs, CutAt (UaxBreak wbProp) (ascii "a-b") segs ∧
    find_words sampleUnicode wbProp some 0 (chars "a-b") = .ok (wordsOf sampleUnicode some segs) := by
  apply c36_uax sampleUnicode wbProp some 0 (chars "a-b") (by decide)
  have key : ∀ v ∈ ascii "a-b", isExt (wbProp v) = false := by decide +kernel
  intro before v after e hx
  have hm : v ∈ ascii "a-b" := by
    have : (chars "a-b").map (·.value) = ascii "a-b" := by decide
    rw [← this, e]; simp
  rw [key v hm] at hx; cases hx

end Ocr.Word
