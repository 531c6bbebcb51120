import Verif.Spec.Synctext
import Verif.Proof.Accrpt
import Verif.Proof.Synchronize
import Verif.Proof.Transpose

namespace Ocr.Synctext
open Text Sync Res

/-! ## Characters -/

theorem drawn_bytes {U : Unicode} (F : UnicodeFacts U) (v : Nat) :
    ∀ b ∈ drawn U v, b ≠ 0 ∧ (b = v ∨ 128 ≤ b ∨ b = 60 ∨ b = 62 ∨ HexDig b) := by
  intro b hb
  unfold drawn at hb
  split at hb
  · rename_i h
    simp at hb; omega
  · split at hb
    · rename_i h10 hg
      rcases List.mem_append.1 hb with hb | hb
      · split at hb
        · have := encode_hi (v := 0x25CC) (by omega) b hb
          omega
        · cases hb
      · by_cases hlt : v < 0x80
        · have : encode_char v = [v] := by unfold encode_char; rw [if_pos hlt]
          rw [this] at hb
          simp at hb
          subst hb
          refine ⟨?_, .inl rfl⟩
          rintro rfl
          rw [F.nul] at hg
          cases hg
        · have := encode_hi (by omega : 0x80 ≤ v) b hb
          omega
    · rcases List.mem_append.1 hb with hb | hb
      · rcases List.mem_append.1 hb with hb | hb
        · simp at hb; omega
        · have := hexPad_dig _ _ b hb
          refine ⟨?_, .inr (.inr (.inr (.inr this)))⟩
          unfold HexDig at this; omega
      · simp at hb; omega

theorem charString_written {U : Unicode} {v : Nat} (hv : v < 0x110000) (s : Bool) :
    charString U s v false = .ok (written U ⟨s, v⟩) := by
  unfold written drawn
  simp only
  by_cases hn : v = 10
  · subst hn
    cases s <;> simp [charString, NEWLINE, SUSPECT_MARKER] <;> decide
  by_cases hg : is_graphic U v = true
  · rw [charString_graphic (by simp [Escaped, NEWLINE, hn, hg]) hv, if_neg hn, if_pos hg]
    unfold baseCps DOTTED_CIRCLE markBytes
    split <;> by_cases h : is_combining U v = true <;> simp [h]
  · have hg' : is_graphic U v = false := by simpa using hg
    have e := charString_esc (U := U) (Or.inr hg') s
    have e' : charString U s v false = charString U s v true := by
      unfold charString
      simp [NEWLINE, hn]
    rw [e', e, if_neg hn, if_neg hg]
    unfold escBody markBytes NEWLINE
    rw [if_neg hn]
    split <;> by_cases h : v < 256 <;> simp [h]

/-- A character value that can be shown, if need be with a mark: the code points from U+100000 on that are not graphic do not fit
into the buffer with a mark. -/
def Showable (U : Unicode) (show_suspect : Bool) (v : Nat) : Prop :=
  v < 0x110000 ∧ (show_suspect = true → v = 10 ∨ is_graphic U v = true ∨ v < 0x100000)

/-- The writing of a character fits into the buffer. -/
def Fits (U : Unicode) (c : Ch) : Prop :=
  c.value < 0x110000 ∧ (c.suspect = true → c.value = 10 ∨ is_graphic U c.value = true ∨ c.value < 0x100000)

theorem char_written {U : Unicode} (F : UnicodeFacts U) {c : Ch} (h : Fits U c) :
    char_to_string U STRING_SIZE c.suspect c.value false = .ok (written U c) ∧ cstr (written U c) = written U c := by
  obtain ⟨h1, h2⟩ := h
  constructor
  · obtain ⟨s, e, hl⟩ := charString_len (U := U) h1 c.suspect false
    have e' := charString_written (U := U) h1 c.suspect
    rw [e] at e'
    have e2 := Res.ok.inj e'
    unfold char_to_string
    rw [e, bind_ok, if_pos, e2]
    · rfl
    · rw [hl]
      rintro ⟨a, b, d, e⟩
      rcases h2 a with h | h | h
      · exact b h
      · rw [h] at d; cases d
      · omega
  · refine Ngram.cstr_self ?_
    unfold written
    rintro b h0 rfl
    rcases List.mem_append.1 h0 with h0 | h0
    · split at h0 <;> simp at h0
    · exact (drawn_bytes F _ 0 h0).1 rfl

theorem Showable.fits {U : Unicode} {show_suspect : Bool} {v : Nat} (h : Showable U show_suspect v) (b : Bool) :
    Fits U ⟨show_suspect && b, v⟩ := by
  refine ⟨h.1, fun hs => h.2 ?_⟩
  cases show_suspect
  · cases hs
  · rfl

/-! ## Substrings -/

theorem rdI_nat {α : Type} {xs : List α} {i : Nat} (h : i < xs.length) : rdI xs (i : Int) = .ok xs[i] := by
  unfold rdI rd
  rw [if_neg (by omega), Int.toNat_natCast, List.getElem?_eq_getElem h]

/-- A substring within a text. -/
structure Within (n : Nat) (s : Substr) : Prop where
  start : 0 ≤ s.start
  len   : 0 ≤ s.length
  stop  : s.stop = s.start + s.length - 1
  le    : s.start + s.length ≤ n

theorem spanLoop_spec {U : Unicode} (F : UnicodeFacts U) {show_suspect : Bool} {pad : List Nat} {text : List Ch} {stop : Nat}
    (hs : stop ≤ text.length) (hf : ∀ c ∈ text, Showable U show_suspect c.value) :
    ∀ (fuel i : Nat), i ≤ stop → stop < i + fuel →
      spanLoop U show_suspect pad text ((stop : Int) - 1) fuel i =
        .ok (((text.drop i).take (stop - i)).flatMap (fun c => shown U show_suspect c ++ if c.value = 10 then pad else [])) := by
  intro fuel
  induction fuel with
  | zero => intro i h1 h2; omega
  | succ fuel ih =>
    intro i h1 h2
    rw [spanLoop]
    by_cases hi : i < stop
    · have hl : i < text.length := by omega
      have hcw := char_written F ((hf _ (List.getElem_mem hl)).fits text[i].suspect)
      rw [if_pos (by omega), rdI_nat hl]
      simp only [bind_ok]
      rw [hcw.1, bind_ok, show ((i : Int) + 1) = ((i + 1 : Nat) : Int) by omega, ih (i + 1) (by omega) (by omega), bind_ok, hcw.2]
      rw [List.drop_eq_getElem_cons hl, show stop - i = (stop - (i + 1)) + 1 by omega, List.take_succ_cons, List.flatMap_cons]
      rfl
    · rw [if_neg (by omega), show stop - i = 0 by omega]
      rfl

theorem span_spec {U : Unicode} (F : UnicodeFacts U) {show_suspect : Bool} {pad : List Nat} {text : List Ch} {s : Substr}
    (hs : Within text.length s) (hf : ∀ c ∈ text, Showable U show_suspect c.value) :
    spanLoop U show_suspect pad text s.stop (text.length + 1) s.start =
      .ok ((piece text s).flatMap (fun c => shown U show_suspect c ++ if c.value = 10 then pad else [])) := by
  obtain ⟨h1, h2, h3, h4⟩ := hs
  have := spanLoop_spec F (pad := pad) (stop := (s.start + s.length).toNat) (by omega) hf (text.length + 1) s.start.toNat (by omega) (by omega)
  rw [Int.toNat_of_nonneg h1, show (((s.start + s.length).toNat : Nat) : Int) - 1 = s.stop by omega,
    show (s.start + s.length).toNat - s.start.toNat = s.length.toNat by omega] at this
  rw [this]
  rfl

/-! ## Items -/

/-- An item describing substrings of the texts, of the same length if they are matched. -/
structure Sound (texts : List (List Ch)) (s : Sync) : Prop where
  width  : s.substr.length = texts.length
  within : ∀ t (h : t < texts.length), Within texts[t].length (s.sub t)
  same   : s.mtch ≠ none → ∀ t (h : t < texts.length), (piece texts[t] (s.sub t)).map Ch.value = (piece (texts.getD 0 []) (s.sub 0)).map Ch.value

theorem piece_length {α : Type} {text : List α} {s : Substr} (h : Within text.length s) : (piece text s).length = s.length.toNat := by
  obtain ⟨h1, h2, h3, h4⟩ := h
  unfold piece
  rw [List.length_take, List.length_drop]
  omega

/-- The character at offset `i` of a substring. -/
def at_ (text : List Ch) (s : Substr) (i : Nat) : Ch := text.getD (s.start.toNat + i) ⟨false, 0⟩

theorem rdI_at {text : List Ch} {s : Substr} {i : Nat} (h : Within text.length s) (hi : i < s.length.toNat) :
    rdI text (s.start + i) = .ok (at_ text s i) ∧ at_ text s i ∈ text := by
  obtain ⟨h1, h2, h3, h4⟩ := h
  have hl : s.start.toNat + i < text.length := by omega
  have : at_ text s i = text[s.start.toNat + i] := by unfold at_; simp [hl]
  rw [this]
  refine ⟨?_, List.getElem_mem hl⟩
  rw [← rdI_nat hl]
  congr 1
  omega

theorem suspectLoop_spec (i : Nat) : ∀ (texts : List (List Ch)) (ss : List Substr), ss.length = texts.length →
    (∀ t (h : t < texts.length), Within texts[t].length (ss.getD t ⟨0, -1, 0⟩) ∧ i < (ss.getD t ⟨0, -1, 0⟩).length.toNat) →
    suspectLoop i texts ss = .ok ((List.range texts.length).any (fun t => (at_ (texts.getD t []) (ss.getD t ⟨0, -1, 0⟩) i).suspect)) := by
  intro texts
  induction texts with
  | nil => intro ss _ _; rfl
  | cons t texts ih =>
    intro ss hl h
    rcases ss with _ | ⟨s, ss⟩
    · simp at hl
    rw [suspectLoop]
    have h0 := h 0 (by simp)
    simp only [List.getElem_cons_zero, List.getD_cons_zero] at h0
    rw [(rdI_at h0.1 h0.2).1, bind_ok]
    rw [List.length_cons, List.range_succ_eq_map, List.any_cons, List.any_map]
    simp only [List.getD_cons_zero]
    have := ih ss (by simpa using hl) (fun t ht => by
      have := h (t + 1) (by simpa using ht)
      simpa using this)
    split
    · rename_i hs
      rw [hs]; rfl
    · rename_i hs
      rw [this]
      simp only [Bool.not_eq_true] at hs
      rw [hs, Bool.false_or]
      congr 2

/-- The character at offset `i` of a match. -/
def commonAt (texts : List (List Ch)) (s : Sync) (i : Nat) : Ch :=
  ⟨(List.range texts.length).any (fun t => (at_ (texts.getD t []) (s.sub t) i).suspect), (at_ (texts.getD 0 []) (s.sub 0) i).value⟩

theorem common_eq (texts : List (List Ch)) (s : Sync) : common texts s = (List.range' 0 (s.sub 0).length.toNat).map (commonAt texts s) := by
  rw [← List.range_eq_range']
  rfl

theorem matchLoop_spec {U : Unicode} (F : UnicodeFacts U) {show_suspect : Bool} {texts : List (List Ch)} {s : Sync} (hs : Sound texts s)
    (hm : s.mtch ≠ none) (h0 : 0 < texts.length) (hf : ∀ t ∈ texts, ∀ c ∈ t, Showable U show_suspect c.value) :
    ∀ (count i : Nat), i + count = (s.sub 0).length.toNat →
      matchLoop U show_suspect texts s.substr count i =
        .ok (((List.range' i count).map (commonAt texts s)).flatMap (shown U show_suspect)) := by
  have hlen : ∀ t (h : t < texts.length), (s.sub t).length.toNat = (s.sub 0).length.toNat := by
    intro t h
    have := congrArg List.length (hs.same hm t h)
    rw [List.length_map, List.length_map, piece_length (hs.within t h)] at this
    have e : texts.getD 0 [] = texts[0] := by simp [h0]
    rw [e, piece_length (hs.within 0 h0)] at this
    exact this
  intro count
  induction count with
  | zero => intro i _; rfl
  | succ count ih =>
    intro i hi
    rw [matchLoop]
    have hsus : (if show_suspect = true then suspectLoop (i : Int) texts s.substr else pure false : Res Bool) =
        .ok (show_suspect && (commonAt texts s i).suspect) := by
      cases show_suspect with
      | false => rfl
      | true =>
        rw [if_pos rfl, suspectLoop_spec i texts s.substr hs.width (fun t ht => ⟨hs.within t ht, by
          have := hlen t ht
          show i < (s.sub t).length.toNat
          omega⟩)]
        rfl
    have e0 : texts.getD 0 [] = texts[0] := by simp [h0]
    have ht0 : rd texts 0 = .ok texts[0] := by unfold rd; rw [List.getElem?_eq_getElem h0]
    have hs0 : rd s.substr 0 = .ok (s.sub 0) := by
      have : 0 < s.substr.length := by rw [hs.width]; exact h0
      unfold rd Sync.sub
      rw [List.getElem?_eq_getElem this]
      simp [this]
    have hc := rdI_at (hs.within 0 h0) (i := i) (by omega)
    have hv : (commonAt texts s i).value = (at_ texts[0] (s.sub 0) i).value := by unfold commonAt; rw [e0]
    have hcw := char_written F ((hf _ (List.getElem_mem h0) _ hc.2).fits (commonAt texts s i).suspect)
    simp only at hcw
    rw [hsus, bind_ok, ht0, bind_ok, hs0, bind_ok, hc.1, bind_ok, hcw.1, bind_ok,
      show ((i : Int) + 1) = ((i + 1 : Nat) : Int) by omega, ih (i + 1) (by omega), bind_ok, hcw.2]
    rw [List.range'_succ, List.map_cons, List.flatMap_cons]
    unfold shown
    rw [← hv]
    rfl

theorem rd_sub {texts : List (List Ch)} {s : Sync} (hs : Sound texts s) (h0 : 0 < texts.length) : rd s.substr 0 = .ok (s.sub 0) := by
  have : 0 < s.substr.length := by rw [hs.width]; exact h0
  unfold rd Sync.sub
  rw [List.getElem?_eq_getElem this]
  simp [this]

theorem matchesLoop_spec {U : Unicode} (F : UnicodeFacts U) {show_suspect : Bool} {texts : List (List Ch)} (h0 : 0 < texts.length)
    (hf : ∀ t ∈ texts, ∀ c ∈ t, Showable U show_suspect c.value) : ∀ (l : List Sync), (∀ s ∈ l, Sound texts s) → ∀ k,
      matchesLoop U show_suspect texts l k = .ok ((docOf texts l).head.flatMap (shown U show_suspect) ++
        ((docOf texts l).notes.zipIdx (k + 1)).flatMap (fun n => ascii "{" ++ decDigits n.2 ++ ascii "}" ++
          n.1.2.flatMap (shown U show_suspect))) := by
  intro l
  induction l with
  | nil => intro _ k; rfl
  | cons s l ih =>
    intro hl k
    have hs := hl s (by simp)
    have ih := ih (fun s h => hl s (by simp [h]))
    rw [matchesLoop, docOf]
    cases hm : s.mtch with
    | some q =>
      simp only
      rw [rd_sub hs h0, bind_ok]
      have := matchLoop_spec F hs (by rw [hm]; simp) h0 hf (s.sub 0).length.toNat 0 (by omega)
      rw [show ((0 : Nat) : Int) = 0 from rfl] at this
      rw [this, bind_ok, ih k, bind_ok, if_pos (by simp), common_eq]
      simp
    | none =>
      simp only
      rw [ih (k + 1), bind_ok, if_neg (by simp)]
      simp

theorem versionsLoop_spec {U : Unicode} (F : UnicodeFacts U) {show_suspect : Bool} {m : Nat} : ∀ (texts : List (List Ch)) (ss : List Substr)
    (names : List (List Nat)), ss.length = texts.length → names.length = texts.length →
    (∀ t ∈ texts, ∀ c ∈ t, Showable U show_suspect c.value) →
    (∀ t (h : t < texts.length), Within texts[t].length (ss.getD t ⟨0, -1, 0⟩)) →
    versionsLoop U show_suspect m texts ss names =
      .ok (List.zipWith (version (shown U show_suspect) m) names
        ((List.range texts.length).map (fun t => piece (texts.getD t []) (ss.getD t ⟨0, -1, 0⟩)))).flatten := by
  intro texts
  induction texts with
  | nil => intro ss names _ _ _ _; rcases names with _ | ⟨f, names⟩ <;> rfl
  | cons t texts ih =>
    intro ss names h1 h2 hf hw
    rcases ss with _ | ⟨s, ss⟩
    · simp at h1
    rcases names with _ | ⟨f, names⟩
    · simp at h2
    rw [versionsLoop]
    have hw0 := hw 0 (by simp)
    simp only [List.getElem_cons_zero, List.getD_cons_zero] at hw0
    rw [span_spec F hw0 (hf t (by simp)), bind_ok]
    rw [ih ss names (by simpa using h1) (by simpa using h2) (fun t h => hf t (by simp [h])) (fun t ht => by
      have := hw (t + 1) (by simpa using ht)
      simpa using this), bind_ok]
    rw [List.length_cons, List.range_succ_eq_map, List.map_cons, List.map_map, List.zipWith_cons_cons, List.flatten_cons]
    have hp : padRight m [] ++ ascii "  " = List.replicate (m + 2) 32 := by
      unfold padRight
      rw [List.replicate_add]
      rfl
    rw [hp]
    simp only [List.getD_cons_zero]
    unfold version padRight
    rfl

theorem differencesLoop_spec {U : Unicode} (F : UnicodeFacts U) {show_suspect : Bool} {m : Nat} {texts : List (List Ch)}
    {names : List (List Nat)} (hn : names.length = texts.length)
    (hf : ∀ t ∈ texts, ∀ c ∈ t, Showable U show_suspect c.value) : ∀ (l : List Sync), (∀ s ∈ l, Sound texts s) → ∀ k,
      differencesLoop U show_suspect m texts names l k = .ok (((docOf texts l).notes.zipIdx (k + 1)).flatMap (fun n =>
        write_separator ++ ascii "{" ++ decDigits n.2 ++ ascii "}\n" ++
          (List.zipWith (version (shown U show_suspect) m) names n.1.1).flatten)) := by
  intro l
  induction l with
  | nil => intro _ k; rfl
  | cons s l ih =>
    intro hl k
    have hs := hl s (by simp)
    have ih := ih (fun s h => hl s (by simp [h]))
    rw [differencesLoop, docOf]
    cases hm : s.mtch with
    | some q =>
      simp only
      rw [ih k, if_pos (by simp)]
    | none =>
      simp only
      rw [versionsLoop_spec F texts s.substr names hs.width hn hf hs.within, bind_ok, ih (k + 1), bind_ok, if_neg (by simp)]
      simp only [List.zipIdx_cons, List.flatMap_cons]
      rfl

theorem maxLen_eq (names : List (List Nat)) : maxLen names = (names.map List.length).foldr max 0 := by
  have : ∀ (names : List (List Nat)) a, names.foldl (fun m s => max m s.length) a = max a ((names.map List.length).foldr max 0) := by
    intro names
    induction names with
    | nil => intro a; simp
    | cons s names ih =>
      intro a
      rw [List.foldl_cons, ih]
      simp only [List.map_cons, List.foldr_cons]
      omega
  unfold maxLen
  rw [this]
  omega

theorem separator_eq : write_separator = rule := by decide

/-- The printout of an alignment. -/
theorem printed {U : Unicode} (F : UnicodeFacts U) {show_suspect : Bool} {texts : List (List Ch)} {names : List (List Nat)} {l : List Sync}
    (h0 : 0 < texts.length) (hn : names.length = texts.length) (hf : ∀ t ∈ texts, ∀ c ∈ t, Showable U show_suspect c.value)
    (hl : ∀ s ∈ l, Sound texts s) (hm : ∃ f ∈ names, f ≠ []) (hm' : ∀ f ∈ names, f.length < 10 ^ 16) :
    (do let out1 ← write_matches U show_suspect l texts
        let out2 ← write_differences U show_suspect l texts names
        return out1 ++ out2 ++ write_separator : Res (List Nat)) =
      .ok ((docOf texts l).print (shown U show_suspect) names) := by
  have hpos : maxLen names ≠ 0 := by
    rw [maxLen_eq]
    obtain ⟨f, hf, hne⟩ := hm
    have : ∀ names : List (List Nat), f ∈ names → f.length ≤ (names.map List.length).foldr max 0 := by
      intro names
      induction names with
      | nil => intro h; cases h
      | cons g names ih =>
        intro h
        simp only [List.map_cons, List.foldr_cons]
        rcases List.mem_cons.1 h with rfl | h
        · omega
        · have := ih h; omega
    have := this names hf
    have := List.length_pos_iff.2 hne
    omega
  have hlt : maxLen names < 10 ^ 16 := by
    rw [maxLen_eq]
    have : ∀ names : List (List Nat), (∀ f ∈ names, f.length < 10 ^ 16) → (names.map List.length).foldr max 0 < 10 ^ 16 := by
      intro names
      induction names with
      | nil => intro _; norm_num
      | cons g names ih =>
        intro h
        simp only [List.map_cons, List.foldr_cons]
        have := ih (fun f hf => h f (by simp [hf]))
        have := h g (by simp)
        omega
    exact this names hm'
  have hd : ∀ k v, v < 10 ^ (k + 1) → (decDigits v).length ≤ k + 1 := by
    intro k
    induction k with
    | zero => intro v hv; rw [decDigits, if_pos (by omega)]; simp
    | succ k ih =>
      intro v hv
      rw [decDigits]
      split
      · simp
      · have := ih (v / 10) (by rw [Nat.div_lt_iff_lt_mul (by omega)]; rw [← pow_succ]; exact hv)
        simp only [List.length_append, List.length_cons, List.length_nil]
        omega
  unfold write_matches write_differences
  rw [matchesLoop_spec F h0 hf l hl 0, bind_ok]
  rw [if_neg (by
    rintro (h | h)
    · exact hpos h
    · have := hd 15 _ hlt
      simp only [List.length_append] at h
      have e1 : (ascii "%-").length = 2 := by decide
      have e2 : (ascii "s").length = 1 := by decide
      omega)]
  rw [differencesLoop_spec F hn hf l hl 0]
  simp only [pure_eq, bind_ok]
  unfold Document.print Document.overview
  rw [maxLen_eq, separator_eq]

/-! ## The document of an alignment -/

theorem getD_texts {α : Type} {texts : List (List α)} {t : Nat} (h : t < texts.length) : texts.getD t [] = texts[t] := by simp [h]

theorem piece_map {α β : Type} (f : α → β) (text : List α) (s : Substr) : piece (text.map f) s = (piece text s).map f := by
  unfold piece; rw [← List.map_drop, ← List.map_take]

theorem sound_of_alignment {texts : List (List Ch)} {l : List Sync} (h : IsAlignment (texts.map (fun t => t.map Ch.value)) l) :
    ∀ s ∈ l, Sound texts s := by
  intro s hs
  refine ⟨by rw [h.width s hs, List.length_map], ?_, ?_⟩
  · intro t ht
    obtain ⟨pre, post, rfl⟩ := List.append_of_mem hs
    obtain ⟨h1, h2, h3, h4⟩ := item_bounds h (t := t) (by simpa using ht)
    simp only [List.getElem_map, List.length_map] at h4
    exact ⟨h1, h3, h2, by omega⟩
  · intro hm t ht
    obtain ⟨w, _, _, hw⟩ := h.matched s hs hm
    have e1 := hw t (by simpa using ht)
    have e2 := hw 0 (by rw [List.length_map]; omega)
    simp only [List.getElem_map] at e1 e2
    rw [piece_map] at e1 e2
    rw [e1, getD_texts (by omega), e2]

theorem common_values {texts : List (List Ch)} {s : Sync} (h0 : 0 < texts.length) (hs : Sound texts s) :
    (common texts s).map Ch.value = (piece (texts.getD 0 []) (s.sub 0)).map Ch.value := by
  have hw := hs.within 0 h0
  rw [getD_texts h0]
  refine List.ext_getElem ?_ ?_
  · rw [List.length_map, List.length_map, piece_length hw]
    unfold common
    simp
  · intro i h1 h2
    unfold common piece
    have hlen : i < (s.sub 0).length.toNat := by
      rw [List.length_map, piece_length hw] at h2; exact h2
    obtain ⟨a, b, c, d⟩ := hw
    have : (s.sub 0).start.toNat + i < texts[0].length := by omega
    simp [h0, this]

theorem doc_text {texts : List (List Ch)} (h0 : 0 < texts.length) {t : Nat} (ht : t < texts.length) : ∀ (l : List Sync) (p q : Nat),
    (∀ s ∈ l, Sound texts s) → Tiles p (l.map (·.sub t)) q → q ≤ texts[t].length →
    ((docOf texts l).text t).map Ch.value = ((texts[t].drop p).take (q - p)).map Ch.value := by
  intro l
  induction l with
  | nil =>
    intro p q _ h _
    have : (p : Int) = q := h
    have : q - p = 0 := by omega
    rw [this]
    rfl
  | cons s l ih =>
    intro p q hl ht' hq
    obtain ⟨h1, h2, h3, h4⟩ := ht'
    simp only at h1 h2 h3 h4
    have hs := hl s (by simp)
    have hle := tiles_le h4
    rw [show (p : Int) + (s.sub t).length = ((p + (s.sub t).length.toNat : Nat) : Int) by omega] at h4
    have ih := ih _ q (fun x hx => hl x (by simp [hx])) h4 hq
    have hsplit : (texts[t].drop p).take (q - p) = piece texts[t] (s.sub t) ++ (texts[t].drop (p + (s.sub t).length.toNat)).take (q - (p + (s.sub t).length.toNat)) := by
      unfold piece
      rw [h1, Int.toNat_natCast, ← List.drop_drop, show q - p = (s.sub t).length.toNat + (q - (p + (s.sub t).length.toNat)) by omega, List.take_add]
    rw [hsplit, List.map_append, ← ih, docOf]
    cases hm : s.mtch with
    | some c =>
      rw [if_pos (by simp)]
      unfold Document.text
      simp only [List.append_assoc]
      rw [List.map_append, common_values h0 hs, ← hs.same (by rw [hm]; simp) t ht]
    | none =>
      rw [if_neg (by simp)]
      unfold Document.text
      simp [ht]

theorem readTexts_length {U : Unicode} {junk : List Nat} {fs : List Nat → Option (List Nat)} : ∀ (names : List (List Nat)) (opt : Textopt)
    (texts : List (List Ch)), readTexts U junk fs names opt = .ok texts → texts.length = names.length := by
  intro names
  induction names with
  | nil => intro opt texts h; cases Res.ok.inj h; rfl
  | cons f names ih =>
    intro opt texts h
    rw [readTexts] at h
    split at h
    · cases h
    · obtain ⟨x, _, h⟩ := bind_eq_ok.1 h
      obtain ⟨rest, h2, h⟩ := bind_eq_ok.1 h
      cases Res.ok.inj h
      simp [ih _ _ h2]

/-! ## Transposed matches -/

/-- The parts of one of the two texts. -/
def partsOf (cells : Nat → Int) (text : List Ch) (l : List Sync) : List (Option Nat × List Ch) :=
  l.map (fun s => (s.mtch.map (fun q => (cells q).toNat), piece text (s.sub 0)))

theorem transposedLoop_spec {U : Unicode} (F : UnicodeFacts U) {show_suspect : Bool} {cells : Nat → Int} {text : List Ch}
    (hf : ∀ c ∈ text, Showable U show_suspect c.value) : ∀ (l : List Sync), (∀ s ∈ l, Sound [text] s) →
    (∀ s ∈ l, ∀ q, s.mtch = some q → 0 ≤ cells q) →
    transposedLoop U show_suspect cells text l = .ok (printParts (shown U show_suspect) (partsOf cells text l)) := by
  intro l
  induction l with
  | nil => intro _ _; rfl
  | cons s l ih =>
    intro hl hc
    have hs := hl s (by simp)
    have ih := ih (fun x hx => hl x (by simp [hx])) (fun x hx => hc x (by simp [hx]))
    rw [transposedLoop]
    have e1 : s.only = .ok (s.sub 0) := rd_sub hs (by simp)
    have hw : Within text.length (s.sub 0) := hs.within 0 (by simp)
    rw [e1, bind_ok, span_spec F hw hf, bind_ok, ih, bind_ok]
    unfold printParts partsOf
    cases hm : s.mtch with
    | some q =>
      have hq := hc s (by simp) q hm
      have : fmtInt (cells q) = decDigits (cells q).toNat := by
        unfold fmtInt
        rw [if_neg (by omega), show (cells q).natAbs = (cells q).toNat by omega]
      simp [hm, this]
    | none => simp [hm]

end Ocr.Synctext
