import Verif.Proof.Header
import Verif.Proof.Spacing

/-!
# C06-C14: reading and writing text
-/

namespace Ocr.Text

/-- A small Unicode database used in the examples. -/
def sampleUnicode : Unicode where
  cat := fun c =>
    if c < 32 then .CC else if c = 32 then .ZS
    else if 48 ≤ c ∧ c ≤ 57 then .ND else if 65 ≤ c ∧ c ≤ 90 then .LU else if 97 ≤ c ∧ c ≤ 122 then .LL
    else if c < 127 then .PO else if 0x300 ≤ c ∧ c ≤ 0x36F then .MN else if c = 0x25CC then .SO
    else if 0xD800 ≤ c ∧ c < 0xE000 then .CS else if c = 0x2003 then .ZS else .CN
  tolower := fun c => if 65 ≤ c ∧ c ≤ 90 then c + 32 else c

theorem sampleFacts : UnicodeFacts sampleUnicode where
  nul := by decide
  surrogate := by
    intro v h1 h2
    unfold is_graphic sampleUnicode
    rw [if_neg (by omega)]
    simp only
    rw [if_neg (by omega), if_neg (by omega), if_neg (by omega), if_neg (by omega), if_neg (by omega),
      if_neg (by omega), if_neg (by omega), if_neg (by omega), if_pos (by omega)]
  ascii := by decide +kernel

/-- The options of a plain read: no header, no markers, no normalization. -/
def plainOpt : Textopt := ⟨false, false, 0, false, false, false⟩

/-- C06 (acceptance).  Reading the UTF-8 encoding of any sequence of scalar values appends exactly those values,
unmarked, whatever the decoding buffer held before. -/
theorem c06_decodes (U : Unicode) (junk : List Nat) (text : List Ch) (cs : List Char) :
    read_text U junk text (utf8 cs) plainOpt =
      .ok (text ++ cs.map (fun c => ⟨false, c.toNat⟩), plainOpt) := by
  unfold read_text read_contents plainOpt
  simp only [Bool.false_eq_true, if_false, Res.pure_eq, Res.bind_ok]
  rw [readLoop_utf8 false _ cs _ junk false none (by simp) (by simp) (le_refl _)]
  simp

/-- C06 (rejection).  Reading a file that is not the encoding of any sequence of scalar values stops with an error
message, whatever the options (`find_header` aside). -/
theorem c06_rejects (U : Unicode) (junk : List Nat) (text : List Ch) (file : List Nat) (opt : Textopt)
    (hh : opt.find_header = false) (hfile : Bytes file) (hjunk : Bytes junk) (h : ∀ cs, file ≠ utf8 cs) :
    ∃ msg, read_text U junk text file opt = .err msg := by
  unfold read_text read_contents
  rcases readLoop_cases opt.find_markers (if opt.suspect_marker ≠ 0 then opt.suspect_marker else SUSPECT_MARKER)
      file.length file junk false hfile hjunk (le_refl _) with ⟨cs, _, e, _⟩ | ⟨msg, e⟩
  · exact absurd e (h cs)
  · refine ⟨msg, ?_⟩
    simp only [hh, Bool.false_eq_true, if_false, Res.pure_eq, Res.bind_ok, e, Res.bind_err]

example : read_text sampleUnicode [0, 0, 0, 0] [] [0x61, 0xC3, 0xA9, 0xF0, 0x9F, 0x98, 0x80] plainOpt =
    .ok ([⟨false, 0x61⟩, ⟨false, 0xE9⟩, ⟨false, 0x1F600⟩], plainOpt) := by decide +kernel
example : utf8 ['a', 'é', '😀'] = [0x61, 0xC3, 0xA9, 0xF0, 0x9F, 0x98, 0x80] := by decide
/-- An overlong encoding: bytes that are not the encoding of anything. -/
example : Bytes [0xC0, 0x80] ∧ ∀ cs, [0xC0, 0x80] ≠ utf8 cs := by
  refine ⟨by intro b hb; simp at hb; omega, ?_⟩
  intro cs e
  cases cs with
  | nil => simp [utf8] at e
  | cons c cs =>
    rw [utf8_cons] at e
    have := iterate_encode (scalar_char c) (utf8 cs)
    rw [← e] at this
    simp [iterate] at this

/-- C07.  With markers on, the characters read are the non-marker characters of the file in order, suspect exactly if
directly preceded by a marker (`marked` says this position by position). -/
theorem c07_markers (U : Unicode) (junk : List Nat) (text : List Ch) (cs : List Char) (marker : Nat) :
    ∃ opt, read_text U junk text (utf8 cs) ⟨false, true, marker, false, false, false⟩ =
      .ok (text ++ marked (if marker ≠ 0 then marker else 94) (cs.map Char.toNat), opt) := by
  refine ⟨⟨false, true, marker, false, false, false⟩, ?_⟩
  unfold read_text read_contents
  simp only [Bool.false_eq_true, if_false, Res.pure_eq, Res.bind_ok]
  rw [readLoop_utf8 true _ cs _ junk false none (by simp) (by simp) (le_refl _)]
  simp only [if_true, Res.bind_ok]
  rfl

example : marked 94 [94, 94, 97, 98, 94, 99, 94] = [⟨true, 97⟩, ⟨false, 98⟩, ⟨true, 99⟩] := by decide

/-- C08.  Normalized text is in normal form, and normalizing again changes nothing; for every classification of
blanks. -/
theorem c08_normal_form (U : Unicode) (cs : List Ch) :
    NormalForm U (compress_spacing U cs) ∧
      compress_spacing U (compress_spacing U cs) = compress_spacing U cs := by
  refine ⟨?_, compress_idem U cs⟩
  obtain ⟨g0, parts, h, rfl⟩ := parts_exist U cs
  rw [compress_parts U _ _ h]
  exact normal_form U parts h.2

example : compress_spacing sampleUnicode
    [⟨false, 32⟩, ⟨false, 10⟩, ⟨false, 97⟩, ⟨true, 0x2003⟩, ⟨false, 32⟩, ⟨false, 98⟩, ⟨false, 32⟩, ⟨false, 10⟩,
      ⟨false, 10⟩, ⟨false, 32⟩] = [⟨false, 97⟩, ⟨true, 32⟩, ⟨false, 98⟩, ⟨false, 10⟩] := by decide +kernel

/-- C09.  Normalization turns any text (every text has the form `assemble g0 parts`: a gap, then visible characters each
followed by a gap) into its visible characters, unchanged and in order, separated by what `innerGap` says.  Text
that was there before the read is not touched. -/
theorem c09_content (U : Unicode) (junk : List Nat) (old : List Ch) (file : List Nat) (opt : Textopt)
    (hn : opt.normalize = true) (hc : opt.case_insensitive = false) :
    -- the read either fails or appends the normal form of what was read
    (∀ new opt', read_text U junk old file opt = .ok (new, opt') →
      ∃ raw, read_text U junk [] file { opt with normalize := false } = .ok (raw, { opt' with normalize := false }) ∧
        ∃ g0 parts, Gap U g0 ∧ (∀ p ∈ parts, Visible U p.1 ∧ Gap U p.2) ∧
          raw = assemble g0 parts ∧ new = old ++ normalized parts) ∧
    -- in general
    (∀ g0 parts, Gap U g0 → (∀ p ∈ parts, Visible U p.1 ∧ Gap U p.2) →
      compress_spacing U (assemble g0 parts) = normalized parts) := by
  constructor
  · intro new opt' h
    unfold read_text at h ⊢
    rw [Res.bind_eq_ok] at h
    obtain ⟨⟨o1, body⟩, h1, h⟩ := h
    simp only [Res.bind_eq_ok] at h
    obtain ⟨raw, h2, h⟩ := h
    have ho1 : o1.normalize = true ∧ o1.case_insensitive = false ∧ o1.find_markers = opt.find_markers ∧
        o1.suspect_marker = opt.suspect_marker ∧
        (if opt.find_header = true then do
          let x ← read_header file
          pure ({ opt with normalize := false, found_header := x.1 }, x.2)
        else pure ({ opt with normalize := false }, file) : Res (Textopt × List Nat)) =
          .ok ({ o1 with normalize := false }, body) := by
      by_cases hf : opt.find_header = true
      · simp only [hf, if_true] at h1 ⊢
        rw [Res.bind_eq_ok] at h1
        obtain ⟨⟨found, b⟩, h3, h4⟩ := h1
        simp only [Res.pure_eq, Res.ok.injEq, Prod.mk.injEq] at h4
        obtain ⟨rfl, rfl⟩ := h4
        refine ⟨hn, hc, rfl, rfl, ?_⟩
        rw [h3]; simp [hf]
      · simp only [hf] at h1
        simp only [Bool.false_eq_true, if_false, Res.pure_eq, Res.ok.injEq, Prod.mk.injEq] at h1 ⊢
        obtain ⟨rfl, rfl⟩ := h1
        exact ⟨hn, hc, rfl, rfl, by simp [hf]⟩
    obtain ⟨on, oc, om, os, ho⟩ := ho1
    rw [on, oc] at h
    simp only [if_true, Bool.false_eq_true, if_false, Res.pure_eq, Res.ok.injEq, Prod.mk.injEq] at h
    obtain ⟨rfl, rfl⟩ := h
    refine ⟨raw, ?_, ?_⟩
    · rw [om, os] at h2
      simp only at ho ⊢
      erw [ho]
      simp only [Res.bind_ok]
      rw [om, os, h2]
      simp [oc]
    · obtain ⟨g0, parts, hp, rfl⟩ := parts_exist U raw
      exact ⟨g0, parts, hp.1, hp.2, rfl, by rw [compress_parts U _ _ hp]⟩
  · intro g0 parts h1 h2
    exact compress_parts U g0 parts ⟨h1, h2⟩

/-- C09 (content).  In particular every visible character is kept, in order, with its suspect mark. -/
theorem c09_keeps_visible (U : Unicode) (cs : List Ch) :
    let vis := fun c : Ch => !(is_blank U c.value || c.value = BLANK || c.value = NEWLINE)
    (compress_spacing U cs).filter vis = cs.filter vis := by
  intro vis
  obtain ⟨g0, parts, h, rfl⟩ := parts_exist U cs
  rw [compress_parts U _ _ h]
  have hgap : ∀ g, Gap U g → g.filter vis = [] := by
    intro g hg
    rw [List.filter_eq_nil_iff]
    intro c hc
    simp only [vis, Bool.not_eq_true', Bool.or_eq_true, Bool.not_eq_false, decide_eq_true_eq]
    rcases hg c hc with (h | h) | h <;> simp [h]
  have hvis : ∀ c, Visible U c → vis c = true := by
    intro c hc
    unfold Visible blankish at hc
    simp only [not_or, Bool.not_eq_true] at hc
    simp [vis, hc.1.1, hc.1.2, hc.2]
  obtain ⟨h1, h2⟩ := h
  simp only [assemble, List.filter_append, hgap g0 h1, List.nil_append]
  clear h1
  fun_induction normalized parts with
  | case1 => simp
  | case2 c g =>
    obtain ⟨a, b⟩ := h2 (c, g) (by simp)
    simp [hvis c a, hgap g b, hgap _ (finalGap_gap U)]
  | case3 c g rest hne ih =>
    obtain ⟨a, b⟩ := h2 (c, g) (by simp)
    have := ih (fun p hp => h2 p (by simp [hp]))
    simp only [List.flatMap_cons, List.cons_append, List.filter_append, List.filter_cons_of_pos (hvis c a),
      hgap g b, hgap _ (innerGap_gap U), this, List.nil_append]

example : ∃ parts : List (Ch × List Ch), parts.length = 2 ∧
    (∀ p ∈ parts, Visible sampleUnicode p.1 ∧ Gap sampleUnicode p.2) ∧
    normalized parts = [⟨false, 97⟩, ⟨false, 32⟩, ⟨true, 98⟩] := by
  refine ⟨[(⟨false, 97⟩, [⟨false, 32⟩, ⟨false, 32⟩]), (⟨true, 98⟩, [⟨false, 32⟩])], rfl, ?_, by decide⟩
  intro p hp
  simp only [List.mem_cons, List.not_mem_nil, or_false] at hp
  rcases hp with rfl | rfl
  · refine ⟨⟨by unfold blankish; decide +kernel, by decide⟩, ?_⟩
    intro c hc; simp at hc; subst hc; left; left; rfl
  · refine ⟨⟨by unfold blankish; decide +kernel, by decide⟩, ?_⟩
    intro c hc; simp at hc; subst hc; left; left; rfl

/-- C10 (where it holds).  For every code point the string of `char_to_string` and its terminator fit into STRING_SIZE
bytes, provided the character is not a marked unprintable one from U+100000 on.  (Missing for the full claim: that
case, where it is false - see `c10_overflow`.) -/
theorem c10_fits_partial (U : Unicode) (suspect fake : Bool) (v : Nat) (hv : v ≤ 0x10FFFF)
    (h : ¬ (suspect = true ∧ v ≠ NEWLINE ∧ is_graphic U v = false ∧ 0x100000 ≤ v)) :
    ∃ s, char_to_string U STRING_SIZE suspect v fake = .ok s ∧ s.length + 1 ≤ 9 := by
  obtain ⟨s, hs, hl⟩ := charString_len (U := U) (v := v) (by omega) suspect fake
  refine ⟨s, ?_, hl.2 h⟩
  unfold char_to_string
  rw [hs]
  simp only [Res.bind_ok, if_pos (hl.2 h)]; rfl

/-- C10 is false in general: a marked unprintable character from U+100000 on (U+10FFFE and U+10FFFF are unprintable in every
version of Unicode) overruns the buffer: "^<10FFFF>" needs 10 bytes. -/
theorem c10_overflow (U : Unicode) (fake : Bool) (v : Nat) (hv : v ≤ 0x10FFFF) (hg : is_graphic U v = false)
    (hbig : 0x100000 ≤ v) : char_to_string U STRING_SIZE true v fake = .ub := by
  obtain ⟨s, hs, hl⟩ := charString_len (U := U) (v := v) (by omega) true fake
  have : ¬ s.length + 1 ≤ STRING_SIZE := by
    rw [hl]; simp [hg, hbig]; unfold NEWLINE; omega
  unfold char_to_string
  rw [hs]
  simp only [Res.bind_ok, if_neg this]

example : char_to_string sampleUnicode STRING_SIZE true 0x10FFFF true = .ub :=
  c10_overflow _ _ _ (by omega) (by decide) (by omega)
example : charString sampleUnicode true 0x10FFFF true = .ok (ascii "^<10FFFF>") := by decide +kernel
example : char_to_string sampleUnicode STRING_SIZE true 0x301 true = .ok [94, 0xE2, 0x97, 0x8C, 0xCC, 0x81] := by
  decide +kernel

/-- C11.  For every code point (surrogates included) the string in a per-character line of an accuracy report
(`{` string `}` and the rest of a NUL-terminated buffer) is decoded to that code point. -/
theorem c11_report_chars (U : Unicode) (F : UnicodeFacts U) (v : Nat) (hv : v ≤ 0x10FFFF) :
    ∃ s, char_to_string U STRING_SIZE false v true = .ok s ∧
      ∀ rest, 0 ∈ rest → Acc.read_char (ascii "{" ++ s ++ ascii "}" ++ rest) = .ok v := by
  obtain ⟨s, hs, hl⟩ := charString_len (U := U) (v := v) (by omega) false true
  refine ⟨s, ?_, ?_⟩
  · unfold char_to_string
    rw [hs]
    simp only [Res.bind_ok, if_pos (hl.2 (by simp))]; rfl
  · intro rest h0
    have := Acc.read_char_bytes F (v := v) (by omega) s rest hs h0
    have e1 : ascii "{" = [123] := by decide
    have e2 : ascii "}" = [125] := by decide
    rw [e1, e2]
    simpa using this

example : UnicodeFacts sampleUnicode := sampleFacts
example : Acc.read_char (ascii "{<0D>}\n" ++ [0]) = .ok 13 := by decide +kernel
example : Acc.read_char (ascii "{<}\n" ++ [0]) = .ok 60 := by decide +kernel
example : Acc.read_char (ascii "{<\\n>}\n" ++ [0]) = .ok 10 := by decide +kernel
example : Acc.read_char ([123, 0xE2, 0x97, 0x8C, 0xCC, 0x81, 125, 10, 0]) = .ok 0x301 := by decide +kernel

/-- C12.  For n ≤ 3 the key of every n-gram is built without overrunning the key buffer, and different n-grams have
different keys. -/
theorem c12_keys (U : Unicode) (F : UnicodeFacts U) (n : Nat) (hn : n ≤ Ngram.MAX_N) (xs ys : List Nat)
    (hx : xs.length = n) (hy : ys.length = n) (hxv : ∀ v ∈ xs, v ≤ 0x10FFFF) (hyv : ∀ v ∈ ys, v ≤ 0x10FFFF) :
    ∃ kx ky, Ngram.ngramKey U xs = .ok kx ∧ Ngram.ngramKey U ys = .ok ky ∧ (kx = ky ↔ xs = ys) := by
  unfold Ngram.MAX_N at hn
  have kk : ∀ zs : List Nat, zs.length = n → (∀ v ∈ zs, v ≤ 0x10FFFF) → Ngram.ngramKey U zs =
      .ok ((zs.flatMap (Ngram.tok U)).flatMap encode_char) := by
    intro zs hz hzv
    have := Ngram.keyLoop_eq F (Ngram.MAX_N * STRING_SIZE) zs [] (fun v hv => by have := hzv v hv; omega)
      (by simp [Ngram.MAX_N, STRING_SIZE]; omega)
    simpa [Ngram.ngramKey] using this
  refine ⟨_, _, kk xs hx hxv, kk ys hy hyv, ?_⟩
  constructor
  · intro h
    have sc : ∀ zs : List Nat, (∀ v ∈ zs, v ≤ 0x10FFFF) → ∀ c ∈ zs.flatMap (Ngram.tok U), Scalar c := by
      intro zs hz c hc
      obtain ⟨v, hv, hc⟩ := List.mem_flatMap.1 hc
      exact (Ngram.tok_scalar F (by have := hz v hv; omega) c hc).1
    have := encode_flat_inj _ _ (sc xs hxv) (sc ys hyv) h
    exact Ngram.tok_inj F xs ys (by omega) (by omega) this
  · rintro rfl; rfl

/-- C12 (why n is limited).  With five characters (and a buffer for five) different n-grams can share a key. -/
theorem c12_five_characters_collide :
    ∃ xs ys : List Nat, xs.length = 5 ∧ ys.length = 5 ∧ xs ≠ ys ∧
      Ngram.keyLoop sampleUnicode (5 * STRING_SIZE) [] xs = Ngram.keyLoop sampleUnicode (5 * STRING_SIZE) [] ys ∧
      Ngram.keyLoop sampleUnicode (5 * STRING_SIZE) [] xs = .ok (ascii "<07><07>") := by
  refine ⟨[7, 60, 48, 55, 62], [60, 48, 55, 62, 7], rfl, rfl, by decide, by decide +kernel, by decide +kernel⟩

example : Ngram.ngramKey sampleUnicode [10, 0x301, 97] = .ok (ascii "<\\n>" ++ [0xE2, 0x97, 0x8C, 0xCC, 0x81] ++ ascii "a") := by
  decide +kernel

/-- C13.  Text made of newlines and printable, non-combining characters other than the marker is restored, with its
suspect marks, by writing it and reading it (markers on, nothing else). -/
theorem c13_round_trip (U : Unicode) (junk : List Nat) (text : List Ch) (h : ∀ c ∈ text, Writable U c.value) :
    ∃ file opt, write_text U text none = .ok file ∧
      read_text U junk [] file ⟨false, true, 0, false, false, false⟩ = .ok (text, opt) := by
  obtain ⟨cs, h1, h2⟩ := scalars_char _ (written_scalar text h)
  refine ⟨utf8 cs, ⟨false, true, 0, false, false, false⟩, ?_, ?_⟩
  · unfold write_text
    rw [writeLoop_eq text h, ← h2]
    simp
  · unfold read_text read_contents
    simp only [Bool.false_eq_true, if_false, Res.pure_eq, Res.bind_ok]
    rw [readLoop_utf8 true _ cs _ junk false none (by simp) (by simp) (le_refl _)]
    simp only [if_true, Res.bind_ok, h1]
    have := marked_written (U := U) text none (by simp) h
    simp [this]

/-- C13 with a header: the text is also restored when it is written with a header of ordinary lines and read with
header recognition. -/
theorem c13_round_trip_header (U : Unicode) (junk : List Nat) (text : List Ch) (h : ∀ c ∈ text, Writable U c.value)
    (lines : List (List Nat)) (hl : ∀ l ∈ lines, HeaderLine l) :
    ∃ file, write_text U text (some (lines.flatMap (· ++ [10]))) = .ok file ∧
      read_text U junk [] file ⟨true, true, 0, false, false, false⟩ =
        .ok (text, ⟨true, true, 0, false, false, true⟩) := by
  obtain ⟨cs, h1, h2⟩ := scalars_char _ (written_scalar text h)
  refine ⟨TITLE ++ DIVIDER ++ lines.flatMap (· ++ [10]) ++ DIVIDER ++ utf8 cs, ?_, ?_⟩
  · unfold write_text
    rw [writeLoop_eq text h, ← h2]
    simp
  · have hh := read_header_yes (title := TITLE.take 48) (before := []) (after := lines) (body := utf8 cs)
      (by decide) (by decide) (by decide) (by simp) hl
    have e : TITLE.take 48 ++ [10] = TITLE := by decide
    rw [e] at hh
    simp only [List.flatMap_nil, List.append_nil] at hh
    unfold read_text
    rw [if_pos rfl, hh]
    unfold read_contents
    simp only [Bool.false_eq_true, if_false, Res.pure_eq, Res.bind_ok]
    rw [readLoop_utf8 true _ cs _ junk false none (by simp) (by simp) (le_refl _)]
    simp only [if_true, Res.bind_ok, h1]
    have := marked_written (U := U) text none (by simp) h
    simp [this]

/-- C13 fails for combining characters: whatever the classification, a combining printable character comes back preceded
by a dotted circle. -/
theorem c13_false_for_combining (U : Unicode) (junk : List Nat) (v : Nat) (hv : Scalar v) (h94 : v ≠ 94)
    (hn : v ≠ NEWLINE) (h0 : v ≠ 0) (hg : is_graphic U v = true) (hc : is_combining U v = true) :
    ∃ file opt, write_text U [⟨false, v⟩] none = .ok file ∧
      read_text U junk [] file ⟨false, true, 0, false, false, false⟩ =
        .ok ([⟨false, DOTTED_CIRCLE⟩, ⟨false, v⟩], opt) := by
  have hsc : ∀ c ∈ [DOTTED_CIRCLE, v], Scalar c := by
    intro c hc; simp at hc; rcases hc with rfl | rfl
    · unfold Scalar DOTTED_CIRCLE; omega
    · exact hv
  obtain ⟨cs, h1, h2⟩ := scalars_char _ hsc
  have hlt : v < 0x110000 := by unfold Scalar at hv; omega
  refine ⟨utf8 cs, ⟨false, true, 0, false, false, false⟩, ?_, ?_⟩
  · have hcs := charString_graphic (U := U) (v := v) (by simp [Escaped, hn, hg]) hlt false false
    obtain ⟨s, hs, hl⟩ := charString_len (U := U) hlt false false
    have hl := hl.2 (by simp)
    rw [hcs] at hs
    have e : (baseCps U v ++ [v]) = [DOTTED_CIRCLE, v] := by simp [baseCps, hc]
    rw [e, ← h2] at hcs hs
    have hs := Res.ok.inj hs
    simp only [markBytes, Bool.false_eq_true, if_false, List.nil_append] at hs hcs
    unfold write_text writeLoop writeLoop char_to_string
    rw [hcs]
    have hz : cstr (utf8 cs) = utf8 cs := by
      apply Ngram.cstr_self
      intro b hb
      rw [h2] at hb
      obtain ⟨x, hx, hb⟩ := List.mem_flatMap.1 hb
      refine Ngram.encode_nz ?_ b hb
      simp at hx; rcases hx with rfl | rfl
      · decide
      · exact h0
    rw [← hs] at hl
    simp only [Res.bind_ok, if_pos hl, Res.pure_eq, hz]
    simp
  · unfold read_text read_contents
    simp only [Bool.false_eq_true, if_false, Res.pure_eq, Res.bind_ok]
    rw [readLoop_utf8 true _ cs _ junk false none (by simp) (by simp) (le_refl _)]
    simp only [if_true, Res.bind_ok, h1]
    have hd : ¬ (DOTTED_CIRCLE = SUSPECT_MARKER) := by decide
    have h94' : ¬ v = SUSPECT_MARKER := h94
    simp [markedFrom_cons, markedFrom_nil, h94', hd]

example : ∀ c ∈ [(⟨true, 97⟩ : Ch), ⟨false, 10⟩, ⟨false, 32⟩, ⟨false, 0x25CC⟩], Writable sampleUnicode c.value := by
  intro c hc
  simp only [List.mem_cons, List.not_mem_nil, or_false] at hc
  rcases hc with rfl | rfl | rfl | rfl <;>
    refine ⟨by unfold Scalar; simp, by simp, by decide, by decide⟩

/-- C14 (header present).  A file with a title line (first 45 bytes of the title, at most 98 bytes with its newline),
lines that are not dividers, a divider, further lines that are not dividers, a second divider and a body reads like
the body alone, and `found_header` is set. -/
theorem c14_header_skipped (U : Unicode) (junk : List Nat) (text : List Ch) (opt : Textopt)
    (title : List Nat) (before after : List (List Nat)) (body : List Nat)
    (ht : title.take 45 = TITLE.take 45) (ht10 : 10 ∉ title) (htl : title.length ≤ 97)
    (hb : ∀ l ∈ before, HeaderLine l) (ha : ∀ l ∈ after, HeaderLine l) :
    read_text U junk text (title ++ [10] ++ before.flatMap (· ++ [10]) ++ DIVIDER ++ after.flatMap (· ++ [10]) ++
        DIVIDER ++ body) { opt with find_header := true } = (do
      let (t, _) ← read_text U junk text body { opt with find_header := false }
      return (t, { opt with find_header := true, found_header := true })) := by
  unfold read_text
  rw [if_pos rfl, read_header_yes ht ht10 htl hb ha]
  simp only [Res.bind_ok, Res.pure_eq, Bool.false_eq_true, if_false]
  generalize read_contents body opt.find_markers _ junk = r
  cases r <;> rfl

/-- C14 (header absent).  If the first 45 bytes are not those of the title, the whole file is read from the beginning and
`found_header` is cleared. -/
theorem c14_no_header (U : Unicode) (junk : List Nat) (text : List Ch) (opt : Textopt) (file : List Nat)
    (h : file.take 45 ≠ TITLE.take 45) :
    read_text U junk text file { opt with find_header := true } = (do
      let (t, _) ← read_text U junk text file { opt with find_header := false }
      return (t, { opt with find_header := true, found_header := false })) := by
  unfold read_text
  rw [if_pos rfl, read_header_not h]
  simp only [Res.bind_ok, Res.pure_eq, Bool.false_eq_true, if_false]
  generalize read_contents file opt.find_markers _ junk = r
  cases r <;> rfl

example : HeaderLine (ascii "OCR Vendor") := ⟨by decide, by decide, by decide⟩
example : (TITLE.take 48).take 45 = TITLE.take 45 ∧ 10 ∉ TITLE.take 48 := by decide

/-- C14 needs short lines: a line of 98 bytes followed by a divider's text is taken for a divider. -/
theorem c14_false_for_long_lines :
    ∃ l : List Nat, 10 ∉ l ∧ l ++ [10] ≠ DIVIDER ∧
      read_header (TITLE ++ DIVIDER ++ (l ++ [10]) ++ ascii "more header\n" ++ DIVIDER ++ ascii "body") =
        .ok (true, ascii "more header\n" ++ DIVIDER ++ ascii "body") := by
  refine ⟨List.replicate 98 120 ++ List.replicate 48 45, by decide +kernel, by decide +kernel, by decide +kernel⟩

end Ocr.Text
