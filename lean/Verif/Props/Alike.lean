import Verif.Proof.Recode
import Verif.Props.Across

/-!
# C103: characters are compared for equality only
-/

namespace Ocr.Alike
open Text Res Spec Prog Across AnyText Ending

/-- C103 (synchronize).  The alignment is determined by the lengths of the texts and the positions that match; which characters they are
is irrelevant. -/
theorem c103_synchronize (texts texts' : List (List Nat)) (h : SameMatches texts texts') : Sync.synchronize texts = Sync.synchronize texts' :=
  synchronize_like h

/-- C103 (fastukk_sync and transpose_sync).  The same holds for the other two ways of aligning two texts. -/
theorem c103_two (t u t' u' : List Ch) (h : SameMatches [t.map Ch.value, u.map Ch.value] [t'.map Ch.value, u'.map Ch.value]) :
    Sync.fastukk_sync t u = Sync.fastukk_sync t' u' ∧
      Sync.transpose_sync (t.map Ch.value) (u.map Ch.value) = Sync.transpose_sync (t'.map Ch.value) (u'.map Ch.value) :=
  have k := like_of h (i := 0) (j := 1) rfl rfl rfl rfl
  ⟨fastukk_like k, transpose_like k⟩

/-- C103 (editop).  Two pairs of files, which may be in different places, give the same report, byte by byte, if their texts are
alike. -/
theorem c103_editop (U : Unicode) (junk : List Nat) (fs fs' : Fs)
    (prog prog' : List Nat) (args args' : List (List Nat)) (f0 f1 f0' f1' : List Nat) (rest : List (List Nat)) (ss ss' : List Args.Setting)
    (hc : CommandLine [(68, .flag 0)] prog args (f0 :: f1 :: rest) ss) (hc' : CommandLine [(68, .flag 0)] prog' args' (f0' :: f1' :: rest) ss')
    (hr : rest.length ≤ 1)
    (file0 file1 file0' file1' : List Nat) (h0 : fs f0 = some file0) (h1 : fs f1 = some file1) (h0' : fs' f0' = some file0')
    (h1' : fs' f1' = some file1') (t u t' u' : List Ch)
    (hh : ¬ Headed file0) (p0 : IsPage U false file0 t) (p1 : HoldsText U false file1 u)
    (hh' : ¬ Headed file0') (p0' : IsPage U false file0' t') (p1' : HoldsText U false file1' u')
    (hl : t.length < 2^62) (hu : u.length < 2^62)
    (h : SameMatches [t.map Ch.value, u.map Ch.value] [t'.map Ch.value, u'.map Ch.value]) :
    ∃ bytes, editopMain U junk fs (prog :: args) = .ok ⟨rest.head?, bytes⟩ ∧ editopMain U junk fs' (prog' :: args') = .ok ⟨rest.head?, bytes⟩ := by
  obtain ⟨r, D, ls, S, _, e2, _⟩ := Edo.c49_editop (t.map Ch.value) (u.map Ch.value) (by simpa using hl) (by simpa using hu)
  have e3 : Edo.editop (t'.map Ch.value) (u'.map Ch.value) = .ok D := by
    rw [← editop_like (like_of h (i := 0) (j := 1) rfl rfl rfl rfl) (like_of h (i := 0) (j := 0) rfl rfl rfl rfl)]
    exact e2
  refine ⟨Edo.write_edorpt D, ?_, ?_⟩
  · obtain ⟨b, V, e, _⟩ := init_args table_editop hc
    unfold editopMain
    rw [show Args.initialize_ (some Args.editopOptions) true (prog :: args) start = _ from e, bind_ok]
    simp only
    rw [if_neg (by simp only [List.length_cons]; omega), readPair_eq h0 h1 hh (.inl ⟨hh, p0⟩) p1, bind_ok]
    simp only
    rw [e2, bind_ok]
    cases rest <;> rfl
  · obtain ⟨b, V, e, _⟩ := init_args table_editop hc'
    unfold editopMain
    rw [show Args.initialize_ (some Args.editopOptions) true (prog' :: args') start = _ from e, bind_ok]
    simp only
    rw [if_neg (by simp only [List.length_cons]; omega), readPair_eq h0' h1' hh' (.inl ⟨hh', p0'⟩) p1', bind_ok]
    simp only
    rw [e3, bind_ok]
    cases rest <;> rfl

/-- C103 (accuracy).  accuracy reports the same numbers of characters and errors for files whose texts are alike. -/
theorem c103_accuracy (U : Unicode) (F : UnicodeFacts U) (pct : Int → Int → List Nat) (hp : Acc.PctFormat pct) (junk : List Nat) (hj : Bytes junk)
    (fs : Fs) (hfs : ∀ name file, fs name = some file → Bytes file) (f g f' g' : List Nat) (t u t' u' : List Ch)
    (hf : TextFile U fs f t) (hg : TextFile U fs g u) (hf' : TextFile U fs f' t') (hg' : TextFile U fs g' u')
    (h : SameMatches [t.map Ch.value, u.map Ch.value] [t'.map Ch.value, u'.map Ch.value]) :
    ∃ e, Accuracy U pct junk fs f g t.length e ∧ Accuracy U pct junk fs f' g' t.length e := by
  obtain ⟨d, h1, h2⟩ := accuracy_run F pct hp hj hfs hf hg
  obtain ⟨d', h1', h2'⟩ := accuracy_run F pct hp hj hfs hf' hg'
  have k := like_of h (i := 0) (j := 1) rfl rfl rfl rfl
  have := edit_distance_unique (distance_like k h2) h2'
  subst this
  have hl := k.left
  simp only [List.length_map] at hl
  exact ⟨d, h1, hl ▸ h1'⟩

theorem vote_written {U : Unicode} (F : UnicodeFacts U) (h126 : is_graphic U 126 = true) {signed : Bool} {junk : List Nat} {fs : Fs}
    {prog : List Nat} {args ops : List (List Nat)} {ss : List Args.Setting} (hc : CommandLine voteTable prog args ops ss)
    {files : List (List Nat)} {texts : List (List Ch)} (hf : List.Forall₂ (fun name file => fs name = some file) ops files)
    (ht : List.Forall₂ (HoldsText U false) files texts) {out s w : Option (List Nat)} {optimize : Bool}
    (ho : Given ss 0 out) (hs : Given ss 1 s) (hw : Given ss 2 w) (hO : optimize = true ↔ ⟨.flag 1, []⟩ ∈ ss)
    {cfg : Vote.Config} (hcfg : Vote.Settings ops.length optimize s w cfg)
    (hwr : ∀ t ∈ texts, ∀ c ∈ t, Writable U c.value) (hlen : ∀ t ∈ texts, t.length < 2^31) :
    ∃ cs o, Vote.voteTexts U optimize cfg texts = .ok o ∧ voteProgram U signed junk fs (prog :: args) = .ok ⟨out, utf8 cs⟩ ∧
      marked 94 (cs.map Char.toNat) = o := by
  have hl : ops.length = texts.length := hf.length_eq.trans ht.length_eq
  have hval : ∀ t ∈ texts, ∀ c ∈ t, c.value ≤ 0x10FFFF := by
    intro t ht c hc
    have := (hwr t ht c hc).1
    unfold Scalar at this
    omega
  obtain ⟨chosen, r, outs, h1, hsub, h2, h3, h4, h5⟩ := vote_data F (hl ▸ hcfg) hval hlen
  have hw' : ∀ c ∈ outs.flatten, Writable U c.value := by
    intro c hc
    obtain ⟨o, ho, hc⟩ := List.mem_flatten.1 hc
    obtain ⟨i, hi, e⟩ := List.mem_iff_getElem.1 ho
    have hi' : i < r.items.length := by rw [h5.length_eq]; exact hi
    have hv := h5.get hi' hi
    simp only [List.get_eq_getElem] at hv
    rw [e] at hv
    rcases region_values hv c hc with e | ⟨str, hs, d, hd, e⟩
    · rw [e]
      exact ⟨.inl (by omega), by omega, by decide, .inr ⟨h126, F.ascii 126 (by omega)⟩⟩
    · rw [← e]
      unfold Vote.strings at hs
      obtain ⟨p, hp, rfl⟩ := List.mem_map.1 hs
      have hp' := List.mem_zipIdx' hp
      have hm : p.1 ∈ chosen := by rw [hp'.2]; exact List.getElem_mem _
      refine hwr p.1 (hsub _ hm) d ?_
      unfold Sync.piece at hd
      exact List.mem_of_mem_drop (List.mem_of_mem_take hd)
  obtain ⟨cs, e1, e2⟩ := written_raw hw'
  exact ⟨cs, _, h4, vote_run hc hf ht ho hs hw hO hcfg h4 e1, e2⟩

/-- C103 (vote).  If all texts are written in a code, in which different characters stay different and `~` stays as it is, vote without
option `-O` gives the former output in this code, with the same marks. -/
theorem c103_vote (U : Unicode) (F : UnicodeFacts U) (h126 : is_graphic U 126 = true) (signed : Bool) (junk : List Nat) (fs fs' : Fs)
    (prog : List Nat) (args ops : List (List Nat)) (ss : List Args.Setting) (hc : CommandLine voteTable prog args ops ss)
    (f : Nat → Nat) (hcode : Code f) (files files' : List (List Nat)) (texts : List (List Ch))
    (hf : List.Forall₂ (fun name file => fs name = some file) ops files) (ht : List.Forall₂ (HoldsText U false) files texts)
    (hf' : List.Forall₂ (fun name file => fs' name = some file) ops files')
    (ht' : List.Forall₂ (HoldsText U false) files' (texts.map (recode f))) (out s w : Option (List Nat))
    (ho : Given ss 0 out) (hs : Given ss 1 s) (hw : Given ss 2 w) (hO : ⟨.flag 1, []⟩ ∉ ss)
    (cfg : Vote.Config) (hcfg : Vote.Settings ops.length false s w cfg)
    (hwr : ∀ t ∈ texts, ∀ c ∈ t, Writable U c.value ∧ Writable U (f c.value)) (hlen : ∀ t ∈ texts, t.length < 2^31) :
    ∃ cs cs', voteProgram U signed junk fs (prog :: args) = .ok ⟨out, utf8 cs⟩ ∧
      voteProgram U signed junk fs' (prog :: args) = .ok ⟨out, utf8 cs'⟩ ∧
      marked 94 (cs'.map Char.toNat) = recode f (marked 94 (cs.map Char.toNat)) := by
  obtain ⟨cs, o, e1, e2, e3⟩ := vote_written (signed := signed) (junk := junk) F h126 hc hf ht ho hs hw (by simpa using hO) hcfg
    (fun t h c hc => (hwr t h c hc).1) hlen
  obtain ⟨cs', o', e1', e2', e3'⟩ := vote_written (signed := signed) (junk := junk) F h126 hc hf' ht' ho hs hw (by simpa using hO) hcfg
    (by
      intro t h c hc
      obtain ⟨t0, m, rfl⟩ := List.mem_map.1 h
      obtain ⟨c0, mc, rfl⟩ := List.mem_map.1 hc
      exact (hwr t0 m c0 mc).2)
    (by
      intro t h
      obtain ⟨t0, m, rfl⟩ := List.mem_map.1 h
      simpa [recode] using hlen t0 m)
  rw [voteTexts_code hcode, e1] at e1'
  cases e1'
  exact ⟨cs, cs', e2, e2', by rw [e3', e3]⟩

/-! ## Non-vacuity -/

/-- `a` and `o` are exchanged. -/
theorem sample_code : Code (Equiv.swap 97 111) := ⟨fun _ _ h => Equiv.injective _ h, by decide⟩

def sampleFiles : Fs := fun name =>
  if name = ascii "a" then some (ascii "The cat")
  else if name = ascii "b" then some (ascii "The ^hat")
  else if name = ascii "c" then some (ascii "The cot")
  else if name = ascii "d" then some (ascii "The ^hot")
  else none

/-- The same names, for the texts in the code. -/
def sampleCoded : Fs := fun name => if name = ascii "a" then sampleFiles (ascii "c") else if name = ascii "b" then sampleFiles (ascii "d") else none

def hat (s : String) : List Ch := plain "The " ++ ⟨true, 104⟩ :: plain s

theorem sample_alike : SameMatches [(plain "The cat").map Ch.value, (hat "at").map Ch.value] [(plain "The cot").map Ch.value, (hat "ot").map Ch.value] := by
  have := code_alike sample_code [(plain "The cat").map Ch.value, (hat "at").map Ch.value]
  have e : ([(plain "The cat").map Ch.value, (hat "at").map Ch.value].map (·.map (Equiv.swap 97 111))) =
      [(plain "The cot").map Ch.value, (hat "ot").map Ch.value] := by decide +kernel
  rwa [e] at this

/-- Texts of the same lengths need not be alike. -/
example : ¬ SameMatches [ascii "aba", ascii "ab"] [ascii "abc", ascii "ab"] := by
  intro h
  obtain ⟨s, t, c, h1, h2, h3, h4, _⟩ := (h.2 0 2 1 0).1 ⟨_, _, 97, rfl, rfl, by decide, by decide, by decide⟩
  simp only [List.getElem?_cons_zero, List.getElem?_cons_succ, Option.some.injEq] at h1 h2
  subst h1
  subst h2
  have e3 : (ascii "abc")[2]? = some 99 := by decide
  have e4 : (ascii "ab")[0]? = some 97 := by decide
  rw [e3] at h3
  rw [e4] at h4
  cases h3
  cases h4

example : Sync.synchronize [(plain "The cat").map Ch.value, (hat "at").map Ch.value] =
    Sync.synchronize [(plain "The cot").map Ch.value, (hat "ot").map Ch.value] := c103_synchronize _ _ sample_alike

example : Sync.fastukk_sync (plain "The cat") (hat "at") = Sync.fastukk_sync (plain "The cot") (hat "ot") := (c103_two _ _ _ _ sample_alike).1

theorem sample_page {file : List Nat} {t : List Ch} (hh : ¬ file.take 45 = TITLE.take 45) (hb : file.all (fun b => decide (b < 256)) = true)
    (h : read_text sampleUnicode [] [] file { pageText false with found_header := false } = .ok (t, pageText false)) :
    IsPage sampleUnicode false file t :=
  ((read_page sampleUnicode [] false _ (bytes_ascii hb) (by intro b hb; cases hb) hh t (pageText false)).1 h).1

theorem page_1 : IsPage sampleUnicode false (ascii "The cat") (plain "The cat") := sample_page (by decide +kernel) (by decide +kernel) (by decide +kernel)
theorem page_2 : IsPage sampleUnicode false (ascii "The ^hat") (hat "at") := sample_page (by decide +kernel) (by decide +kernel) (by decide +kernel)
theorem page_3 : IsPage sampleUnicode false (ascii "The cot") (plain "The cot") := sample_page (by decide +kernel) (by decide +kernel) (by decide +kernel)
theorem page_4 : IsPage sampleUnicode false (ascii "The ^hot") (hat "ot") := sample_page (by decide +kernel) (by decide +kernel) (by decide +kernel)

theorem no_head {s : String} (h : ¬ (ascii s).take 45 = TITLE.take 45) : ¬ Headed (ascii s) := h

example : ∃ bytes, editopMain sampleUnicode [] sampleFiles [ascii "editop", ascii "a", ascii "b"] = .ok ⟨none, bytes⟩ ∧
    editopMain sampleUnicode [] sampleFiles [ascii "editop", ascii "c", ascii "d"] = .ok ⟨none, bytes⟩ :=
  c103_editop sampleUnicode [] sampleFiles sampleFiles _ _ _ _ _ _ _ _ [] _ _
    (two_names [(68, .flag 0)] "editop" (by decide +kernel) (a_name "a" (by decide +kernel)) (a_name "b" (by decide +kernel)))
    (two_names [(68, .flag 0)] "editop" (by decide +kernel) (a_name "c" (by decide +kernel)) (a_name "d" (by decide +kernel)))
    (by simp) (ascii "The cat") (ascii "The ^hat") (ascii "The cot") (ascii "The ^hot") (by decide +kernel) (by decide +kernel)
    (by decide +kernel) (by decide +kernel) _ _ _ _ (no_head (by decide +kernel)) page_1 (.inl ⟨no_head (by decide +kernel), page_2⟩)
    (no_head (by decide +kernel)) page_3 (.inl ⟨no_head (by decide +kernel), page_4⟩) (by decide +kernel) (by decide +kernel) sample_alike

example : ∃ cs cs', voteProgram sampleUnicode true [] sampleFiles [ascii "vote", ascii "a", ascii "b"] = .ok ⟨none, utf8 cs⟩ ∧
    voteProgram sampleUnicode true [] sampleCoded [ascii "vote", ascii "a", ascii "b"] = .ok ⟨none, utf8 cs'⟩ ∧
    marked 94 (cs'.map Char.toNat) = recode (Equiv.swap 97 111) (marked 94 (cs.map Char.toNat)) := by
  have e1 : recode (Equiv.swap 97 111) (plain "The cat") = plain "The cot" := by decide +kernel
  have e2 : recode (Equiv.swap 97 111) (hat "at") = hat "ot" := by decide +kernel
  exact c103_vote sampleUnicode sampleFacts (by decide) true [] sampleFiles sampleCoded _ _ _ _
    (two_names voteTable "vote" (by decide +kernel) (a_name "a" (by decide +kernel)) (a_name "b" (by decide +kernel))) _ sample_code
    [ascii "The cat", ascii "The ^hat"] [ascii "The cot", ascii "The ^hot"] [plain "The cat", hat "at"]
    (.cons (by decide +kernel) (.cons (by decide +kernel) .nil))
    (.cons (.inl ⟨no_head (by decide +kernel), page_1⟩) (.cons (.inl ⟨no_head (by decide +kernel), page_2⟩) .nil))
    (.cons (by decide +kernel) (.cons (by decide +kernel) .nil))
    (by
      rw [List.map_cons, List.map_cons, List.map_nil, e1, e2]
      exact .cons (.inl ⟨no_head (by decide +kernel), page_3⟩) (.cons (.inl ⟨no_head (by decide +kernel), page_4⟩) .nil))
    none none none (by intro x; simp) (by intro x; simp) (by intro x; simp) (by simp) ⟨2, 0, 1, 1⟩
    ⟨by decide, by decide, .inl ⟨rfl, rfl, rfl⟩, .inl ⟨rfl, rfl⟩⟩ (by
      have : ∀ t ∈ [plain "The cat", hat "at"], ∀ c ∈ t, ∀ x ∈ [c.value, Equiv.swap 97 111 c.value], x < 0xD800 ∧ x ≠ 0 ∧ x ≠ SUSPECT_MARKER ∧
        (x = NEWLINE ∨ (is_graphic sampleUnicode x = true ∧ is_combining sampleUnicode x = false)) := by decide +kernel
      have k : ∀ t ∈ [plain "The cat", hat "at"], ∀ c ∈ t, ∀ x ∈ [c.value, Equiv.swap 97 111 c.value], Writable sampleUnicode x :=
        fun t ht c hc x hx => ⟨.inl (this t ht c hc x hx).1, (this t ht c hc x hx).2⟩
      exact fun t ht c hc => ⟨k t ht c hc _ (by simp), k t ht c hc _ (by simp)⟩) (by decide +kernel)

theorem files_bytes : ∀ name file, sampleFiles name = some file → Bytes file := by
  intro name file h
  unfold sampleFiles at h
  repeat' split at h
  all_goals cases h
  all_goals exact bytes_ascii (by decide +kernel)

example : ∃ e, Accuracy sampleUnicode Acc.samplePct [] sampleFiles (ascii "a") (ascii "b") 7 e ∧
    Accuracy sampleUnicode Acc.samplePct [] sampleFiles (ascii "c") (ascii "d") 7 e := by
  have mk : ∀ {s : String} {file : List Nat} {t : List Ch}, (0 ∉ ascii s ∧ 45 ∉ ascii s) → sampleFiles (ascii s) = some file →
      ¬ file.take 45 = TITLE.take 45 → file.all (fun b => decide (b < 256)) = true →
      read_text sampleUnicode [] [] file { pageText false with found_header := false } = .ok (t, pageText false) →
      (∀ c ∈ t, c.value ≠ REJECT_CHARACTER ∧ c.value ≠ 0x10FFFF) → t.length < 5 * 10^7 → TextFile sampleUnicode sampleFiles (ascii s) t :=
    fun {s} _ _ hn e hh hb h hc hl => ⟨a_name s hn, ⟨_, e, hh, text_of hb _ h⟩, hc, hl⟩
  have l : (plain "The cat").length = 7 := by decide +kernel
  have := c103_accuracy sampleUnicode sampleFacts Acc.samplePct Acc.samplePct_format [] no_junk sampleFiles files_bytes
    (ascii "a") (ascii "b") (ascii "c") (ascii "d") (plain "The cat") (hat "at") (plain "The cot") (hat "ot")
    (mk (file := ascii "The cat") (by decide +kernel) (by decide +kernel) (by decide +kernel) (by decide +kernel) (by decide +kernel) (by decide +kernel) (by decide +kernel))
    (mk (file := ascii "The ^hat") (by decide +kernel) (by decide +kernel) (by decide +kernel) (by decide +kernel) (by decide +kernel) (by decide +kernel) (by decide +kernel))
    (mk (file := ascii "The cot") (by decide +kernel) (by decide +kernel) (by decide +kernel) (by decide +kernel) (by decide +kernel) (by decide +kernel) (by decide +kernel))
    (mk (file := ascii "The ^hot") (by decide +kernel) (by decide +kernel) (by decide +kernel) (by decide +kernel) (by decide +kernel) (by decide +kernel) (by decide +kernel))
    sample_alike
  rwa [l] at this

end Ocr.Alike
