import Verif.Spec.Options
import Verif.Proof.SynctextRestore
import Verif.Props.Args
import Verif.Props.Sync
import Verif.Props.Text

/-!
# C55: the printouts of synctext
-/

namespace Ocr.Synctext
open Text Sync Res

/-- C55 (printout).  For 2 to 16 files whose characters can be shown, without `-T`, synctext prints the document of an alignment of all
texts; for two files without `-H` of an optimal one. -/
theorem c55_document (U : Unicode) (F : UnicodeFacts U) (junk : List Nat) (fs : List Nat → Option (List Nat))
    (heuristic case_insensitive show_suspect : Bool) (names : List (List Nat)) (texts : List (List Ch)) (h2 : 2 ≤ names.length)
    (h16 : names.length ≤ 16) (hne : ∃ f ∈ names, f ≠ []) (hlen : ∀ f ∈ names, f.length < 10 ^ 16)
    (hr : readTexts U junk fs names (Spec.pageText case_insensitive) = .ok texts)
    (hf : ∀ t ∈ texts, ∀ c ∈ t, Showable U show_suspect c.value) :
    ∃ items, IsAlignment (texts.map values) items ∧
      (heuristic = false → ∀ t0 t1, texts = [t0, t1] → ∃ d : Nat, cost items = d ∧ IsEditDistance (values t0) (values t1) d) ∧
      run U junk fs heuristic case_insensitive show_suspect false names = .ok ((docOf texts items).print (shown U show_suspect) names) := by
  have hl := readTexts_length _ _ _ hr
  have h0 : 0 < texts.length := by omega
  have h1 : 1 < texts.length := by omega
  have e0 : rd texts 0 = .ok texts[0] := by unfold rd; rw [List.getElem?_eq_getElem h0]
  have e1 : rd texts 1 = .ok texts[1] := by unfold rd; rw [List.getElem?_eq_getElem h1]
  have key : ∀ r, (if heuristic = true ∨ names.length > 2 then synchronize (texts.map (fun t => t.map Ch.value)) else fastukk_sync texts[0] texts[1]) = .ok r →
      IsAlignment (texts.map values) r.items →
      run U junk fs heuristic case_insensitive show_suspect false names = .ok ((docOf texts r.items).print (shown U show_suspect) names) := by
    intro r hr' ha
    have := printed F (l := r.items) h0 hl.symm hf (sound_of_alignment ha) hne hlen
    unfold run
    rw [if_neg (by simp; omega), show readTexts U junk fs names { textopt with case_insensitive := case_insensitive } = _ from hr, bind_ok, e0, bind_ok, e1, bind_ok, if_neg (by simp), hr', bind_ok]
    exact this
  by_cases hc : heuristic = true ∨ names.length > 2
  · obtain ⟨r, a1, a2, a3⟩ := c19_alignment (texts.map values) (by rw [List.length_map]; omega) (by rw [List.length_map]; omega)
    refine ⟨r.items, a2, ?_, key r (by rw [if_pos hc]; exact a1) a2⟩
    intro hh t0 t1 ht
    rw [ht] at hl
    rcases hc with hc | hc
    · rw [hh] at hc; cases hc
    · simp at hl; omega
  · obtain ⟨r, a1, a2, a3, a4⟩ := fastukk_spec texts[0] texts[1]
    have ht : texts = [texts[0], texts[1]] := by
      have hl2 : texts.length = 2 := by omega
      rcases texts with _ | ⟨x, _ | ⟨y, _ | ⟨z, r⟩⟩⟩
      · simp at hl2
      · simp at hl2
      · rfl
      · simp at hl2
    have ha : IsAlignment (texts.map values) r.items := by
      rw [ht]; exact a2
    refine ⟨r.items, ha, ?_, key r (by rw [if_neg hc]; exact a1) ha⟩
    intro _ t0 t1 ht'
    refine ⟨_, a4, ?_⟩
    have e2 : texts[0] = t0 := by simp [ht']
    have e3 : texts[1] = t1 := by simp [ht']
    rw [← e2, ← e3]
    exact lev_isEditDistance _ _

/-- C55 (content).  The document of an alignment contains each text: taking, for each difference, the version of that text, one gets the
text.  Differences have a version for each text. -/
theorem c55_content (texts : List (List Ch)) (items : List Sync) (h : IsAlignment (texts.map values) items) (t : Nat)
    (ht : t < texts.length) : ((docOf texts items).text t).map Ch.value = texts[t].map Ch.value := by
  have h1 := h.tiles t (by simpa using ht)
  have := doc_text (by omega) ht items 0 texts[t].length (sound_of_alignment h) (by simpa [values] using h1) (Nat.le_refl _)
  simpa using this

/-- C55 (restoration).  If no file name and no text contains a brace, each text can be restored from the printout made without `-s`: the
function `restore`, which knows the number of files and the length of the longest name, finds the characters of the text in their
usual writing. -/
theorem c55_restores (U : Unicode) (F : UnicodeFacts U) (junk : List Nat) (fs : List Nat → Option (List Nat))
    (heuristic case_insensitive : Bool) (names : List (List Nat)) (texts : List (List Ch)) (h2 : 2 ≤ names.length)
    (h16 : names.length ≤ 16) (hne : ∃ f ∈ names, f ≠ []) (hlen : ∀ f ∈ names, f.length < 10 ^ 16)
    (hr : readTexts U junk fs names (Spec.pageText case_insensitive) = .ok texts)
    (hf : ∀ t ∈ texts, ∀ c ∈ t, c.value < 0x110000 ∧ c.value ≠ 123 ∧ c.value ≠ 125) (hb : ∀ f ∈ names, 123 ∉ f ∧ 125 ∉ f) :
    ∃ out, run U junk fs heuristic case_insensitive false false names = .ok out ∧
      ∀ t (h : t < texts.length), restore names.length ((names.map List.length).foldr max 0) t out = texts[t].flatMap (fun c => drawn U c.value) := by
  obtain ⟨items, ha, _, e⟩ := c55_document U F junk fs heuristic case_insensitive false names texts h2 h16 hne hlen hr
    (fun t ht c hc => ⟨(hf t ht c hc).1, by simp⟩)
  have hl := readTexts_length _ _ _ hr
  refine ⟨_, e, ?_⟩
  intro t ht
  rw [restore_print F (docOf_tidy (by omega) hl.symm hb (fun t ht c hc => (hf t ht c hc).2) items (sound_of_alignment ha)) (by omega)]
  have e2 : ∀ cs : List Ch, cs.flatMap (shown U false) = (cs.map Ch.value).flatMap (drawn U) := by
    intro cs
    rw [List.flatMap_map]
    refine congrArg (fun f => List.flatMap f cs) ?_
    funext c
    unfold shown written; simp
  rw [e2, c55_content texts items ha t ht, List.flatMap_map]

/-- C55 (refusal).  More than 16 files are refused. -/
theorem c55_refuses (U : Unicode) (junk : List Nat) (fs : List Nat → Option (List Nat)) (heuristic case_insensitive show_suspect : Bool)
    (names : List (List Nat)) (texts : List (List Ch)) (h16 : 16 < names.length)
    (hr : readTexts U junk fs names (Spec.pageText case_insensitive) = .ok texts) :
    ∃ msg, run U junk fs heuristic case_insensitive show_suspect false names = .err msg := by
  have hl := readTexts_length _ _ _ hr
  have h0 : 0 < texts.length := by omega
  have h1 : 1 < texts.length := by omega
  have e0 : rd texts 0 = .ok texts[0] := by unfold rd; rw [List.getElem?_eq_getElem h0]
  have e1 : rd texts 1 = .ok texts[1] := by unfold rd; rw [List.getElem?_eq_getElem h1]
  obtain ⟨msg, e⟩ := c19_refuses (texts.map (fun t => t.map Ch.value)) (.inr (by rw [List.length_map]; omega))
  refine ⟨msg, ?_⟩
  unfold run
  rw [if_neg (by simp; omega), show readTexts U junk fs names { textopt with case_insensitive := case_insensitive } = _ from hr, bind_ok, e0, bind_ok, e1, bind_ok, if_neg (by simp), if_pos (.inr (by omega)), e, bind_err]

/-- C55 (option `-T`).  Both texts are printed completely, in parts.  The numbered parts of the first text are numbered 1, 2, 3, ...;
those of the second text have the same numbers in some order; parts with the same number are the same string; and no character
other than the reject character is in unnumbered parts of both texts. -/
theorem c55_transposed (U : Unicode) (F : UnicodeFacts U) (junk : List Nat) (fs : List Nat → Option (List Nat))
    (heuristic case_insensitive show_suspect : Bool) (f0 f1 : List Nat) (t0 t1 : List Ch)
    (hr : readTexts U junk fs [f0, f1] (Spec.pageText case_insensitive) = .ok [t0, t1])
    (hf : ∀ t ∈ [t0, t1], ∀ c ∈ t, Showable U show_suspect c.value) :
    ∃ P0 P1 : List (Option Nat × List Ch),
      run U junk fs heuristic case_insensitive show_suspect true [f0, f1] =
        .ok (rule ++ [10] ++ printParts (shown U show_suspect) P0 ++ [10] ++ rule ++ [10] ++ printParts (shown U show_suspect) P1 ++ [10] ++ rule) ∧
      P0.flatMap Prod.snd = t0 ∧ P1.flatMap Prod.snd = t1 ∧
      (∃ k, P0.filterMap Prod.fst = List.range' 1 k ∧ (P1.filterMap Prod.fst).Perm (List.range' 1 k)) ∧
      (∀ x ∈ P0, ∀ y ∈ P1, x.1 ≠ none → x.1 = y.1 → x.2.map Ch.value = y.2.map Ch.value) ∧
      (∀ x ∈ P0, ∀ y ∈ P1, x.1 = none → y.1 = none → ∀ c ∈ x.2, ∀ d ∈ y.2, c.value ≠ 126 → c.value ≠ d.value) := by
  obtain ⟨r, a1, a2, a3, a4, a5, a6, a7⟩ := c20_transpose (values t0) (values t1)
  have s0 := sound_of_alignment (texts := [t0]) a2
  have s1 := sound_of_alignment (texts := [t1]) a3
  have hk : (r.items1.filterMap (·.mtch)).map (fun q => (r.cells q).toNat) = List.range' 1 (r.items1.filterMap (·.mtch)).length := by
    have := congrArg (List.map Int.toNat) a4.2
    rw [List.map_map, List.map_map] at this
    refine this.trans ?_
    rw [List.range'_eq_map_range]
    refine List.map_congr_left (fun i _ => ?_)
    simp only [Function.comp]
    omega
  have hpos : ∀ q ∈ r.items1.filterMap (·.mtch), 1 ≤ r.cells q := by
    intro q hq
    have : r.cells q ∈ (r.items1.filterMap (·.mtch)).map r.cells := List.mem_map_of_mem hq
    rw [a4.2] at this
    obtain ⟨i, _, e⟩ := List.mem_map.1 this
    omega
  have hinj : ∀ q ∈ r.items1.filterMap (·.mtch), ∀ q' ∈ r.items1.filterMap (·.mtch), (r.cells q).toNat = (r.cells q').toNat → q = q' := by
    have hnd : ((r.items1.filterMap (·.mtch)).map (fun q => (r.cells q).toNat)).Nodup := by rw [hk]; exact List.nodup_range'
    intro q hq q' hq' e
    exact List.inj_on_of_nodup_map hnd hq hq' e
  have m0 : ∀ s ∈ r.items1, ∀ q, s.mtch = some q → q ∈ r.items1.filterMap (·.mtch) := fun s hs q e => List.mem_filterMap.2 ⟨s, hs, e⟩
  have m1 : ∀ s ∈ r.items2, ∀ q, s.mtch = some q → q ∈ r.items1.filterMap (·.mtch) :=
    fun s hs q e => a5.subset (List.mem_filterMap.2 ⟨s, hs, e⟩)
  have hfm : ∀ (text : List Ch) (l : List Sync), (partsOf r.cells text l).filterMap Prod.fst = (l.filterMap (·.mtch)).map (fun q => (r.cells q).toNat) := by
    intro text l
    unfold partsOf
    rw [List.filterMap_map, List.map_filterMap]
    rfl
  have hcat : ∀ (text : List Ch) (l : List Sync) (p q : Nat), Tiles p (l.map (·.sub 0)) q → q ≤ text.length →
      (partsOf r.cells text l).flatMap Prod.snd = (text.drop p).take (q - p) := by
    intro text l
    induction l with
    | nil =>
      intro p q h _
      have : (p : Int) = q := h
      rw [show q - p = 0 by omega]
      rfl
    | cons s l ih =>
      intro p q h hq
      obtain ⟨h1, h2, h3, h4⟩ := h
      simp only at h1 h2 h3 h4
      have hle := tiles_le h4
      rw [show (p : Int) + (s.sub 0).length = ((p + (s.sub 0).length.toNat : Nat) : Int) by omega] at h4
      have ih := ih _ q h4 hq
      have : partsOf r.cells text (s :: l) = (s.mtch.map (fun q => (r.cells q).toNat), piece text (s.sub 0)) :: partsOf r.cells text l := rfl
      rw [this, List.flatMap_cons, ih]
      unfold piece
      rw [h1, Int.toNat_natCast, ← List.drop_drop,
        show q - p = (s.sub 0).length.toNat + (q - (p + (s.sub 0).length.toNat)) by omega, List.take_add]
  refine ⟨partsOf r.cells t0 r.items1, partsOf r.cells t1 r.items2, ?_, ?_, ?_, ?_, ?_, ?_⟩
  · unfold run
    rw [if_neg (by simp), show readTexts U junk fs [f0, f1] { textopt with case_insensitive := case_insensitive } = _ from hr, bind_ok]
    have e0 : rd [t0, t1] 0 = .ok t0 := rfl
    have e1 : rd [t0, t1] 1 = .ok t1 := rfl
    have w0 := transposedLoop_spec F (cells := r.cells) (hf t0 (by simp)) r.items1 s0 (fun s hs q e => by have := hpos q (m0 s hs q e); omega)
    have w1 := transposedLoop_spec F (cells := r.cells) (hf t1 (by simp)) r.items2 s1 (fun s hs q e => by have := hpos q (m1 s hs q e); omega)
    rw [e0, bind_ok, e1, bind_ok, if_pos rfl]
    have a1' : transpose_sync (t0.map Ch.value) (t1.map Ch.value) = .ok r := a1
    rw [a1', bind_ok]
    unfold write_transposed
    rw [w0, w1, separator_eq]
    simp only [bind_ok, pure_eq, List.append_assoc]
  · have h := a2.tiles 0 (by simp)
    have := hcat t0 r.items1 0 t0.length (by simpa [values] using h) (Nat.le_refl _)
    simpa using this
  · have h := a3.tiles 0 (by simp)
    have := hcat t1 r.items2 0 t1.length (by simpa [values] using h) (Nat.le_refl _)
    simpa using this
  · refine ⟨_, (hfm t0 r.items1).trans hk, ?_⟩
    rw [hfm, ← hk]
    exact a5.map _
  · intro x hx y hy hne he
    obtain ⟨s, hs, rfl⟩ := List.mem_map.1 hx
    obtain ⟨s', hs', rfl⟩ := List.mem_map.1 hy
    simp only at hne he ⊢
    cases h : s.mtch with
    | none => rw [h] at hne; simp at hne
    | some q =>
      cases h' : s'.mtch with
      | none => rw [h, h'] at he; simp at he
      | some q' =>
        rw [h, h'] at he
        have := hinj q (m0 s hs q h) q' (m1 s' hs' q' h') (by simpa using he)
        subst this
        have e := a6 s hs s' hs' (by rw [h]; simp) (by rw [h, h'])
        unfold values at e
        rwa [piece_map, piece_map] at e
  · intro x hx y hy hn hn' c hc d hd h126 hcd
    obtain ⟨s, hs, rfl⟩ := List.mem_map.1 hx
    obtain ⟨s', hs', rfl⟩ := List.mem_map.1 hy
    simp only at hn hn' hc hd
    have := a7 s hs s' hs' (by simpa using hn) (by simpa using hn') c.value h126
    unfold values at this
    rw [piece_map, piece_map] at this
    refine this (List.mem_map_of_mem hc) ?_
    rw [hcd]
    exact List.mem_map_of_mem hd

/-- C55 (command line).  For arguments that parse, the program runs with the options and file names given. -/
theorem c55_program (U : Unicode) (junk : List Nat) (fs : List Nat → Option (List Nat)) (prog : List Nat) (args names : List (List Nat))
    (ss : List Args.Setting) (hp : prog.length ≤ 32768) (hl : args.length < 32768) (h0 : ∀ a ∈ args, 0 ∉ a) (hne : args ≠ [])
    (hP : Args.Parse [(72, .flag 0), (105, .flag 1), (115, .flag 2), (84, .flag 3)] args names ss) (ho : Args.Once ss) :
    synctextMain U junk fs (prog :: args) = run U junk fs (decide (⟨.flag 0, []⟩ ∈ ss)) (decide (⟨.flag 1, []⟩ ∈ ss))
      (decide (⟨.flag 2, []⟩ ∈ ss)) (decide (⟨.flag 3, []⟩ ∈ ss)) names := by
  have hT : Args.Table [(72, .flag 0), (105, .flag 1), (115, .flag 2), (84, .flag 3)] := ⟨by decide, by decide, by decide⟩
  have hopt : Args.synctextOptions = ([(72, .flag 0), (105, .flag 1), (115, .flag 2), (84, .flag 3)] : List (Nat × Args.Kind)).map Args.optOf := by decide
  obtain ⟨b, hb, e⟩ := Args.init_eq (os := some Args.synctextOptions) (u := true) (args := args) (V := Args.unset) hp
  obtain ⟨argv, j, V, e1, e2, e3⟩ := Args.parse_ok (prog := prog) hT hl h0 hP ho
  rw [← hopt] at e1
  rw [if_neg (by rintro ⟨h, _⟩; exact hne h), e1, bind_ok] at e
  have hv : ∀ v, V.boolean v = decide (⟨.flag v, []⟩ ∈ ss) := by
    intro v
    rw [Bool.eq_iff_iff, decide_eq_true_iff]
    exact e3.2 v
  unfold synctextMain
  have e' : Args.initialize_ (some Args.synctextOptions) true (prog :: args) ⟨fun _ => none, fun _ => false⟩ = .ok (b, argv.take j, V) := e
  rw [e', bind_ok]
  simp only [hv, e2]

/-! Non-vacuity. -/

/-- Two files. -/
def sampleFs (f : List Nat) : Option (List Nat) :=
  if f = ascii "a" then some (ascii "one two\nthree") else if f = ascii "bb" then some (ascii "one x\ny ^three") else none

example : ∃ texts, readTexts sampleUnicode [] sampleFs [ascii "a", ascii "bb"] textopt = .ok texts ∧
    (∀ t ∈ texts, ∀ c ∈ t, c.value < 0x110000 ∧ c.value ≠ 123 ∧ c.value ≠ 125) :=
  ⟨[(ascii "one two\nthree").map (fun v => ⟨false, v⟩),
    (ascii "one x\ny ").map (fun v => ⟨false, v⟩) ++ ⟨true, 116⟩ :: (ascii "hree").map (fun v => ⟨false, v⟩)], by decide +kernel, by decide +kernel⟩

example : run sampleUnicode [] sampleFs false false true false [ascii "a", ascii "bb"] =
    .ok (rule ++ ascii "\none {1}^three\n" ++ rule ++ ascii "{1}\na  {two\n    }\nbb {x\n    y }\n" ++ rule) := by
  decide +kernel

example : (do let out ← run sampleUnicode [] sampleFs true false false false [ascii "a", ascii "bb"]; pure (restore 2 2 1 out) : Res _) =
    .ok (ascii "one x\ny three") := by decide +kernel

example : run sampleUnicode [] sampleFs false false false true [ascii "a", ascii "bb"] =
    .ok (rule ++ ascii "\n{1:one }two{2:\n}{3:three}\n" ++ rule ++ ascii "\n{1:one }x{2:\n}y {3:three}\n" ++ rule) := by decide +kernel

example : synctextMain sampleUnicode [] sampleFs [ascii "synctext", ascii "-s", ascii "a", ascii "bb"] =
    run sampleUnicode [] sampleFs false false true false [ascii "a", ascii "bb"] := by decide +kernel

end Ocr.Synctext
