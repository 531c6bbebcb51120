import Verif.Spec.WordEndings
import Verif.Proof.TextEndings
import Verif.Props.Groupacc
import Verif.Props.Stopword

namespace Ocr.Ending
open Text Res Prog Spec AnyText AnyReport

theorem two_files {α : Type} {names : List (List Nat)} {main : Res α} {msg : String} {good bad : Prop}
    (h : ∀ n0 n1 rest, names = n0 :: n1 :: rest → EndsAs main good bad) :
    EndsAs (if names.length < 2 ∨ names.length > 3 then .err msg else main) ((names.length = 2 ∨ names.length = 3) ∧ good)
      ((names.length = 2 ∨ names.length = 3) ∧ bad) := by
  by_cases hn : names.length < 2 ∨ names.length > 3
  · rw [if_pos hn]
    exact .err msg rfl (fun h => by omega) (fun h => by omega)
  · rw [if_neg hn]
    have hl : names.length = 2 ∨ names.length = 3 := by omega
    have k : EndsAs main good bad := by
      rcases names with _ | ⟨n0, _ | ⟨n1, rest⟩⟩
      · simp at hn
      · simp at hn
      · exact h n0 n1 rest rfl
    exact k.imp ⟨fun h => ⟨hl, h⟩, fun h => h.2⟩ ⟨fun h => ⟨hl, h⟩, fun h => h.2⟩

theorem given_iff {ss : List Args.Setting} {V : Args.Vars} (hV : Args.Holds ss V) (i : Nat) (s : Option (List Nat)) :
    Given ss i s ↔ s = V.string i := by
  constructor
  · intro h
    cases hv : V.string i with
    | none =>
      cases s with
      | none => rfl
      | some x => rw [(hV.1 i x).2 ((h x).1 rfl)] at hv; cases hv
    | some x => exact (h x).2 ((hV.1 i x).1 hv)
  · rintro rfl
    exact hV.1 i

/-! ## Lists -/

theorem list_gives (U : Unicode) {junk : List Nat} (hj : Bytes junk) (marks fold : Bool) {file : List Nat} (hf : Bytes file) :
    Gives (read_text U junk [] file ⟨false, marks, 0, true, fold, false⟩)
      (fun p => IsList U marks fold file p.1 ∧ p.2 = ⟨false, marks, 0, true, fold, false⟩) False := by
  have h := fun p : List Ch × Textopt => read_list U junk marks fold file hf hj p.1 p.2
  refine ⟨h, ⟨fun e => ?_, False.elim⟩, fun no _ => ?_⟩
  · rcases read_total U junk [] file ⟨false, marks, 0, true, fold, false⟩ hf hj with ⟨r, e'⟩ | ⟨msg, e'⟩ <;> rw [e] at e' <;> cases e'
  · rcases read_total U junk [] file ⟨false, marks, 0, true, fold, false⟩ hf hj with ⟨r, e'⟩ | ⟨msg, e'⟩
    · exact absurd ⟨r, (h r).1 e'⟩ no
    · exact ⟨msg, e'⟩

theorem normalized_mem : ∀ (parts : List (Ch × List Ch)) (c : Ch), c ∈ normalized parts → c.value = BLANK ∨ c ∈ parts.flatMap (fun (c, g) => c :: g) := by
  intro parts
  induction parts using normalized.induct with
  | case1 => intro c h; simp [normalized] at h
  | case2 d g =>
    intro c h
    simp only [normalized, List.mem_cons, finalGap, Option.mem_toList] at h
    rcases h with rfl | h
    · exact .inr (by simp)
    · exact .inr (by simp [List.mem_of_find?_eq_some h])
  | case3 d g rest hne ih =>
    intro c h
    rw [normalized] at h
    · simp only [List.cons_append, List.mem_cons, List.mem_append] at h
      rcases h with rfl | h | h
      · exact .inr (by simp)
      · unfold innerGap at h
        split at h
        · rename_i nl hf
          rw [List.mem_singleton] at h
          subst h
          exact .inr (by simp [List.mem_of_find?_eq_some hf])
        · split at h
          · cases h
          · rw [List.mem_singleton] at h
            subst h
            exact .inl rfl
      · rcases ih c h with h | h
        · exact .inl h
        · exact .inr (by rw [List.flatMap_cons]; exact List.mem_append_right _ h)
    · exact hne

theorem char_lt (c : Char) : c.toNat < 0x110000 := by
  have := c.valid
  unfold UInt32.isValidChar Nat.isValidChar at this
  unfold Char.toNat
  omega

theorem list_value {U : Unicode} (L : Lower U) {marks fold : Bool} {file : List Nat} {t : List Ch} (h : IsList U marks fold file t) :
    ∀ c ∈ t, c.value < 0x110000 := by
  obtain ⟨cs, g0, parts, _, _, _, h4, rfl⟩ := h
  have k : ∀ d ∈ normalized parts, d.value < 0x110000 := by
    intro d hd
    rcases normalized_mem parts d hd with h | h
    · rw [h]; decide
    · have : d ∈ assemble g0 parts := by unfold assemble; exact List.mem_append_right _ h
      rw [← h4] at this
      split at this
      · unfold marked markedFrom at this
        obtain ⟨⟨prev, v⟩, hz, hv⟩ := List.mem_filterMap.1 this
        have hv' := (List.of_mem_zip hz).2
        obtain ⟨c, _, rfl⟩ := List.mem_map.1 hv'
        simp only at hv
        split at hv
        · cases hv
        · cases hv
          exact char_lt c
      · obtain ⟨c, _, rfl⟩ := List.mem_map.1 this
        exact char_lt c
  intro c hc
  obtain ⟨d, hd, rfl⟩ := List.mem_map.1 hc
  split
  · exact L _ (k d hd)
  · exact k d hd

theorem list_value' {U : Unicode} {marks : Bool} {file : List Nat} {t : List Ch} (h : IsList U marks false file t) :
    ∀ c ∈ t, c.value < 0x110000 := by
  obtain ⟨cs, g0, parts, h1, h2, h3, h4, rfl⟩ := h
  have : IsList ⟨U.cat, fun v => v⟩ marks false file (normalized parts) := ⟨cs, g0, parts, h1, h2, h3, h4, by simp⟩
  have := list_value (fun v hv => hv) this
  simpa using this

/-! ## Reports -/

theorem accuracy_gives {D : Acc.Accdata} {f : List Nat} (hf : Bytes f) :
    EndsAs (Acc.read_accrpt D f) (∃ o, ReadsAccuracy f o) (BadAccuracy f) := by
  by_cases hr : ∃ o, ReadsAccuracy f o
  · obtain ⟨o, ho⟩ := hr
    obtain ⟨p, vs, E, e, _⟩ := accuracy_reads D f hf o ho
    exact .ok E e ⟨o, ho⟩ (accuracy_x f o hf ho)
  · by_cases hb : BadAccuracy f
    · exact .ub (accuracy_bad D f hf hb) hr hb
    · obtain ⟨msg, e⟩ := accuracy_else D f hf hr hb
      exact .err msg e hr hb

/-- One step, then another. -/
theorem EndsAs.then {α β : Type} {x : Res α} {k : α → Res β} {good bad good' bad' : Prop} (h : EndsAs x good bad)
    (hk : ∀ a, x = .ok a → EndsAs (k a) good' bad') : EndsAs (x >>= k) (good ∧ good') (bad ∨ good ∧ bad') := by
  cases x with
  | ok a =>
    have g := h.output.1 ⟨a, rfl⟩
    have nb : ¬ bad := fun b => by have := h.astray.2 b; cases this
    exact (hk a rfl).imp ⟨fun h => ⟨g, h⟩, fun h => h.2⟩ ⟨fun h => .inr ⟨g, h⟩, fun h => h.elim (fun b => absurd b nb) (fun h => h.2)⟩
  | err msg =>
    have ng : ¬ good := fun g => by obtain ⟨_, h⟩ := h.output.2 g; cases h
    have nb : ¬ bad := fun b => by have := h.astray.2 b; cases this
    exact .err msg rfl (fun g => ng g.1) (fun b => b.elim nb (fun g => ng g.1))
  | ub =>
    have ng : ¬ good := fun g => by obtain ⟨_, h⟩ := h.output.2 g; cases h
    exact .ub rfl (fun g => ng g.1) (.inl (h.astray.1 rfl))
  | fuel => exact h.not_fuel.elim

/-! ## groupacc -/

theorem group_last {U : Unicode} (pct : Int → Int → List Nat) (D : Acc.Accdata) : ∀ (t : List Ch) (a b : Int),
    (∀ c ∈ t, c.value < 0x110000) → (∃ c ∈ t, c.value = 0x10FFFF) → Groupacc.reportLoop U pct D t a b = .ub := by
  obtain ⟨str, hstr⟩ := Groupacc.strings_exist U
  intro t
  induction t with
  | nil => rintro _ _ _ ⟨c, h, _⟩; cases h
  | cons d t ih =>
    rintro a b hv ⟨c, hc, hl⟩
    unfold Groupacc.reportLoop
    have hd := hv d (by simp)
    by_cases h : d.value < NUM_CHARVALUES
    · rw [if_pos h]
      have hc' : ∃ c ∈ t, c.value = 0x10FFFF := by
        rcases List.mem_cons.1 hc with rfl | hc
        · unfold NUM_CHARVALUES at h; omega
        · exact ⟨c, hc, hl⟩
      have ih := fun a b => ih a b (fun c hc => hv c (by simp [hc])) hc'
      split
      · rw [hstr _ hd, bind_ok, ih]; rfl
      · exact ih _ _
    · rw [if_neg h]

/-! ## nonstopacc -/

/-- A `none` is reached before the number runs out. -/
def Hits (cost : List Nat → Int) (c : Int) (ws : List (Option (List Nat))) : Prop :=
  ∃ (pre : List (List Nat)) (post : List (Option (List Nat))), ws = pre.map some ++ none :: post ∧ ∀ i, i ≤ pre.length → c - ((pre.take i).map cost).sum ≠ 0

theorem hits_cons {cost : List Nat → Int} {c : Int} {w : List Nat} {ws : List (Option (List Nat))} (hc : c ≠ 0) :
    Hits cost c (some w :: ws) ↔ Hits cost (c - cost w) ws := by
  constructor
  · rintro ⟨pre, post, e, h⟩
    cases pre with
    | nil => cases e
    | cons x pre =>
      rw [List.map_cons, List.cons_append] at e
      cases e
      refine ⟨pre, post, rfl, fun i hi => ?_⟩
      have := h (i + 1) (by simp; omega)
      rw [List.take_succ_cons, List.map_cons, List.sum_cons] at this
      omega
  · rintro ⟨pre, post, rfl, h⟩
    refine ⟨w :: pre, post, rfl, fun i hi => ?_⟩
    cases i with
    | zero => simpa using hc
    | succ i =>
      have := h i (by simp at hi; omega)
      rw [List.take_succ_cons, List.map_cons, List.sum_cons]
      omega

theorem results_end (pct : Int → Int → List Nat) (D : Wac.Wacdata) (h1 : (D.stopword_table.map Term.key).Nodup)
    (h2 : (D.non_stopword_table.map Term.key).Nodup) (cost : List Nat → Int)
    (hcost : ∀ w, cost w = Wac.termCount w D.stopword_table + Wac.termCount w D.non_stopword_table) :
    ∀ (ws : List (Option (List Nat))) (n : Nat) (c m : Int), c ≠ 0 →
      EndsAs (Nonstopacc.resultLoop pct D ws n c m) (¬ Hits cost c ws) (Hits cost c ws) := by
  intro ws
  induction ws with
  | nil =>
    intro n c m hc
    have : ¬ Hits cost c [] := by rintro ⟨pre, post, e, _⟩; cases pre <;> cases e
    exact .ok [] rfl this this
  | cons x ws ih =>
    intro n c m hc
    cases x with
    | none =>
      have : Hits cost c (none :: ws) := ⟨[], ws, rfl, fun i _ => by simpa using hc⟩
      exact .ub rfl (fun h => h this) this
    | some w =>
      unfold Nonstopacc.resultLoop
      rw [Nonstopacc.lookup_figures h1]
      simp only
      rw [Nonstopacc.lookup_figures h2]
      simp only
      have e : c - Wac.termCount w D.stopword_table - Wac.termCount w D.non_stopword_table = c - cost w := by rw [hcost]; omega
      rw [e]
      by_cases h0 : c - cost w = 0
      · rw [if_pos h0]
        have : ¬ Hits cost c (some w :: ws) := by
          rw [hits_cons hc, h0]
          rintro ⟨pre, post, _, h⟩
          exact h 0 (by omega) (by simp)
        exact .ok [] rfl this this
      · rw [if_neg h0]
        exact ((ih (n + 1) (c - cost w) _ h0).imp (not_congr (hits_cons hc).symm) (hits_cons hc).symm).map _

theorem nonstop_end (pct : Int → Int → List Nat) {file : List Nat} {p : WordaccParts} (hp : wordacc (lines file) = some p) (hs : p.Sound)
    (ws : List (Option (List Nat))) :
    ∃ D, Wac.read_wacrpt Wac.Wacdata.zero file = .ok D ∧ EndsAs (Nonstopacc.write_results pct D ws) (¬ Reached p ws) (Reached p ws) := by
  have k := c69_wordacc Wac.Wacdata.zero file
  rw [hp] at k
  obtain ⟨D, e, hA⟩ := k.1 hs
  refine ⟨D, e, ?_⟩
  have cost : ∀ w, firsts (fun r => word r = w) p.terms1 + firsts (fun r => word r = w) p.terms2 =
      Wac.termCount w D.stopword_table + Wac.termCount w D.non_stopword_table := by
    intro w
    rw [hA.terms1.count, hA.terms2.count]
    simp [Wac.Wacdata.zero, Wac.termCount]
  have hc : D.total.count = p.words := by rw [hA.total]; simp [Wac.Wacdata.zero]
  unfold Nonstopacc.write_results
  rw [hc]
  by_cases h0 : p.words = 0
  · rw [if_pos h0]
    have : ¬ Reached p ws := by
      rintro ⟨pre, post, _, h⟩
      exact h 0 (by omega) (by simp [left, h0])
    exact .ok [] rfl this this
  · rw [if_neg h0]
    exact (results_end pct D (hA.terms1.nodup (by simp [Wac.Wacdata.zero])) (hA.terms2.nodup (by simp [Wac.Wacdata.zero])) _ cost ws 1 p.words
      D.total.missed h0).map _

/-! ## wordacc -/

open Ocr.Wac Ocr.Wordacc in
theorem terms_total : ∀ (ts : List Term) (total : Wac) (length : Nat → Wac) (occurs : Option (Nat → Wac)),
    (∀ t ∈ ts, t.key.length ≤ 50 ∧ 0 ≤ t.count) → ∃ r, termsLoop ts total length occurs = .ok r := by
  intro ts
  induction ts with
  | nil => intro total length occurs _; exact ⟨_, rfl⟩
  | cons t ts ih =>
    intro total length occurs h
    have ht := h t (by simp)
    have e1 : incrementAt (MAX_WORDLENGTH + 1) length 0 t.count t.missed = _ := incrementAt_ok (i := 0) (by unfold MAX_WORDLENGTH; omega) _ _
    rw [Wordacc.termsLoop.eq_def]
    simp only
    rw [e1, bind_ok, incrementAt_ok (by have : MAX_WORDLENGTH = 50 := rfl; omega), bind_ok]
    have ih := fun a b c => ih a b c (fun t ht => h t (by simp [ht]))
    cases occurs with
    | none => simp only [pure_eq, bind_ok]; exact ih _ _ _
    | some o =>
      simp only
      have ok : ∀ (w : Nat → Wac) (i c m : Int), 0 ≤ i → i ≤ 11 → ∃ w', incrementAt (MAX_OCCURRENCES + 2) w i c m = .ok w' := by
        intro w i c m h0 h1
        unfold incrementAt
        rw [if_pos ⟨h0, by have : MAX_OCCURRENCES = 10 := rfl; omega⟩]
        exact ⟨_, rfl⟩
      obtain ⟨w, q⟩ := ok o 0 1 (if t.count = t.missed then 1 else 0) (by omega) (by omega)
      rw [q]
      simp only [bind_ok]
      have : (MAX_OCCURRENCES : Int) = 10 := rfl
      obtain ⟨w', q⟩ := ok w (min t.count (MAX_OCCURRENCES + 1)) 1 (if t.count = t.missed then 1 else 0) (by omega) (by omega)
      rw [q]
      simp only [bind_ok, pure_eq]
      exact ih _ _ _

open Ocr.Wac Ocr.Wordacc in
theorem determine_total (stop : List Nat → Bool) (words : List (List Nat × Bool)) (hw : ∀ x ∈ words, x.1.length ≤ 50) :
    ∃ D, determine_wacdata stop words = .ok D := by
  obtain ⟨h1, h2⟩ := addWords_spec stop words [] [] [] (Tab.nil _) (Tab.nil _)
  rw [List.nil_append] at h1 h2
  have p1 := Store.in_array_perm Term.key (addWords stop words [] []).1
  have p2 := Store.in_array_perm Term.key (addWords stop words [] []).2
  have all : ∀ {q t ts}, Tab q words t → List.Perm ts t → ∀ y ∈ ts, y.key.length ≤ 50 ∧ 0 ≤ y.count := by
    intro q t ts h hp y hy
    have hy := hp.mem_iff.1 hy
    obtain ⟨x, hx, e⟩ := List.mem_map.1 ((h.tableOf.keys y.key).1 (List.mem_map_of_mem hy)).1
    refine ⟨by rw [← e]; exact hw x hx, ?_⟩
    rw [(h.tableOf.entry y hy).1]
    omega
  unfold determine_wacdata
  simp only
  obtain ⟨⟨r1, r2, r3⟩, e1⟩ := terms_total _ ⟨0, 0⟩ (fun _ => ⟨0, 0⟩) none (all h1 p1)
  rw [e1, bind_ok]
  simp only
  obtain ⟨⟨s1, s2, s3⟩, e2⟩ := terms_total _ r1 (fun _ => ⟨0, 0⟩) (some fun _ => ⟨0, 0⟩) (all h2 p2)
  rw [e2, bind_ok]
  simp only
  obtain ⟨ph, e3, _⟩ := process_phrases_spec (words.map Prod.snd) (fun _ => ⟨0, 0⟩)
  rw [e3, bind_ok]
  exact ⟨_, rfl⟩

theorem wordacc_ends (stop : List Nat → Bool) (u v : List (List Nat)) : EndsAs (Wordacc.wordacc stop u v)
    (common u v ≤ 65535 ∧ ∀ w ∈ u, w.length ≤ 50) (common u v ≤ 65535 ∧ ∃ w ∈ u, 50 < w.length) := by
  by_cases hm : common u v ≤ 65535
  · by_cases hl : ∃ w ∈ u, 50 < w.length
    · refine .ub (Wordacc.c33_long stop u v hl hm) ?_ ⟨hm, hl⟩
      rintro ⟨_, h⟩
      obtain ⟨w, hw, hl⟩ := hl
      have := h w hw
      omega
    · have hl' : ∀ w ∈ u, w.length ≤ 50 := fun w hw => by by_contra h; exact hl ⟨w, hw, by omega⟩
      obtain ⟨flags, e, _⟩ := Wordacc.c32_lcs u v hm
      obtain ⟨D, e'⟩ := determine_total stop (u.zip flags) (fun x hx => hl' x.1 (List.of_mem_zip hx).1)
      refine .ok D ?_ ⟨hm, hl'⟩ (fun h => hl h.2)
      unfold Wordacc.wordacc
      rw [e, bind_ok, e']
  · refine .err "text stream is too long" ?_ (fun h => hm h.1) (fun h => hm h.1)
    unfold Wordacc.wordacc
    rw [Wordacc.c32_too_long u v (by unfold common at hm; omega)]
    rfl

theorem strings_some : ∀ us : List (List Nat), Prog.strings (us.map some) = .ok us
  | [] => rfl
  | w :: us => by rw [List.map_cons, Prog.strings, strings_some us]; rfl

theorem words_give {U : Unicode} {prop : Nat → Word.WB} {nfc : List Nat → Option (List Nat)} (junk' : Nat) {t : List Ch}
    (hv : ∀ c ∈ t, c.value < 0x110000) : Gives (Word.find_words U prop nfc junk' t >>= Prog.strings)
      (fun us => Strings U prop nfc t (us.map some)) (∃ ws, Strings U prop nfc t ws ∧ none ∈ ws) := by
  refine ((find_gives U prop nfc junk' hv).bind (S := fun ws us => ws = us.map some) (C := fun ws => none ∈ ws) (fun ws _ => ?_)).imp ?_ ?_
  · rcases some_or_none ws with ⟨us, rfl⟩ | h
    · exact .ok us (strings_some us) (fun b => by rw [List.map_inj_right (fun x y h => Option.some.inj h)]; exact eq_comm) none_not_some
    · exact .ub (strings_none h) (fun b e => by rw [e] at h; exact none_not_some h) h
  · intro us
    constructor
    · rintro ⟨ws, h, rfl⟩; exact h
    · intro h; exact ⟨_, h, rfl⟩
  · simp

theorem save_none : ∀ {ws : List (Option (List Nat))} (S : Stopword.State), none ∈ ws → Stopword.saveWords ws S = .ub
  | none :: ws, _, _ => rfl
  | some w :: ws, S, h => by
    rw [Stopword.saveWords]
    exact save_none _ (by simpa using h)

theorem save_some : ∀ (us : List (List Nat)) (S : Stopword.State), ∃ S', Stopword.saveWords (us.map some) S = .ok S'
  | [], S => ⟨S, rfl⟩
  | w :: us, S => save_some us (Stopword.save_stopword w S)

theorem init_ends (U : Unicode) (L : Lower U) {junk : List Nat} (hj : Bytes junk) (prop : Nat → Word.WB) (nfc : List Nat → Option (List Nat))
    (junk' : Nat) {fs : Fs} (hfs : ∀ name file, fs name = some file → Bytes file) (s : Option (List Nat)) :
    EndsAs (initStopwords U prop nfc junk junk' fs s) (Stops fs (fun f => ∃ ws, ReadsList U prop nfc f ws) s)
      (BadStops fs (BadList U prop nfc) s) := by
  cases s with
  | none =>
    obtain ⟨S, e, _⟩ := Stopword.c38_default U prop nfc junk junk'
    exact .ok S e (fun _ h => by cases h) (by rintro ⟨_, _, h, _⟩; cases h)
  | some name =>
    unfold initStopwords
    simp only
    refine ((open_gives fs name).then (good := fun f => ∃ ws, ReadsList U prop nfc f ws) (bad := BadList U prop nfc) (fun f hf => ?_)).imp ?_ ?_
    · unfold Stopword.init_stopwords
      rw [if_neg (by simp [Stopword.State.start])]
      simp only
      refine EndsAs.map (α := Stopword.State) ?_ _
      refine ((list_gives U hj false true (hfs _ _ hf)).then (good := fun p => ∃ us : List (List Nat), Strings U prop nfc p.1 (us.map some))
        (bad := fun p => ∃ ws, Strings U prop nfc p.1 ws ∧ none ∈ ws) ?_).imp ?_ ?_
      · rintro ⟨t, o⟩ ⟨ht, _⟩
        simp only
        refine ((find_gives U prop nfc junk' (list_value L ht)).then (good := fun ws => ∃ us : List (List Nat), ws = us.map some)
          (bad := fun ws => none ∈ ws) (fun ws _ => ?_)).imp ?_ (by simp)
        · rcases some_or_none ws with ⟨us, rfl⟩ | h
          · obtain ⟨S', e⟩ := save_some us Stopword.State.start
            exact .ok S' e ⟨us, rfl⟩ none_not_some
          · exact .ub (save_none _ h) (by rintro ⟨us, rfl⟩; exact none_not_some h) h
        · constructor
          · rintro ⟨_, h, us, rfl⟩; exact ⟨us, h⟩
          · rintro ⟨us, h⟩; exact ⟨_, h, us, rfl⟩
      · constructor
        · rintro ⟨⟨t, o⟩, ⟨h1, _⟩, us, h2⟩; exact ⟨us, t, h1, h2⟩
        · rintro ⟨us, t, h1, h2⟩; exact ⟨(t, _), ⟨h1, rfl⟩, us, h2⟩
      · constructor
        · rintro (h | ⟨⟨t, o⟩, ⟨h1, _⟩, ws, h2, h3⟩)
          · exact h.elim
          · exact ⟨t, ws, h1, h2, h3⟩
        · rintro ⟨t, ws, h1, h2, h3⟩; exact .inr ⟨(t, _), ⟨h1, rfl⟩, ws, h2, h3⟩
    · constructor
      · rintro ⟨f, h1, h2⟩ n e
        cases e
        exact ⟨f, h1, h2⟩
      · intro h; exact h name rfl
    · constructor
      · rintro (h | ⟨f, h1, h2⟩)
        · exact h.elim
        · exact ⟨name, f, rfl, h1, h2⟩
      · rintro ⟨n, f, e, h1, h2⟩
        cases e
        exact .inr ⟨f, h1, h2⟩

theorem readWords_gives (U : Unicode) (L : Lower U) {junk : List Nat} (hj : Bytes junk) (prop : Nat → Word.WB) (nfc : List Nat → Option (List Nat))
    (junk' : Nat) {fs : Fs} (hfs : ∀ name file, fs name = some file → Bytes file) (n0 n1 : List Nat) (rest : List (List Nat)) :
    Gives (readWords U prop nfc junk junk' fs (n0 :: n1 :: rest))
      (fun p => ∃ f0, (fs n0 = some f0 ∧ ¬ Headed f0) ∧ ReadsWords U prop nfc f0 p.1 ∧ ∃ f1, fs n1 = some f1 ∧ ReadsWords U prop nfc f1 p.2)
      (∃ f0, (fs n0 = some f0 ∧ ¬ Headed f0) ∧ (BadWords U prop nfc f0 ∨
        ((∃ u, ReadsWords U prop nfc f0 u) ∧ ∃ f1, fs n1 = some f1 ∧ BadWords U prop nfc f1))) := by
  unfold readWords
  rw [show rd (n0 :: n1 :: rest) 0 = .ok n0 from rfl, bind_ok]
  refine ((readFile_gives U hj hfs true false n0).bind
    (S := fun p q => p.2.found_header = false ∧ Strings U prop nfc p.1 (q.1.map some) ∧ ∃ f1, fs n1 = some f1 ∧ ReadsWords U prop nfc f1 q.2)
    (C := fun p => p.2.found_header = false ∧ ((∃ ws, Strings U prop nfc p.1 ws ∧ none ∈ ws) ∨
      ((∃ us : List (List Nat), Strings U prop nfc p.1 (us.map some)) ∧ ∃ f1, fs n1 = some f1 ∧ BadWords U prop nfc f1))) ?_).imp ?_ ?_
  · rintro ⟨t0, opt⟩ ⟨f0, h0, ht0, ho⟩
    cases hb : opt.found_header with
    | true =>
      simp only [if_true, hb]
      exact .err _ rfl (by simp) (by simp)
    | false =>
      simp only [Bool.false_eq_true, if_false, true_and, hb]
      have ho' : opt = { pageText true with found_header := false } := by
        rw [show opt = _ from ho] at hb ⊢
        rw [show decide (Headed f0) = false from hb]
      rw [ho', ← Prog.assoc]
      refine ((words_give junk' (textOf_lower L (hfs _ _ h0) ht0)).bind (S := fun u q => q.1 = u ∧ ∃ f1, fs n1 = some f1 ∧ ReadsWords U prop nfc f1 q.2)
        (C := fun _ => ∃ f1, fs n1 = some f1 ∧ BadWords U prop nfc f1) ?_).imp ?_ ?_
      · intro u _
        rw [show rd (n0 :: n1 :: rest) 1 = .ok n1 from rfl, bind_ok]
        refine ((readFile_gives U hj hfs true false n1).bind (S := fun p q => q.1 = u ∧ Strings U prop nfc p.1 (q.2.map some))
          (C := fun p => ∃ ws, Strings U prop nfc p.1 ws ∧ none ∈ ws) ?_).imp ?_ ?_
        · rintro ⟨t1, o⟩ ⟨f1, h1, ht1, _⟩
          simp only
          rw [← Prog.assoc]
          refine ((words_give junk' (textOf_lower L (hfs _ _ h1) ht1)).bind (S := fun v q => q = (u, v)) (C := fun _ => False)
            (fun v _ => .ok (u, v) rfl (fun _ => Iff.rfl) id)).imp ?_ (by simp)
          rintro ⟨q1, q2⟩
          constructor
          · rintro ⟨v, h, e⟩; cases e; exact ⟨rfl, h⟩
          · rintro ⟨e, h⟩; cases e; exact ⟨q2, h, rfl⟩
        · rintro ⟨q1, q2⟩
          constructor
          · rintro ⟨⟨t1, o⟩, ⟨f1, h1, ht1, _⟩, e, hs⟩; exact ⟨e, f1, h1, t1, ht1, hs⟩
          · rintro ⟨e, f1, h1, t1, ht1, hs⟩; exact ⟨(t1, _), ⟨f1, h1, ht1, rfl⟩, e, hs⟩
        · constructor
          · rintro (h | ⟨⟨t1, o⟩, ⟨f1, h1, ht1, _⟩, ws, hs, hn⟩)
            · exact h.elim
            · exact ⟨f1, h1, t1, ws, ht1, hs, hn⟩
          · rintro ⟨f1, h1, t1, ws, ht1, hs, hn⟩; exact .inr ⟨(t1, _), ⟨f1, h1, ht1, rfl⟩, ws, hs, hn⟩
      · rintro ⟨q1, q2⟩
        constructor
        · rintro ⟨u, h, e, h'⟩; cases e; exact ⟨h, h'⟩
        · rintro ⟨h, h'⟩; exact ⟨q1, h, rfl, h'⟩
      · constructor
        · rintro (h | ⟨u, h, h'⟩)
          · exact .inl h
          · exact .inr ⟨⟨u, h⟩, h'⟩
        · rintro (h | ⟨⟨u, h⟩, h'⟩)
          · exact .inl h
          · exact .inr ⟨u, h, h'⟩
  · rintro ⟨q1, q2⟩
    constructor
    · rintro ⟨⟨t0, o⟩, ⟨f0, h0, ht0, ho⟩, hb, hs, h'⟩
      refine ⟨f0, ⟨h0, ?_⟩, ⟨t0, ht0, hs⟩, h'⟩
      rw [show o = _ from ho] at hb
      simpa using hb
    · rintro ⟨f0, ⟨h0, hh⟩, ⟨t0, ht0, hs⟩, h'⟩
      exact ⟨(t0, _), ⟨f0, h0, ht0, rfl⟩, by simpa using hh, hs, h'⟩
  · constructor
    · rintro (h | ⟨⟨t0, o⟩, ⟨f0, h0, ht0, ho⟩, hb, h'⟩)
      · exact h.elim
      · refine ⟨f0, ⟨h0, ?_⟩, ?_⟩
        · rw [show o = _ from ho] at hb
          simpa using hb
        · rcases h' with ⟨ws, hs, hn⟩ | ⟨⟨us, hs⟩, h'⟩
          · exact .inl ⟨t0, ws, ht0, hs, hn⟩
          · exact .inr ⟨⟨us, t0, ht0, hs⟩, h'⟩
    · rintro ⟨f0, ⟨h0, hh⟩, ⟨t0, ws, ht0, hs, hn⟩ | ⟨⟨us, t0, ht0, hs⟩, h'⟩⟩
      · exact .inr ⟨(t0, _), ⟨f0, h0, ht0, rfl⟩, by simpa using hh, .inl ⟨ws, hs, hn⟩⟩
      · exact .inr ⟨(t0, _), ⟨f0, h0, ht0, rfl⟩, by simpa using hh, .inr ⟨⟨us, hs⟩, h'⟩⟩

end Ocr.Ending
