import Verif.Spec.TextEndings
import Verif.Proof.Endings
import Verif.Proof.AnyText
import Verif.Props.AnyText
import Verif.Props.Word
import Verif.Props.Programs

namespace Ocr.Ending
open Text Res Prog Spec AnyText

/-- What a computation gives: exactly the values in `R`, undefined behaviour exactly if `B`, otherwise a message. -/
structure Gives {α : Type} (r : Res α) (R : α → Prop) (B : Prop) : Prop where
  value   : ∀ a, r = .ok a ↔ R a
  astray  : r = .ub ↔ B
  message : (¬ ∃ a, R a) → ¬ B → ∃ msg, r = .err msg

theorem Gives.ok {α : Type} {r : Res α} {R : α → Prop} {B : Prop} (a : α) (e : r = .ok a) (hR : ∀ b, R b ↔ b = a) (hB : ¬ B) : Gives r R B := by
  subst e
  refine ⟨fun b => ?_, ⟨fun h => (by cases h), fun h => absurd h hB⟩, fun h => absurd ⟨a, (hR a).2 rfl⟩ h⟩
  rw [hR, Res.ok.injEq]
  exact eq_comm
theorem Gives.ub {α : Type} {r : Res α} {R : α → Prop} {B : Prop} (e : r = .ub) (hR : ∀ b, ¬ R b) (hB : B) : Gives r R B := by
  subst e
  exact ⟨fun b => ⟨fun h => (by cases h), fun h => absurd h (hR b)⟩, ⟨fun _ => hB, fun _ => rfl⟩, fun _ h => absurd hB h⟩
theorem Gives.err {α : Type} {r : Res α} {R : α → Prop} {B : Prop} (msg : String) (e : r = .err msg) (hR : ∀ b, ¬ R b) (hB : ¬ B) : Gives r R B := by
  subst e
  exact ⟨fun b => ⟨fun h => (by cases h), fun h => absurd h (hR b)⟩, ⟨fun h => (by cases h), fun h => absurd h hB⟩, fun _ _ => ⟨msg, rfl⟩⟩

theorem Gives.not_fuel {α : Type} {R : α → Prop} {B : Prop} (h : Gives (.fuel : Res α) R B) : False := by
  by_cases hR : ∃ a, R a
  · obtain ⟨a, ha⟩ := hR
    have := (h.value a).2 ha
    cases this
  · by_cases hB : B
    · have := h.astray.2 hB
      cases this
    · obtain ⟨msg, e⟩ := h.message hR hB
      cases e

theorem Gives.imp {α : Type} {r : Res α} {R R' : α → Prop} {B B' : Prop} (h : Gives r R B) (hR : ∀ a, R a ↔ R' a) (hB : B ↔ B') :
    Gives r R' B' := by
  have : R = R' := funext fun a => propext (hR a)
  have : B = B' := propext hB
  subst_vars
  exact h

theorem Gives.bind {α β : Type} {x : Res α} {k : α → Res β} {R : α → Prop} {B : Prop} {S : α → β → Prop} {C : α → Prop}
    (h : Gives x R B) (hk : ∀ a, R a → Gives (k a) (S a) (C a)) :
    Gives (x >>= k) (fun b => ∃ a, R a ∧ S a b) (B ∨ ∃ a, R a ∧ C a) := by
  cases x with
  | ok a =>
    have ha := (h.value a).1 rfl
    have one : ∀ a', R a' → a' = a := fun a' h' => (Res.ok.inj ((h.value a').2 h')).symm
    have hB : ¬ B := fun b => by have := h.astray.2 b; cases this
    refine (hk a ha).imp (fun b => ⟨fun hs => ⟨a, ha, hs⟩, ?_⟩) ⟨fun hc => .inr ⟨a, ha, hc⟩, ?_⟩
    · rintro ⟨a', h', hs⟩; rw [one a' h'] at hs; exact hs
    · rintro (hb | ⟨a', h', hs⟩)
      · exact absurd hb hB
      · rw [one a' h'] at hs; exact hs
  | err msg =>
    have no : ∀ a, ¬ R a := fun a ha => by have := (h.value a).2 ha; cases this
    have hB : ¬ B := fun b => by have := h.astray.2 b; cases this
    refine .err msg rfl (fun b => ?_) ?_
    · rintro ⟨a, ha, _⟩; exact no a ha
    · rintro (hb | ⟨a, ha, _⟩)
      · exact hB hb
      · exact no a ha
  | ub =>
    have no : ∀ a, ¬ R a := fun a ha => by have := (h.value a).2 ha; cases this
    refine .ub rfl (fun b => ?_) (.inl (h.astray.1 rfl))
    rintro ⟨a, ha, _⟩; exact no a ha
  | fuel => exact h.not_fuel.elim

theorem Gives.ends {α : Type} {x : Res α} {R : α → Prop} {B : Prop} (h : Gives x R B) : EndsAs x (∃ a, R a) B :=
  ⟨⟨fun ⟨a, e⟩ => ⟨a, (h.value a).1 e⟩, fun ⟨a, ha⟩ => ⟨a, (h.value a).2 ha⟩⟩, h.astray, h.message⟩

theorem EndsAs.not_fuel {α : Type} {good bad : Prop} (h : EndsAs (.fuel : Res α) good bad) : False := by
  by_cases hg : good
  · obtain ⟨a, ha⟩ := h.output.2 hg
    cases ha
  · by_cases hb : bad
    · have := h.astray.2 hb
      cases this
    · obtain ⟨msg, e⟩ := h.message hg hb
      cases e

/-- What follows a computation. -/
theorem Gives.then {α β : Type} {x : Res α} {k : α → Res β} {R : α → Prop} {B : Prop} {good bad : α → Prop}
    (h : Gives x R B) (hk : ∀ a, R a → EndsAs (k a) (good a) (bad a)) :
    EndsAs (x >>= k) (∃ a, R a ∧ good a) (B ∨ ∃ a, R a ∧ bad a) := by
  have := h.bind (S := fun a b => k a = .ok b) (C := bad) (k := k) (fun a ha => by
    have hk := hk a ha
    refine ⟨fun b => Iff.rfl, hk.astray, fun h1 h2 => hk.message (fun g => h1 ?_) h2⟩
    exact hk.output.2 g)
  refine this.ends.imp ⟨?_, ?_⟩ Iff.rfl
  · rintro ⟨b, a, ha, e⟩
    exact ⟨a, ha, (hk a ha).output.1 ⟨b, e⟩⟩
  · rintro ⟨a, ha, g⟩
    obtain ⟨b, e⟩ := (hk a ha).output.2 g
    exact ⟨b, a, ha, e⟩

/-- If what follows never fails. -/
theorem EndsAs.total {α : Type} {r : Res α} (h : ∃ a, r = .ok a) : EndsAs r True False := by
  obtain ⟨a, e⟩ := h
  exact .ok a e trivial id

/-- Several values at most, then nothing that depends on which. -/
theorem EndsAs.bind {α β : Type} {x : Res α} {k : α → Res β} {good bad : Prop} (h : EndsAs x good bad)
    (hk : ∀ a, x = .ok a → ∃ b, k a = .ok b) : EndsAs (x >>= k) good bad := by
  cases x with
  | ok a =>
    obtain ⟨b, e⟩ := hk a rfl
    exact .ok b e (h.output.1 ⟨a, rfl⟩) (fun b => by have := h.astray.2 b; cases this)
  | err msg =>
    exact .err msg rfl (fun g => by obtain ⟨_, h⟩ := h.output.2 g; cases h) (fun b => by have := h.astray.2 b; cases this)
  | ub => exact .ub rfl (fun g => by obtain ⟨_, h⟩ := h.output.2 g; cases h) (h.astray.1 rfl)
  | fuel => exact h.not_fuel.elim

/-- The command line of any program: it is refused, or it is what the program runs on. -/
theorem options_end {T : List (Nat × Args.Kind)} (hT : Args.Table T) {prog : List Nat} {args : List (List Nat)}
    (hp : prog.length ≤ 32768) (hl : args.length < 32768) (h0 : ∀ a ∈ args, 0 ∉ a) {α : Type} {main : List (List Nat) → Args.Vars → Res α}
    {r : Res α} (hr : r = Args.initialize_ (some (T.map Args.optOf)) true (prog :: args) start >>= fun x => main x.2.1 x.2.2)
    {good bad : List (List Nat) → List Args.Setting → Prop}
    (h : ∀ names ss V, CommandLine T prog args names ss → Args.Holds ss V → EndsAs (main names V) (good names ss) (bad names ss)) :
    EndsAs r (∃ names ss, CommandLine T prog args names ss ∧ good names ss) (∃ names ss, CommandLine T prog args names ss ∧ bad names ss) := by
  rcases line_or_refused hT hp hl h0 with ⟨names, ss, hc⟩ | ⟨msg, e⟩
  · obtain ⟨b, V, e, hV⟩ := init_args hT hc
    have same : ∀ names' ss', CommandLine T prog args names' ss' → EndsAs r (good names' ss') (bad names' ss') := by
      intro names' ss' hc'
      obtain ⟨b', V', e', hV'⟩ := init_args hT hc'
      have := h names' ss' V' hc' hV'
      rw [hr, e', bind_ok]
      exact this
    have hs := same names ss hc
    refine ⟨hs.output.trans ⟨fun g => ⟨names, ss, hc, g⟩, ?_⟩, hs.astray.trans ⟨fun g => ⟨names, ss, hc, g⟩, ?_⟩,
      fun h1 h2 => hs.message (fun g => h1 ⟨names, ss, hc, g⟩) (fun g => h2 ⟨names, ss, hc, g⟩)⟩
    · rintro ⟨n', s', hc', g⟩
      exact hs.output.1 ((same n' s' hc').output.2 g)
    · rintro ⟨n', s', hc', g⟩
      exact hs.astray.1 ((same n' s' hc').astray.2 g)
  · have none : ∀ names ss, ¬ CommandLine T prog args names ss := by
      intro names ss hc
      obtain ⟨b, V, e', _⟩ := init_args hT hc
      rw [e] at e'
      cases e'
    rw [e, bind_err] at hr
    exact .err msg hr (fun ⟨n, s, hc, _⟩ => none n s hc) (fun ⟨n, s, hc, _⟩ => none n s hc)

/-! ## Files -/

theorem open_gives (fs : Fs) (name : List Nat) : Gives (open_file fs name) (fun f => fs name = some f) False := by
  unfold open_file
  cases h : fs name with
  | none => exact .err _ rfl (fun b hb => by cases hb) id
  | some f => exact .ok f rfl (fun b => ⟨fun h => (Option.some.inj h).symm, fun h => by rw [h]⟩) id

theorem read_gives (U : Unicode) {junk : List Nat} (hj : Bytes junk) (fold b : Bool) {file : List Nat} (hf : Bytes file) :
    Gives (read_text U junk [] file { pageText fold with found_header := b })
      (fun p => TextOf U fold file p.1 ∧ p.2 = { pageText fold with found_header := decide (Headed file) }) False := by
  refine ⟨fun p => read_any U junk fold b file hf hj p.1 p.2, ⟨fun h => ?_, False.elim⟩, fun h _ => ?_⟩
  · rcases read_total U junk [] file { pageText fold with found_header := b } hf hj with ⟨r, e⟩ | ⟨msg, e⟩ <;> rw [h] at e <;> cases e
  · exact read_refused U junk fold b file hf hj (fun hw => h (by
      obtain ⟨t, ht⟩ := (textOf_iff U fold file).2 hw
      exact ⟨(t, _), ht, rfl⟩))

theorem readFile_gives (U : Unicode) {junk : List Nat} (hj : Bytes junk) {fs : Fs} (hfs : ∀ name file, fs name = some file → Bytes file)
    (fold b : Bool) (name : List Nat) :
    Gives (readFile U junk fs name { pageText fold with found_header := b })
      (fun p => ∃ f, fs name = some f ∧ TextOf U fold f p.1 ∧ p.2 = { pageText fold with found_header := decide (Headed f) }) False :=
  ((open_gives fs name).bind (fun f hf => read_gives U hj fold b (hfs _ _ hf))).imp (fun _ => Iff.rfl) (by simp)

theorem textOf_value {U : Unicode} {file : List Nat} (hf : Bytes file) {t : List Ch} (h : TextOf U false file t) :
    ∀ c ∈ t, c.value < 0x110000 := by
  have e := (read_any U [] false false file hf (by simp [Bytes]) t _).2 ⟨h, rfl⟩
  intro c hc
  exact ((read_bounds hf (by simp [Bytes]) (b := false) e).2.1 c hc).1

/-! ## Pairs -/

theorem readPair_gives (U : Unicode) {junk : List Nat} (hj : Bytes junk) {fs : Fs} (hfs : ∀ name file, fs name = some file → Bytes file)
    (n0 n1 : List Nat) (rest : List (List Nat)) : Gives (readPair U junk fs (n0 :: n1 :: rest))
      (fun p => ∃ f0 f1, fs n0 = some f0 ∧ ¬ Headed f0 ∧ TextOf U false f0 p.1 ∧ fs n1 = some f1 ∧ TextOf U false f1 p.2) False := by
  unfold readPair
  rw [show rd (n0 :: n1 :: rest) 0 = .ok n0 from rfl, bind_ok]
  refine ((readFile_gives U hj hfs false false n0).bind (S := fun p q => p.2.found_header = false ∧ q.1 = p.1 ∧
    ∃ f1, fs n1 = some f1 ∧ TextOf U false f1 q.2) (C := fun _ => False) ?_).imp ?_ (by simp)
  · rintro ⟨t0, opt⟩ ⟨f0, h0, ht0, ho⟩
    cases hb : opt.found_header with
    | true =>
      simp only [if_true, hb]
      exact .err _ rfl (by simp) id
    | false =>
      simp only [Bool.false_eq_true, if_false, true_and, hb]
      rw [show rd (n0 :: n1 :: rest) 1 = .ok n1 from rfl, bind_ok]
      have ho' : opt = { pageText false with found_header := false } := by
        rw [show opt = _ from ho] at hb ⊢
        rw [show decide (Headed f0) = false from hb]
      rw [ho']
      refine ((readFile_gives U hj hfs false false n1).bind (S := fun p q => q = (t0, p.1)) (C := fun _ => False) (fun p _ =>
        .ok (t0, p.1) rfl (fun _ => Iff.rfl) id)).imp ?_ (by simp)
      rintro ⟨q1, q2⟩
      constructor
      · rintro ⟨p, ⟨f1, h1, ht1, _⟩, e⟩
        cases e
        exact ⟨rfl, f1, h1, ht1⟩
      · rintro ⟨e, f1, h1, ht1⟩
        cases e
        exact ⟨(q2, _), ⟨f1, h1, ht1, rfl⟩, rfl⟩
  · rintro ⟨q1, q2⟩
    constructor
    · rintro ⟨⟨t0, o⟩, ⟨f0, h0, ht0, ho⟩, hb, e, f1, h1, ht1⟩
      cases e
      refine ⟨f0, f1, h0, ?_, ht0, h1, ht1⟩
      rw [show o = _ from ho] at hb
      simpa using hb
    · rintro ⟨f0, f1, h0, hh, ht0, h1, ht1⟩
      exact ⟨(q1, _), ⟨f0, h0, ht0, rfl⟩, by simpa using hh, rfl, f1, h1, ht1⟩

/-- A comparison of two texts. -/
theorem pair_ends (U : Unicode) {junk : List Nat} (hj : Bytes junk) {fs : Fs} (hfs : ∀ name file, fs name = some file → Bytes file)
    (names : List (List Nat)) {α : Type} (k : List Ch × List Ch → Res α) {good bad : List Ch → List Ch → Prop}
    (hk : ∀ t0 t1, Compared U false fs names t0 t1 → EndsAs (k (t0, t1)) (good t0 t1) (bad t0 t1)) :
    EndsAs (if names.length < 2 ∨ names.length > 3 then .err "invalid number of files" else readPair U junk fs names >>= k)
      (∃ t0 t1, Compared U false fs names t0 t1 ∧ good t0 t1) (∃ t0 t1, Compared U false fs names t0 t1 ∧ bad t0 t1) := by
  by_cases hn : names.length < 2 ∨ names.length > 3
  · rw [if_pos hn]
    have no : ∀ t0 t1, ¬ Compared U false fs names t0 t1 := by
      rintro t0 t1 ⟨n0, n1, rest, f0, f1, rfl, hr, _⟩
      simp at hn; omega
    exact .err _ rfl (fun ⟨t0, t1, h, _⟩ => no t0 t1 h) (fun ⟨t0, t1, h, _⟩ => no t0 t1 h)
  · rw [if_neg hn]
    obtain ⟨n0, n1, rest, rfl⟩ : ∃ n0 n1 rest, names = n0 :: n1 :: rest := by
      rcases names with _ | ⟨n0, _ | ⟨n1, rest⟩⟩
      · simp at hn
      · simp at hn
      · exact ⟨_, _, _, rfl⟩
    have hr : rest.length ≤ 1 := by simp at hn; omega
    have iff : ∀ t0 t1, Compared U false fs (n0 :: n1 :: rest) t0 t1 ↔
        ∃ f0 f1, fs n0 = some f0 ∧ ¬ Headed f0 ∧ TextOf U false f0 t0 ∧ fs n1 = some f1 ∧ TextOf U false f1 t1 := by
      intro t0 t1
      constructor
      · rintro ⟨m0, m1, r, f0, f1, e, _, h⟩
        cases e
        exact ⟨f0, f1, h⟩
      · rintro ⟨f0, f1, h⟩
        exact ⟨n0, n1, rest, f0, f1, rfl, hr, h⟩
    refine ((readPair_gives U hj hfs n0 n1 rest).then (k := k) (good := fun p => good p.1 p.2) (bad := fun p => bad p.1 p.2)
      (fun p hp => hk p.1 p.2 ((iff _ _).2 hp))).imp ?_ ?_
    · constructor
      · rintro ⟨⟨t0, t1⟩, h, g⟩; exact ⟨t0, t1, (iff _ _).2 h, g⟩
      · rintro ⟨t0, t1, h, g⟩; exact ⟨(t0, t1), (iff _ _).1 h, g⟩
    · constructor
      · rintro (h | ⟨⟨t0, t1⟩, h, g⟩)
        · exact h.elim
        · exact ⟨t0, t1, (iff _ _).2 h, g⟩
      · rintro ⟨t0, t1, h, g⟩; exact .inr ⟨(t0, t1), (iff _ _).1 h, g⟩

/-! ## Words -/

theorem textOf_lower {U : Unicode} (L : Lower U) {fold : Bool} {file : List Nat} (hf : Bytes file) {t : List Ch} (h : TextOf U fold file t) :
    ∀ c ∈ t, c.value < 0x110000 := by
  obtain ⟨cs, g0, parts, h1, h2, h3, h4, rfl⟩ := h
  have k : TextOf U false file (normalized parts) := ⟨cs, g0, parts, h1, h2, h3, h4, by simp⟩
  intro c hc
  obtain ⟨d, hd, rfl⟩ := List.mem_map.1 hc
  have := textOf_value hf k d hd
  split
  · exact L _ this
  · exact this

theorem find_gives (U : Unicode) (prop : Nat → Word.WB) (nfc : List Nat → Option (List Nat)) (junk' : Nat) {t : List Ch}
    (hv : ∀ c ∈ t, c.value < 0x110000) : Gives (Word.find_words U prop nfc junk' t) (Strings U prop nfc t) False := by
  by_cases h : ∃ c ∈ t, Word.isExt (prop c.value) = false
  · obtain ⟨segs, h1, h2⟩ := Word.c35_words U prop nfc junk' t hv (.inr h)
    refine .ok _ h2 (fun ws => ⟨?_, ?_⟩) id
    · rintro (⟨h', _⟩ | ⟨_, segs', h3, rfl⟩)
      · obtain ⟨c, hc, e⟩ := h
        rw [h' c hc] at e; cases e
      · rw [Word.c36_unique _ _ _ _ h1 h3]
    · rintro rfl
      exact .inr ⟨h, segs, h1, rfl⟩
  · have h' : ∀ c ∈ t, Word.isExt (prop c.value) = true := by
      intro c hc
      cases e : Word.isExt (prop c.value) with
      | true => rfl
      | false => exact absurd ⟨c, hc, e⟩ h
    refine .ok [] (Word.c35_dropped U prop nfc junk' t h') (fun ws => ⟨?_, ?_⟩) id
    · rintro (⟨_, e⟩ | ⟨h'', _⟩)
      · exact e
      · exact absurd h'' h
    · rintro rfl
      exact .inl ⟨h', rfl⟩

theorem strings_exist (U : Unicode) (prop : Nat → Word.WB) (nfc : List Nat → Option (List Nat)) {t : List Ch}
    (hv : ∀ c ∈ t, c.value < 0x110000) : ∃ ws, Strings U prop nfc t ws := by
  by_contra h
  obtain ⟨msg, e⟩ := (find_gives U prop nfc 0 hv).message h id
  by_cases hx : ∃ c ∈ t, Word.isExt (prop c.value) = false
  · obtain ⟨segs, _, h2⟩ := Word.c35_words U prop nfc 0 t hv (.inr hx)
    rw [e] at h2; cases h2
  · rw [Word.c35_dropped U prop nfc 0 t (by
      intro c hc
      cases e : Word.isExt (prop c.value) with
      | true => rfl
      | false => exact absurd ⟨c, hc, e⟩ hx)] at e
    cases e

theorem strings_unique {U : Unicode} {prop : Nat → Word.WB} {nfc : List Nat → Option (List Nat)} {t : List Ch}
    {ws ws' : List (Option (List Nat))} (h : Strings U prop nfc t ws) (h' : Strings U prop nfc t ws') : ws = ws' := by
  rcases h with ⟨h, rfl⟩ | ⟨⟨c, hc, h⟩, segs, h1, rfl⟩ <;> rcases h' with ⟨h', rfl⟩ | ⟨⟨d, hd, h'⟩, segs', h1', rfl⟩
  · rfl
  · rw [h d hd] at h'; cases h'
  · rw [h' c hc] at h; cases h
  · rw [Word.c36_unique _ _ _ _ h1 h1']

theorem some_or_none : ∀ ws : List (Option (List Nat)), (∃ us : List (List Nat), ws = us.map some) ∨ none ∈ ws
  | [] => .inl ⟨[], rfl⟩
  | none :: ws => .inr (by simp)
  | some w :: ws => by
    rcases some_or_none ws with ⟨us, rfl⟩ | h
    · exact .inl ⟨w :: us, rfl⟩
    · exact .inr (by simp [h])

theorem none_not_some {us : List (List Nat)} : none ∉ us.map some := by simp

theorem strings_none : ∀ {ws : List (Option (List Nat))}, none ∈ ws → Prog.strings ws = .ub
  | none :: ws, _ => rfl
  | some w :: ws, h => by
    rw [Prog.strings, strings_none (by simpa using h)]
    rfl

theorem addWords_some : ∀ (us : List (List Nat)) (t : List Term), ∃ t', Wordfreq.addWords (us.map some) t = .ok t'
  | [], t => ⟨t, rfl⟩
  | w :: us, t => addWords_some us (Wac.add_term t w 1 0)

theorem addWords_none : ∀ {ws : List (Option (List Nat))} (t : List Term), none ∈ ws → Wordfreq.addWords ws t = .ub
  | none :: ws, _, _ => rfl
  | some w :: ws, t, h => by
    rw [Wordfreq.addWords]
    exact addWords_none _ (by simpa using h)

theorem words_x {U : Unicode} {prop : Nat → Word.WB} {nfc : List Nat → Option (List Nat)} (f : List Nat) (o : List (List Nat))
    (h : ReadsWords U prop nfc f o) : ¬ BadWords U prop nfc f := by
  obtain ⟨t, h1, h2⟩ := h
  rintro ⟨t', ws, h3, h4, h5⟩
  rw [textOf_unique h3 h1] at h4
  rw [strings_unique h4 h2] at h5
  exact none_not_some h5

theorem words_u {U : Unicode} {prop : Nat → Word.WB} {nfc : List Nat → Option (List Nat)} (f : List Nat) (o o' : List (List Nat))
    (h : ReadsWords U prop nfc f o) (h' : ReadsWords U prop nfc f o') : o = o' := by
  obtain ⟨t, h1, h2⟩ := h
  obtain ⟨t', h3, h4⟩ := h'
  rw [textOf_unique h3 h1] at h4
  exact List.map_injective_iff.2 (Option.some_injective _) (strings_unique h2 h4)

theorem wordfreq_report (t : List Term) : ∃ bytes, Wordfreq.write_report t = .ok bytes := by
  unfold Wordfreq.write_report
  obtain ⟨a, e, _⟩ := Sort.c03_sort_permutes compare_term (Store.in_array Term.key t) _ (le_refl _)
  obtain ⟨b, e', _⟩ := Sort.c03_sort_permutes wf_order_by_count a _ (le_refl _)
  simp only [e, bind_ok, e']
  exact ⟨_, rfl⟩

theorem ngram_report (t : Ngram.Seqtable) : ∃ bytes, Ngram.write_report t = .ok bytes := by
  unfold Ngram.write_report
  obtain ⟨a, e, _⟩ := Sort.c03_sort_permutes ng_order_by_value (Store.in_array Sequence.key t.entries) _ (le_refl _)
  obtain ⟨b, e', _⟩ := Sort.c03_sort_permutes ng_order_by_count a _ (le_refl _)
  simp only [e, bind_ok, e']
  exact ⟨_, rfl⟩

/-- What accuracy counts can be written. -/
theorem accuracy_known {t0 t1 : List Ch} {D : Acc.Accdata} (h : Acc.Consistent t0 t1 D) : Acc.Known D := by
  intro i hi
  have h0 : (D.large_class i).count = 0 := by
    rw [h.large, Nat.cast_eq_zero, List.countP_eq_zero]
    intro v _ hv
    have := Charclass.charclass_lt (of_decide_eq_true hv)
    omega
  have := h.large_ok i
  unfold Acc.Accclass.Sound at this
  have h1 : (D.large_class i).missed = 0 := by omega
  revert h0 h1
  generalize D.large_class i = c
  intro h0 h1
  cases c
  simp_all

end Ocr.Ending
