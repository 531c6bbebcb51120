import Verif.Spec.Endings
import Verif.Proof.Evaluations
import Verif.Props.AnyReport
import Verif.Props.Running
import Verif.Props.Frequencies
import Verif.Proof.Reports

namespace Ocr.Ending
open Text Res Prog AnyReport Spec

/-- A run over files ends in one of three ways. -/
inductive Ends {α β : Type} (fs : Fs) (R : List Nat → β → Prop) (B : List Nat → Prop) (J : List β → α → Prop) (names : List (List Nat))
    (os0 : List β) : Res α → Prop
  | read (a : α) (os : List β) : AllRead fs R names os → J (os0 ++ os) a → Ends fs R B J names os0 (.ok a)
  | refused (msg : String) : (¬ ∃ os, AllRead fs R names os) → ¬ Astray fs R B names → Ends fs R B J names os0 (.err msg)
  | astray : Astray fs R B names → Ends fs R B J names os0 .ub

theorem not_both {β : Type} {fs : Fs} {R : List Nat → β → Prop} {B P : List Nat → Prop} (hx : ∀ f o, P f → R f o → ¬ B f)
    (hP : ∀ name file, fs name = some file → P file) {names : List (List Nat)}
    {os : List β} (h : AllRead fs R names os) : ¬ Astray fs R B names := by
  rintro ⟨pre, name, post, file, os', rfl, -, hf, hb⟩
  unfold AllRead at h
  obtain ⟨o, _, file', hf', hr⟩ : ∃ o ∈ os, ∃ file, fs name = some file ∧ R file o := by
    have : ∀ {l : List (List Nat)} {m : List β}, List.Forall₂ (fun name o => ∃ file, fs name = some file ∧ R file o) l m → name ∈ l →
        ∃ o ∈ m, ∃ file, fs name = some file ∧ R file o := by
      intro l m h
      induction h with
      | nil => intro h; cases h
      | @cons x o l m hxo _ ih =>
        intro hm
        rcases List.mem_cons.1 hm with rfl | hm
        · exact ⟨o, by simp, hxo⟩
        · obtain ⟨o', h1, h2⟩ := ih hm
          exact ⟨o', by simp [h1], h2⟩
    exact this h (by simp)
  rw [hf] at hf'
  cases hf'
  exact hx _ _ (hP _ _ hf) hr hb

theorem forFiles_ends {α β : Type} {fs : Fs} {step : α → List Nat → Res α} {R : List Nat → β → Prop} {B P : List Nat → Prop}
    {J : List β → α → Prop} (hx : ∀ f o, P f → R f o → ¬ B f)
    (hP : ∀ name file, fs name = some file → P file)
    (hR : ∀ os a f o, J os a → P f → R f o → ∃ a', step a f = .ok a' ∧ J (os ++ [o]) a')
    (hB : ∀ os a f, J os a → P f → B f → step a f = .ub)
    (hE : ∀ os a f, J os a → P f → (¬ ∃ o, R f o) → ¬ B f → ∃ msg, step a f = .err msg) :
    ∀ (names : List (List Nat)) (os0 : List β) (a : α), J os0 a → Ends fs R B J names os0 (forFiles fs step names a)
  | [], os0, a, hJ => .read a [] .nil (by simpa using hJ)
  | name :: names, os0, a, hJ => by
    unfold forFiles open_file
    cases hf : fs name with
    | none =>
      refine .refused _ ?_ ?_
      · rintro ⟨os, h⟩
        cases h with
        | cons h _ => obtain ⟨file, h, _⟩ := h; rw [hf] at h; cases h
      · rintro ⟨pre, x, post, file, os, e, h, h1, _⟩
        cases pre with
        | nil =>
          rw [List.nil_append] at e
          cases e
          rw [hf] at h1; cases h1
        | cons y pre =>
          rw [List.cons_append] at e
          cases e
          cases h with
          | cons h _ => obtain ⟨file, h, _⟩ := h; rw [hf] at h; cases h
    | some file =>
      simp only [bind_ok]
      by_cases hr : ∃ o, R file o
      · obtain ⟨o, hr⟩ := hr
        obtain ⟨a', e, hJ'⟩ := hR os0 a file o hJ (hP _ _ hf) hr
        rw [e, bind_ok]
        have ih := forFiles_ends hx hP hR hB hE names (os0 ++ [o]) a' hJ'
        revert ih
        generalize forFiles fs step names a' = r
        intro ih
        cases ih with
        | read a os h1 h2 => exact .read a (o :: os) (.cons ⟨file, hf, hr⟩ h1) (by simpa using h2)
        | refused msg h1 h2 =>
          refine .refused msg ?_ ?_
          · rintro ⟨os, h⟩
            cases h with
            | cons _ h => exact h1 ⟨_, h⟩
          · rintro ⟨pre, x, post, file', os, e, h, h3, h4⟩
            cases pre with
            | nil =>
              rw [List.nil_append] at e
              cases e
              rw [hf] at h3; cases h3
              exact hx _ _ (hP _ _ hf) hr h4
            | cons y pre =>
              rw [List.cons_append] at e
              cases e
              cases h with
              | cons _ h => exact h2 ⟨pre, x, post, file', _, rfl, h, h3, h4⟩
        | astray h =>
          obtain ⟨pre, x, post, file', os, rfl, h, h3, h4⟩ := h
          exact .astray ⟨name :: pre, x, post, file', o :: os, rfl, .cons ⟨file, hf, hr⟩ h, h3, h4⟩
      · by_cases hb : B file
        · rw [hB os0 a file hJ (hP _ _ hf) hb, bind_ub]
          exact .astray ⟨[], name, names, file, [], rfl, .nil, hf, hb⟩
        · obtain ⟨msg, e⟩ := hE os0 a file hJ (hP _ _ hf) hr hb
          rw [e, bind_err]
          refine .refused msg ?_ ?_
          · rintro ⟨os, h⟩
            cases h with
            | cons h _ =>
              obtain ⟨file', h, h'⟩ := h
              rw [hf] at h; cases h
              exact hr ⟨_, h'⟩
          · rintro ⟨pre, x, post, file', os, e, h, h1, h2⟩
            cases pre with
            | nil =>
              rw [List.nil_append] at e
              cases e
              rw [hf] at h1; cases h1
              exact hb h2
            | cons y pre =>
              rw [List.cons_append] at e
              cases e
              cases h with
              | cons h _ =>
                obtain ⟨file', h, h'⟩ := h
                rw [hf] at h; cases h
                exact hr ⟨_, h'⟩

/-! ## The three readers -/

theorem editop_x (f : List Nat) (o : Unit) (h : ReadsEditop f o) : ¬ BadEditop f := by
  obtain ⟨a, b, c, R, e, h⟩ := h
  rintro ⟨a', b', c', R', e', r, hr, hn⟩
  rw [e] at e'
  cases e'
  exact hn (h r hr)

theorem editop_reads (D : Edo.Edodata) (f : List Nat) (h : ReadsEditop f ()) : ∃ E, Edo.read_edorpt D f = .ok E := by
  obtain ⟨a, b, c, R, e, h⟩ := h
  have k := c69_editop D f
  rw [e] at k
  exact ⟨_, k.1 h⟩

theorem editop_bad (D : Edo.Edodata) (f : List Nat) (h : BadEditop f) : Edo.read_edorpt D f = .ub := by
  obtain ⟨a, b, c, R, e, h⟩ := h
  have k := c69_editop D f
  rw [e] at k
  exact k.2 h

theorem editop_else (D : Edo.Edodata) (f : List Nat) (h : ¬ ∃ o, ReadsEditop f o) (hb : ¬ BadEditop f) :
    ∃ msg, Edo.read_edorpt D f = .err msg := by
  have k := c69_editop D f
  cases e : editop (lines f) with
  | none => rw [e] at k; exact ⟨_, k⟩
  | some x =>
    obtain ⟨a, b, c, R⟩ := x
    exfalso
    by_cases hR : ∀ r ∈ R, 0 ≤ r.second ∧ r.second ≤ 100
    · exact h ⟨(), a, b, c, R, e, hR⟩
    · apply hb
      refine ⟨a, b, c, R, e, ?_⟩
      by_contra hc
      exact hR (fun r hr => by by_contra hn; exact hc ⟨r, hr, hn⟩)

theorem wordacc_x (f : List Nat) (o : Int × Int) (h : ReadsWordacc f o) : ¬ BadWordacc f := by
  obtain ⟨p, e, h, _⟩ := h
  rintro ⟨p', e', h'⟩
  rw [e] at e'
  cases e'
  exact h' h

theorem wordacc_u (f : List Nat) (o o' : Int × Int) (h : ReadsWordacc f o) (h' : ReadsWordacc f o') : o = o' := by
  obtain ⟨p, e, _, rfl⟩ := h
  obtain ⟨p', e', _, rfl⟩ := h'
  rw [e] at e'
  cases e'
  rfl

theorem wordacc_reads (D : Wac.Wacdata) (f : List Nat) (o : Int × Int) (h : ReadsWordacc f o) :
    ∃ E, Wac.read_wacrpt D f = .ok E ∧ E.total = ⟨D.total.count + o.1, D.total.missed + o.2⟩ := by
  obtain ⟨p, e, h, rfl⟩ := h
  have k := c69_wordacc D f
  rw [e] at k
  obtain ⟨E, h1, h2⟩ := k.1 h
  exact ⟨E, h1, h2.total⟩

theorem wordacc_bad (D : Wac.Wacdata) (f : List Nat) (h : BadWordacc f) : Wac.read_wacrpt D f = .ub := by
  obtain ⟨p, e, h⟩ := h
  have k := c69_wordacc D f
  rw [e] at k
  exact k.2 h

theorem wordacc_else (D : Wac.Wacdata) (f : List Nat) (h : ¬ ∃ o, ReadsWordacc f o) (hb : ¬ BadWordacc f) :
    ∃ msg, Wac.read_wacrpt D f = .err msg := by
  have k := c69_wordacc D f
  cases e : wordacc (lines f) with
  | none => rw [e] at k; exact ⟨_, k⟩
  | some p =>
    exfalso
    by_cases hp : p.Sound
    · exact h ⟨_, p, e, hp, rfl⟩
    · exact hb ⟨p, e, hp⟩

open Ocr.Acc in
theorem accuracy_reads (D : Accdata) (f : List Nat) (hb : Bytes f) (o : Int × Int) (h : ReadsAccuracy f o) :
    ∃ p vs E, read_accrpt D f = .ok E ∧ AccuracyParts.Adds p vs D E ∧ p.head.characters = o.1 ∧ p.head.errors = o.2 := by
  obtain ⟨p, e, h1, ⟨vs, h2⟩, rfl⟩ := h
  have k := c69_accuracy D f hb
  rw [e] at k
  obtain ⟨E, h3, h4⟩ := (k.2 h1).1 vs h2
  exact ⟨p, vs, E, h3, h4, rfl, rfl⟩

theorem accuracy_bad (D : Acc.Accdata) (f : List Nat) (hb : Bytes f) (h : BadAccuracy f) : Acc.read_accrpt D f = .ub := by
  obtain ⟨p, e, h⟩ := h
  have k := c69_accuracy D f hb
  rw [e] at k
  by_cases h1 : HasNames 20 p.confs
  · rcases h with h | ⟨pre, r, post, us, e1, h2, h3⟩
    · exact absurd h1 h
    · exact ((k.2 h1).2 pre r post us e1 h2).2 h3
  · exact k.1 h1

theorem accuracy_else (D : Acc.Accdata) (f : List Nat) (hf : Bytes f) (h : ¬ ∃ o, ReadsAccuracy f o) (hb : ¬ BadAccuracy f) :
    ∃ msg, Acc.read_accrpt D f = .err msg := by
  have k := c69_accuracy D f hf
  cases e : accuracy (lines f) with
  | none => rw [e] at k; exact ⟨_, k⟩
  | some p =>
    rw [e] at k
    by_cases h1 : HasNames 20 p.confs
    · rcases c69_rows p.classes with ⟨vs, h2⟩ | ⟨pre, r, post, us, e1, h2, h3⟩
      · exact absurd ⟨_, p, e, h1, ⟨vs, h2⟩, rfl⟩ h
      · rcases h3 with h3 | h3
        · exact ⟨_, ((k.2 h1).2 pre r post us e1 h2).1 h3⟩
        · exact absurd ⟨p, e, .inr ⟨pre, r, post, us, e1, h2, h3⟩⟩ hb
    · exact absurd ⟨p, e, .inl h1⟩ hb

theorem accuracy_x (f : List Nat) (o : Int × Int) (hf : Bytes f) (h : ReadsAccuracy f o) : ¬ BadAccuracy f := by
  intro hb
  obtain ⟨p, vs, E, e, _⟩ := accuracy_reads Acc.Accdata.zero f hf o h
  rw [accuracy_bad _ f hf hb] at e
  cases e

theorem accuracy_u (f : List Nat) (o o' : Int × Int) (h : ReadsAccuracy f o) (h' : ReadsAccuracy f o') : o = o' := by
  obtain ⟨p, e, _, _, rfl⟩ := h
  obtain ⟨p', e', _, _, rfl⟩ := h'
  rw [e] at e'
  cases e'
  rfl

/-! ## From the reading to the program -/

theorem EndsAs.ok {α : Type} {r : Res α} {good bad : Prop} (a : α) (e : r = .ok a) (hg : good) (hb : ¬ bad) : EndsAs r good bad :=
  ⟨⟨fun _ => hg, fun _ => ⟨a, e⟩⟩, ⟨fun h => (by rw [e] at h; cases h), fun h => absurd h hb⟩, fun h => absurd hg h⟩
theorem EndsAs.ub {α : Type} {r : Res α} {good bad : Prop} (e : r = .ub) (hg : ¬ good) (hb : bad) : EndsAs r good bad :=
  ⟨⟨fun ⟨_, h⟩ => (by rw [e] at h; cases h), fun h => absurd h hg⟩, ⟨fun _ => hb, fun _ => e⟩, fun _ h => absurd hb h⟩
theorem EndsAs.err {α : Type} {r : Res α} {good bad : Prop} (msg : String) (e : r = .err msg) (hg : ¬ good) (hb : ¬ bad) : EndsAs r good bad :=
  ⟨⟨fun ⟨_, h⟩ => (by rw [e] at h; cases h), fun h => absurd h hg⟩, ⟨fun h => (by rw [e] at h; cases h), fun h => absurd h hb⟩,
    fun _ _ => ⟨msg, e⟩⟩

theorem EndsAs.guard {α : Type} {r : Res α} {good bad c : Prop} [Decidable c] (msg : String) (h : EndsAs r good bad) :
    EndsAs (if c then .err msg else r) (¬ c ∧ good) (¬ c ∧ bad) := by
  by_cases hc : c
  · rw [if_pos hc]
    exact .err msg rfl (fun h => h.1 hc) (fun h => h.1 hc)
  · rw [if_neg hc]
    exact ⟨h.output.trans ⟨fun h => ⟨hc, h⟩, fun h => h.2⟩, h.astray.trans ⟨fun h => ⟨hc, h⟩, fun h => h.2⟩,
      fun h1 h2 => h.message (fun h => h1 ⟨hc, h⟩) (fun h => h2 ⟨hc, h⟩)⟩

/-- The command line of a program without options: it is refused, or it is what the program runs on. -/
theorem line_ends {prog : List Nat} {args : List (List Nat)} (hp : prog.length ≤ 32768) (hl : args.length < 32768)
    (h0 : ∀ a ∈ args, 0 ∉ a) {main : List (List Nat) → Res Output} {r : Res Output}
    (hr : r = Args.initialize_ none true (prog :: args) start >>= fun x => main x.2.1)
    {good bad : List (List Nat) → Prop} (h : ∀ names, EndsAs (main names) (good names) (bad names)) :
    EndsAs r (∃ names ss, CommandLine [] prog args names ss ∧ good names) (∃ names ss, CommandLine [] prog args names ss ∧ bad names) := by
  rcases line_or_refused (T := []) ⟨by decide, by decide, by decide⟩ hp hl h0 with ⟨names, ss, hc⟩ | ⟨msg, e⟩
  · obtain ⟨b, V, e⟩ := init_none hc
    have same : ∀ names' ss', CommandLine [] prog args names' ss' → names' = names := by
      intro names' ss' hc'
      obtain ⟨b', V', e'⟩ := init_none hc'
      rw [e] at e'
      cases e'
      rfl
    rw [e, bind_ok] at hr
    have h := h names
    rw [show main names = r from hr.symm] at h
    refine ⟨h.output.trans ⟨fun g => ⟨names, ss, hc, g⟩, ?_⟩, h.astray.trans ⟨fun g => ⟨names, ss, hc, g⟩, ?_⟩,
      fun h1 h2 => h.message (fun g => h1 ⟨names, ss, hc, g⟩) (fun g => h2 ⟨names, ss, hc, g⟩)⟩
    · rintro ⟨n', s', hc', g⟩
      rw [← same n' s' hc']; exact g
    · rintro ⟨n', s', hc', g⟩
      rw [← same n' s' hc']; exact g
  · have e : Args.initialize_ none true (prog :: args) start = .err msg := by rw [Args.c52_null]; exact e
    have none : ∀ names ss, ¬ CommandLine [] prog args names ss := by
      intro names ss hc
      obtain ⟨b, V, e'⟩ := init_none hc
      rw [e] at e'
      cases e'
    rw [e, bind_err] at hr
    exact .err msg hr (fun ⟨n, s, hc, _⟩ => none n s hc) (fun ⟨n, s, hc, _⟩ => none n s hc)

/-- What follows the reading of the files. -/
theorem Ends.then {α β : Type} {fs : Fs} {R : List Nat → β → Prop} {B P : List Nat → Prop} {J : List β → α → Prop} {names : List (List Nat)}
    {x : Res α} (h : Ends fs R B J names [] x) (hx : ∀ f o, P f → R f o → ¬ B f) (hP : ∀ name file, fs name = some file → P file)
    (hu : ∀ f o o', R f o → R f o' → o = o')
    {γ : Type} {k : α → Res γ} {good bad : List β → Prop} (hk : ∀ os a, J os a → EndsAs (k a) (good os) (bad os)) :
    EndsAs (x >>= k) (∃ os, AllRead fs R names os ∧ good os) (Astray fs R B names ∨ ∃ os, AllRead fs R names os ∧ bad os) := by
  cases h with
  | read a os h1 h2 =>
    have hk := hk os a (by simpa using h2)
    have same : ∀ os', AllRead fs R names os' → os' = os := by
      intro os' h'
      have : ∀ {l : List (List Nat)} {m m' : List β}, AllRead fs R l m → AllRead fs R l m' → m' = m := by
        intro l m m' h h'
        induction h generalizing m' with
        | nil => cases h'; rfl
        | cons h _ ih =>
          cases h' with
          | cons h' h'' =>
            obtain ⟨f, e1, e2⟩ := h
            obtain ⟨f', e1', e2'⟩ := h'
            rw [e1] at e1'
            cases e1'
            rw [hu _ _ _ e2 e2', ih h'']
      exact this h1 h'
    rw [bind_ok]
    refine ⟨hk.output.trans ⟨fun g => ⟨os, h1, g⟩, ?_⟩, hk.astray.trans ⟨fun g => .inr ⟨os, h1, g⟩, ?_⟩,
      fun g b => hk.message (fun h => g ⟨os, h1, h⟩) (fun h => b (.inr ⟨os, h1, h⟩))⟩
    · rintro ⟨os', h', g⟩
      rw [← same os' h']; exact g
    · rintro (h' | ⟨os', h', g⟩)
      · exact absurd h' (not_both hx hP h1)
      · rw [← same os' h']; exact g
  | refused msg h1 h2 =>
    exact .err msg rfl (fun ⟨os, h, _⟩ => h1 ⟨os, h⟩) (by rintro (h | ⟨os, h, _⟩); exact h2 h; exact h1 ⟨os, h⟩)
  | astray h =>
    exact .ub rfl (fun ⟨os, h', _⟩ => not_both hx hP h' h) (.inl h)

theorem EndsAs.imp {α : Type} {r : Res α} {good bad good' bad' : Prop} (h : EndsAs r good bad) (hg : good ↔ good') (hb : bad ↔ bad') :
    EndsAs r good' bad' := by
  have : good = good' := propext hg
  have : bad = bad' := propext hb
  subst_vars
  exact h

/-- If nothing can go wrong after the reading. -/
theorem Ends.total {α β : Type} {fs : Fs} {R : List Nat → β → Prop} {B P : List Nat → Prop} {J : List β → α → Prop} {names : List (List Nat)}
    {x : Res α} (h : Ends fs R B J names [] x) (hx : ∀ f o, P f → R f o → ¬ B f) (hP : ∀ name file, fs name = some file → P file)
    (hu : ∀ f o o', R f o → R f o' → o = o') {γ : Type} {k : α → Res γ} (hk : ∀ os a, J os a → ∃ c, k a = .ok c) :
    EndsAs (x >>= k) (∃ os, AllRead fs R names os) (Astray fs R B names) :=
  (h.then hx hP hu (good := fun _ => True) (bad := fun _ => False) (fun os a hJ => by
    obtain ⟨c, e⟩ := hk os a hJ
    exact .ok c e trivial id)).imp ⟨fun ⟨os, h, _⟩ => ⟨os, h⟩, fun ⟨os, h⟩ => ⟨os, h, trivial⟩⟩
      ⟨fun h => h.elim id (fun ⟨_, _, h⟩ => h.elim), .inl⟩

theorem update_ends (d : Dist.Dist) (c m : Int) :
    (Over (c, m) → Dist.update_dist d c m = .ub) ∧ (¬ Over (c, m) → ∃ d', Dist.update_dist d c m = .ok d') := by
  unfold Dist.update_dist Over
  simp only
  by_cases h0 : c = 0
  · subst h0
    simp
  · rw [if_neg h0, Dist.updateLoop_spec _ _ _ _ _ (by omega) (by omega)]
    have key : ((101 : ℚ) ≤ 100 * ((c - m : Int) : ℚ) / (c : ℚ)) ↔
        ((0 < c ∧ 101 * c ≤ 100 * (c - m)) ∨ (c < 0 ∧ 100 * (c - m) ≤ 101 * c)) := by
      rcases lt_or_gt_of_ne h0 with hc | hc
      · have hq : (c : ℚ) < 0 := by exact_mod_cast hc
        rw [le_div_iff_of_neg hq]
        constructor
        · intro h
          exact .inr ⟨hc, by exact_mod_cast h⟩
        · rintro (⟨h, _⟩ | ⟨_, h⟩)
          · omega
          · exact_mod_cast h
      · have hq : (0 : ℚ) < (c : ℚ) := by exact_mod_cast hc
        rw [le_div_iff₀ hq]
        constructor
        · intro h
          exact .inl ⟨hc, by exact_mod_cast h⟩
        · rintro (⟨_, h⟩ | ⟨h, _⟩)
          · exact_mod_cast h
          · omega
    constructor
    · intro h
      rw [if_pos (key.2 h)]; rfl
    · intro h
      rw [if_neg (fun k => h (key.1 k))]; exact ⟨_, rfl⟩

theorem thetas_zero (total : Ci.Obs) : ∀ (items : List Ci.Obs), (∃ o ∈ items, total.count - o.count = 0) → Ci.thetas total items = .ub := by
  intro items
  induction items with
  | nil => rintro ⟨o, h, _⟩; cases h
  | cons o items ih =>
    rintro ⟨x, hx, h⟩
    rw [Ci.thetas]
    unfold Ci.accuracy
    by_cases h0 : total.count - o.count = 0
    · rw [h0]
      unfold Ci.fdiv
      rw [if_pos (by simp)]; rfl
    · rw [Ci.fdiv_ok (by exact_mod_cast h0), bind_ok]
      rcases List.mem_cons.1 hx with rfl | hx
      · exact absurd h h0
      · rw [ih ⟨x, hx, h⟩]; rfl

theorem ci_ends (os : List (Int × Int)) :
    EndsAs (Ci.compute_ci (Ci.appended os)) (Two os ∧ ¬ Nothing os) (Two os ∧ Nothing os) := by
  by_cases h2 : Two os
  · have hlen : 2 ≤ os.length := le_trans h2 (List.length_filter_le _ _)
    have hn : (2 : ℝ) ≤ (os.length : ℝ) := by exact_mod_cast hlen
    have hn0 : (os.length : ℝ) ≠ 0 := by intro e; rw [e] at hn; linarith
    have hn1 : (os.length : ℝ) - 1 ≠ 0 := by
      intro e
      have : (os.length : ℝ) = 1 := by linarith
      rw [this] at hn; linarith
    have hv : ¬ Ci.valid_obslist (Ci.appended os) = false := by
      rw [Ci.valid_eq]
      unfold Two at h2
      simp; omega
    by_cases hz : Nothing os
    · refine .ub ?_ (fun h => h.2 hz) ⟨h2, hz⟩
      unfold Ci.compute_ci
      rw [if_neg hv, Ci.appended_eq]
      simp only
      by_cases h0 : (os.map (fun o => o.1)).sum = 0
      · rw [h0]
        unfold Ci.accuracy Ci.fdiv
        rw [if_pos (by simp)]; rfl
      · unfold Ci.accuracy
        rw [Ci.fdiv_ok (by exact_mod_cast h0), bind_ok, thetas_zero]
        · rfl
        · rcases hz with hz | ⟨o, ho, hz⟩
          · exact absurd hz h0
          · exact ⟨⟨o.1, o.2⟩, List.mem_map.2 ⟨o, ho, rfl⟩, hz⟩
    · obtain ⟨c, e⟩ : ∃ c, Ci.compute_ci (Ci.appended os) = .ok c := by
        unfold Ci.compute_ci
        rw [if_neg hv, Ci.appended_eq]
        simp only [List.length_map]
        unfold Ci.accuracy
        rw [Ci.fdiv_ok (by
          intro h
          exact hz (.inl (by exact_mod_cast h))), bind_ok, Ci.thetas_spec _ _ (by
          intro o ho h
          obtain ⟨x, hx, rfl⟩ := List.mem_map.1 ho
          exact hz (.inr ⟨x, hx, h⟩)), bind_ok, Ci.fdiv_ok hn0, bind_ok, Ci.fdiv_ok hn1, bind_ok, Ci.fdiv_ok hn0, bind_ok]
        exact ⟨_, rfl⟩
      exact .ok c e ⟨h2, hz⟩ (fun h => hz h.2)
  · refine .err "not enough observations" ((Ci.c47_error os).2 ?_) (fun h => h2 h.1) (fun h => h2 h.1)
    unfold Two at h2
    omega

theorem results_ends (pct : Int → Int → List Nat) (fmt : ℝ → List Nat) (what wrong : List Nat) (os : List (Int × Int)) (c m : Int)
    (hc : c = (os.map Prod.fst).sum) :
    EndsAs (Ci.write_results pct fmt what wrong (Ci.appended os) c m) (Two os ∧ ¬ Nothing os) (Two os ∧ Nothing os) := by
  have h := ci_ends os
  unfold Ci.write_results
  by_cases h2 : Two os
  · by_cases hz : Nothing os
    · refine .ub ?_ (fun h => h.2 hz) ⟨h2, hz⟩
      rw [h.astray.2 ⟨h2, hz⟩]; rfl
    · obtain ⟨x, e⟩ := h.output.2 ⟨h2, hz⟩
      obtain ⟨l, u⟩ := x
      suffices hs : ∃ y, Ci.write_results pct fmt what wrong (Ci.appended os) c m = .ok y by
        obtain ⟨y, e'⟩ := hs
        exact .ok y e' ⟨h2, hz⟩ (fun h => hz h.2)
      unfold Ci.write_results
      rw [e, bind_ok]
      simp only
      rw [if_neg (fun h0 => hz (.inl (by rw [← hc]; exact h0)))]
      exact ⟨_, rfl⟩
  · obtain ⟨msg, e⟩ := h.message (fun h => h2 h.1) (fun h => h2 h.1)
    refine .err msg ?_ (fun h => h2 h.1) (fun h => h2 h.1)
    rw [e]; rfl

theorem EndsAs.map {α γ : Type} {r : Res α} {good bad : Prop} (h : EndsAs r good bad) (k : α → γ) :
    EndsAs (r >>= fun a => .ok (k a)) good bad := by
  cases r with
  | ok a => exact .ok _ rfl (h.output.1 ⟨a, rfl⟩) (fun b => by have := h.astray.2 b; cases this)
  | err msg =>
    exact .err msg rfl (fun g => by obtain ⟨_, h⟩ := h.output.2 g; cases h) (fun b => by have := h.astray.2 b; cases this)
  | ub => exact .ub rfl (fun g => by obtain ⟨_, h⟩ := h.output.2 g; cases h) (h.astray.1 rfl)
  | fuel =>
    exfalso
    obtain ⟨_, h⟩ := h.message (fun g => by obtain ⟨_, h⟩ := h.output.2 g; cases h) (fun b => by have := h.astray.2 b; cases this)
    cases h

theorem Ci.appended_append (os : List (Int × Int)) (o : Int × Int) :
    Ci.appended (os ++ [o]) = Ci.append_obs (Ci.appended os) o.1 o.2 := by
  unfold Ci.appended
  rw [List.foldl_append]
  rfl

theorem write_wacrpt_total (pct : Int → Int → List Nat) (D : Wac.Wacdata) : ∃ bytes, Wac.write_wacrpt pct D = .ok bytes := by
  unfold Wac.write_wacrpt
  obtain ⟨t1, _, e1⟩ := Wac.write_terms_eq (pct := pct) D.stopword_table "Stopwords"
  obtain ⟨t2, _, e2⟩ := Wac.write_terms_eq (pct := pct) D.non_stopword_table "Non-stopwords"
  split
  · rw [e1, e2]
    split <;> split <;> exact ⟨_, rfl⟩
  · exact ⟨_, rfl⟩

end Ocr.Ending

namespace Ocr.Acc
open Text Res Spec Charclass

/-- Whatever is read can be written. -/
theorem write_accrpt_total {U : Unicode} (F : UnicodeFacts U) (pct : Int → Int → List Nat) {D : Accdata} (h : Known D) :
    ∃ bytes, write_accrpt U pct D = .ok bytes := by
  unfold write_accrpt
  rw [write_large_rows (pct := pct) D _ (by
    intro i _ hp
    by_contra hn
    rw [h i (by omega)] at hp
    simp at hp), bind_ok, write_small_rows (pct := pct) F D _ (by
    intro i hi
    have := List.mem_range.1 hi
    unfold NUM_CHARVALUES at this
    omega)]
  generalize (List.range NUM_CHARVALUES).filter (fun i => decide (0 < (D.small_class i).count)) = chars
  obtain ⟨c, hc⟩ : ∃ c, write_confs D = .ok c := by
    unfold write_confs
    obtain ⟨s, hs, _⟩ := Sort.c03_sort_permutes compare_conf (Store.in_array Conf.key D.conftable) _ (Nat.le_refl _)
    simp only [hs, bind_ok]
    exact ⟨_, rfl⟩
  rw [hc]
  split
  · simp only [bind_ok]
    split
    · simp only [bind_ok, pure_eq]; exact ⟨_, rfl⟩
    · simp only [bind_ok, pure_eq]; exact ⟨_, rfl⟩
  · simp only [pure_eq, bind_ok]
    split
    · simp only [bind_ok]; exact ⟨_, rfl⟩
    · simp only [bind_ok]; exact ⟨_, rfl⟩

end Ocr.Acc
