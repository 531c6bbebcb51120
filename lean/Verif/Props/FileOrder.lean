import Verif.Props.Endings
import Verif.Props.TextEndings
import Verif.Props.Reports
import Verif.Props.Frequencies
import Verif.Props.Evaluations
import Verif.Proof.PrintEndings

/-!
# C81: the order of the files does not matter
-/

namespace Ocr.FileOrder
open Text Res Prog Ending Spec AnyText AnyReport

/-- The names are those of files with these contents. -/
abbrev Opened (fs : Fs) (names files : List (List Nat)) : Prop := List.Forall₂ (fun name file => fs name = some file) names files

theorem forFiles_opened {α : Type} {fs : Fs} {step : α → List Nat → Res α} : ∀ {names : List (List Nat)} {a r : α},
    forFiles fs step names a = .ok r → ∃ files, Opened fs names files
  | [], _, _, _ => ⟨[], .nil⟩
  | name :: names, a, r, h => by
    unfold forFiles at h
    obtain ⟨file, e, h⟩ := bind_eq_ok.1 h
    obtain ⟨a', _, h⟩ := bind_eq_ok.1 h
    obtain ⟨files, hf⟩ := forFiles_opened h
    refine ⟨file :: files, .cons ?_ hf⟩
    unfold open_file at e
    split at e
    · rename_i f e'
      rw [e', Res.ok.inj e]
    · cases e

theorem forall₂_right {α β : Type} {R : α → β → Prop} {l : List α} {m : List β} (h : List.Forall₂ R l m) {b : β} (hb : b ∈ m) :
    ∃ a ∈ l, R a b := by
  induction h with
  | nil => cases hb
  | cons h1 _ ih =>
    rcases List.mem_cons.1 hb with rfl | hb
    · exact ⟨_, by simp, h1⟩
    · obtain ⟨a, ha, hr⟩ := ih hb
      exact ⟨a, by simp [ha], hr⟩

theorem allRead_of {β : Type} {fs : Fs} {R : List Nat → β → Prop} {names files : List (List Nat)} (h : Opened fs names files) :
    ∀ {os : List β}, List.Forall₂ R files os → AllRead fs R names os := by
  induction h with
  | nil => intro os h; cases h; exact .nil
  | cons h1 _ ih => intro os h; cases h with | cons h2 h => exact .cons ⟨_, h1, h2⟩ (ih h)

theorem opened_perm {fs : Fs} {names names' files : List (List Nat)} (hp : names.Perm names') (h : Opened fs names files) :
    ∃ files', files.Perm files' ∧ Opened fs names' files' := Acc.forall₂_perm hp h

/-! ## Distributions -/

theorem update_adds (c m : Int) : (∀ d, Dist.update_dist d c m = .ub) ∨
    ∃ (f : Nat → Int) (t : Int), ∀ d, Dist.update_dist d c m = .ok ⟨fun k => d.count k + f k, d.total_count + t⟩ := by
  by_cases h0 : c = 0
  · refine .inr ⟨fun _ => 0, 0, fun d => ?_⟩
    unfold Dist.update_dist
    rw [if_pos h0]
    simp
  · by_cases hx : (101 : ℚ) ≤ 100 * ((c - m : Int) : ℚ) / (c : ℚ)
    · refine .inl (fun d => ?_)
      unfold Dist.update_dist
      simp only
      rw [if_neg h0, Dist.updateLoop_spec _ _ _ _ _ (by omega) (by omega), if_pos hx]
      rfl
    · refine .inr ⟨fun k => if (k : ℚ) ≤ 100 * ((c - m : Int) : ℚ) / (c : ℚ) then c else 0, c, fun d => ?_⟩
      unfold Dist.update_dist
      simp only
      rw [if_neg h0, Dist.updateLoop_spec _ _ _ _ _ (by omega) (by omega), if_neg hx, bind_ok]
      refine congrArg Res.ok (congrArg (fun g => Dist.Dist.mk g (d.total_count + c)) (funext fun k => ?_))
      simp only [Nat.zero_le, true_and]
      split <;> simp

theorem updates_perm {obs obs' : List (Int × Int)} (hp : obs.Perm obs') : ∀ d, Dist.updates d obs = Dist.updates d obs' := by
  induction hp with
  | nil => intro d; rfl
  | cons o _ ih =>
    intro d
    rw [Dist.updates, Dist.updates]
    exact congrArg (fun g => _ >>= g) (funext fun d' => ih d')
  | swap o p obs =>
    intro d
    simp only [Dist.updates]
    rcases update_adds o.1 o.2 with ho | ⟨f, t, ho⟩ <;> rcases update_adds p.1 p.2 with hp | ⟨g, s, hp⟩
    · simp only [ho, hp]
    · simp only [ho, hp, bind_ok]; rfl
    · simp only [ho, hp, bind_ok]; rfl
    · simp only [ho, hp, bind_ok]
      congr 1
      · congr 1
        · funext k; ring
        · ring
  | trans _ _ ih1 ih2 => intro d; rw [ih1, ih2]

theorem accdist_each : ∀ {files : List (List Nat)} {D : Acc.Accdata} {d r : Dist.Dist}, Accdist.processFiles D d files = .ok r →
    ∃ Es, List.Forall₂ (fun f E => Acc.read_accrpt Acc.Accdata.zero f = .ok E) files Es
  | [], _, _, _, _ => ⟨[], .nil⟩
  | f :: files, D, d, r, h => by
    rw [Accdist.processFiles] at h
    obtain ⟨D', h1, h⟩ := bind_eq_ok.1 h
    obtain ⟨d', _, h⟩ := bind_eq_ok.1 h
    obtain ⟨Es, hE⟩ := accdist_each h
    obtain ⟨E, e, _⟩ := (Acc.read_plus (Acc.Plus.zero D) f).ok_left h1
    exact ⟨E :: Es, .cons e hE⟩

theorem wordaccdist_each : ∀ {files : List (List Nat)} {D : Wac.Wacdata} {d r : Dist.Dist}, Wordaccdist.processFiles D d files = .ok r →
    ∃ Es, List.Forall₂ (fun f E => Wac.read_wacrpt Wac.Wacdata.zero f = .ok E) files Es
  | [], _, _, _, _ => ⟨[], .nil⟩
  | f :: files, D, d, r, h => by
    rw [Wordaccdist.processFiles] at h
    obtain ⟨D', h1, h⟩ := bind_eq_ok.1 h
    obtain ⟨d', _, h⟩ := bind_eq_ok.1 h
    obtain ⟨Es, hE⟩ := wordaccdist_each h
    obtain ⟨E, e, _⟩ := (Wac.read_plus (Wac.Plus.zero D) f).ok_left h1
    exact ⟨E :: Es, .cons e hE⟩

theorem accdist_order {pct : Int → Int → List Nat} {files files' : List (List Nat)} (hp : files.Perm files') {out : List Nat}
    (h : Accdist.accdistMain pct files = .ok out) : Accdist.accdistMain pct files' = .ok out := by
  unfold Accdist.accdistMain at h ⊢
  obtain ⟨d, h1, h2⟩ := bind_eq_ok.1 h
  obtain ⟨Es, hE⟩ := accdist_each h1
  obtain ⟨Es', hq, hE'⟩ := Acc.forall₂_perm hp hE
  rw [Accdist.process_eq hE] at h1
  rw [Accdist.process_eq hE', ← updates_perm (hq.map _), h1, bind_ok]
  exact h2

theorem wordaccdist_order {pct : Int → Int → List Nat} {files files' : List (List Nat)} (hp : files.Perm files') {out : List Nat}
    (h : Wordaccdist.wordaccdistMain pct files = .ok out) : Wordaccdist.wordaccdistMain pct files' = .ok out := by
  unfold Wordaccdist.wordaccdistMain at h ⊢
  obtain ⟨d, h1, h2⟩ := bind_eq_ok.1 h
  obtain ⟨Es, hE⟩ := wordaccdist_each h1
  obtain ⟨Es', hq, hE'⟩ := Acc.forall₂_perm hp hE
  rw [Wordaccdist.process_eq hE] at h1
  rw [Wordaccdist.process_eq hE', ← updates_perm (hq.map _), h1, bind_ok]
  exact h2

/-! ## Confidence intervals -/

theorem loo_perm {obs obs' : List (Int × Int)} (hp : obs.Perm obs') : (Ci.leaveOneOut obs).Perm (Ci.leaveOneOut obs') := by
  rw [Ci.loo_eq, Ci.loo_eq, (hp.map (fun o => o.1)).sum_eq, (hp.map (fun o => o.2)).sum_eq]
  exact hp.map _

theorem results_perm (pct : Int → Int → List Nat) (fmt : ℝ → List Nat) (what wrong : List Nat) {obs obs' : List (Int × Int)}
    (hp : obs.Perm obs') : Ci.results pct fmt what wrong obs' = Ci.results pct fmt what wrong obs := by
  have hm : Ci.mean obs' = Ci.mean obs := by
    unfold Ci.mean; rw [(loo_perm hp).sum_eq, hp.length_eq]
  have ht : Ci.theta obs' = Ci.theta obs := by
    unfold Ci.theta; rw [(hp.map (fun o => o.1)).sum_eq, (hp.map (fun o => o.2)).sum_eq]
  have he : Ci.estimate obs' = Ci.estimate obs := by
    unfold Ci.estimate; rw [hm, ht, hp.length_eq]
  have hw : Ci.halfWidth obs' = Ci.halfWidth obs := by
    unfold Ci.halfWidth; rw [hm, ((loo_perm hp).map _).sum_eq, hp.length_eq]
  unfold Ci.results
  rw [he, hw, (hp.map (fun o => o.1)).sum_eq, (hp.map (fun o => o.2)).sum_eq, hp.length_eq]

theorem write_perm {pct : Int → Int → List Nat} {fmt : ℝ → List Nat} {what wrong : List Nat} {obs obs' : List (Int × Int)} (hp : obs.Perm obs')
    {out : List Nat}
    (h : Ci.write_results pct fmt what wrong (Ci.appended obs) (obs.map (fun o => o.1)).sum (obs.map (fun o => o.2)).sum = .ok out) :
    Ci.write_results pct fmt what wrong (Ci.appended obs') (obs'.map (fun o => o.1)).sum (obs'.map (fun o => o.2)).sum = .ok out := by
  obtain ⟨h2, hz⟩ := (results_ends pct fmt what wrong obs _ _ rfl).output.1 ⟨out, h⟩
  have hT : (obs.map (fun o => o.1)).sum ≠ 0 := fun e => hz (.inl e)
  have hZ : ∀ o ∈ obs, (obs.map (fun o => o.1)).sum - o.1 ≠ 0 := fun o ho e => hz (.inr ⟨o, ho, e⟩)
  rw [Ci.results_any _ _ _ _ _ h2 hT hZ] at h
  rw [Ci.results_any _ _ _ _ _ (by rw [← (hp.filter _).length_eq]; exact h2) (by rw [← (hp.map (fun o => o.1)).sum_eq]; exact hT)
    (fun o ho => by rw [← (hp.map (fun o => o.1)).sum_eq]; exact hZ o (hp.mem_iff.2 ho)), results_perm _ _ _ _ hp]
  exact h

theorem accci_each : ∀ {files : List (List Nat)} {D : Acc.Accdata} {d : Ci.Obslist} {r : Acc.Accdata × Ci.Obslist},
    Accci.processFiles D d files = .ok r → ∃ Es, List.Forall₂ (fun f E => Acc.read_accrpt Acc.Accdata.zero f = .ok E) files Es
  | [], _, _, _, _ => ⟨[], .nil⟩
  | f :: files, D, d, r, h => by
    rw [Accci.processFiles] at h
    obtain ⟨D', h1, h⟩ := bind_eq_ok.1 h
    obtain ⟨Es, hE⟩ := accci_each h
    obtain ⟨E, e, _⟩ := (Acc.read_plus (Acc.Plus.zero D) f).ok_left h1
    exact ⟨E :: Es, .cons e hE⟩

theorem wordaccci_each : ∀ {files : List (List Nat)} {D : Wac.Wacdata} {d : Ci.Obslist} {r : Wac.Wacdata × Ci.Obslist},
    Wordaccci.processFiles D d files = .ok r → ∃ Es, List.Forall₂ (fun f E => Wac.read_wacrpt Wac.Wacdata.zero f = .ok E) files Es
  | [], _, _, _, _ => ⟨[], .nil⟩
  | f :: files, D, d, r, h => by
    rw [Wordaccci.processFiles] at h
    obtain ⟨D', h1, h⟩ := bind_eq_ok.1 h
    obtain ⟨Es, hE⟩ := wordaccci_each h
    obtain ⟨E, e, _⟩ := (Wac.read_plus (Wac.Plus.zero D) f).ok_left h1
    exact ⟨E :: Es, .cons e hE⟩

theorem accci_order {pct : Int → Int → List Nat} {fmt : ℝ → List Nat} {files files' : List (List Nat)} (hp : files.Perm files')
    {out : List Nat} (h : Accci.accciMain pct fmt files = .ok out) : Accci.accciMain pct fmt files' = .ok out := by
  have main : ∀ {files : List (List Nat)} {Es}, ¬ files.length < 2 → List.Forall₂ (fun f E => Acc.read_accrpt Acc.Accdata.zero f = .ok E) files Es →
      Accci.accciMain pct fmt files = Ci.write_results pct fmt (ascii "Characters") (ascii "Errors") (Ci.appended (Es.map (fun E => (E.characters, E.errors))))
        ((Es.map (fun E => (E.characters, E.errors))).map (fun o => o.1)).sum ((Es.map (fun E => (E.characters, E.errors))).map (fun o => o.2)).sum := by
    intro files Es hl hE
    obtain ⟨D, e1, e2, e3⟩ := Accci.process_eq hE Acc.Accdata.zero Ci.Obslist.empty
    unfold Accci.accciMain
    rw [if_neg hl, e1, bind_ok]
    simp only
    rw [e2, e3]
    simp only [Acc.Accdata.zero, Int.zero_add, List.map_map]
    rfl
  have hl : ¬ files.length < 2 := by
    intro hl
    unfold Accci.accciMain at h
    rw [if_pos hl] at h
    cases h
  obtain ⟨Es, hE⟩ : ∃ Es, List.Forall₂ (fun f E => Acc.read_accrpt Acc.Accdata.zero f = .ok E) files Es := by
    unfold Accci.accciMain at h
    rw [if_neg hl] at h
    obtain ⟨D, h, _⟩ := bind_eq_ok.1 h
    exact accci_each h
  obtain ⟨Es', hq, hE'⟩ := Acc.forall₂_perm hp hE
  rw [main hl hE] at h
  rw [main (by rw [← hp.length_eq]; exact hl) hE']
  exact write_perm (hq.map _) h

theorem wordaccci_order {pct : Int → Int → List Nat} {fmt : ℝ → List Nat} {files files' : List (List Nat)} (hp : files.Perm files')
    {out : List Nat} (h : Wordaccci.wordaccciMain pct fmt files = .ok out) : Wordaccci.wordaccciMain pct fmt files' = .ok out := by
  have main : ∀ {files : List (List Nat)} {Es}, ¬ files.length < 2 → List.Forall₂ (fun f E => Wac.read_wacrpt Wac.Wacdata.zero f = .ok E) files Es →
      Wordaccci.wordaccciMain pct fmt files = Ci.write_results pct fmt (ascii "Words") (ascii "Misrecognized") (Ci.appended (Es.map (fun E => (E.total.count, E.total.missed))))
        ((Es.map (fun E => (E.total.count, E.total.missed))).map (fun o => o.1)).sum ((Es.map (fun E => (E.total.count, E.total.missed))).map (fun o => o.2)).sum := by
    intro files Es hl hE
    obtain ⟨D, e1, e2, e3⟩ := Wordaccci.process_eq hE Wac.Wacdata.zero Ci.Obslist.empty
    unfold Wordaccci.wordaccciMain
    rw [if_neg hl, e1, bind_ok]
    simp only
    rw [e2, e3]
    simp only [Wac.Wacdata.zero, Int.zero_add, List.map_map]
    rfl
  have hl : ¬ files.length < 2 := by
    intro hl
    unfold Wordaccci.wordaccciMain at h
    rw [if_pos hl] at h
    cases h
  obtain ⟨Es, hE⟩ : ∃ Es, List.Forall₂ (fun f E => Wac.read_wacrpt Wac.Wacdata.zero f = .ok E) files Es := by
    unfold Wordaccci.wordaccciMain at h
    rw [if_neg hl] at h
    obtain ⟨D, h, _⟩ := bind_eq_ok.1 h
    exact wordaccci_each h
  obtain ⟨Es', hq, hE'⟩ := Acc.forall₂_perm hp hE
  rw [main hl hE] at h
  rw [main (by rw [← hp.length_eq]; exact hl) hE']
  exact write_perm (hq.map _) h

/-! ## Texts -/

theorem texts_textOf {U : Unicode} {junk : List Nat} (hj : Bytes junk) {fold : Bool} : ∀ {files : List (List Nat)} {texts : List (List Ch)}
    {b : Bool}, (∀ f ∈ files, Bytes f) →
    (Texts U junk { pageText fold with found_header := b } files texts ↔ List.Forall₂ (TextOf U fold) files texts)
  | [], texts, b, _ => by
    constructor
    · intro h; cases h; exact .nil
    · intro h; cases h; exact .nil
  | f :: files, texts, b, hf => by
    have hb := hf f (by simp)
    have ih := fun texts => @texts_textOf U junk hj fold files texts (decide (Headed f)) (fun x hx => hf x (by simp [hx]))
    constructor
    · intro h
      cases h with
      | cons e h =>
        obtain ⟨e1, rfl⟩ := (read_any U junk fold b f hb hj _ _).1 e
        exact .cons e1 ((ih _).1 h)
    · intro h
      cases h with
      | cons e h => exact .cons ((read_any U junk fold b f hb hj _ _).2 ⟨e, rfl⟩) ((ih _).2 h)

theorem ngram_texts {U : Unicode} {junk : List Nat} {n : Nat} : ∀ {files : List (List Nat)} {opt : Textopt} {t r : Ngram.Seqtable},
    Ngram.processFiles U junk n opt files t = .ok r → ∃ texts, Texts U junk opt files texts
  | [], _, _, _, _ => ⟨[], .nil⟩
  | f :: files, opt, t, r, h => by
    rw [Ngram.processFiles] at h
    obtain ⟨⟨text, opt'⟩, h1, h⟩ := bind_eq_ok.1 h
    obtain ⟨t', _, h⟩ := bind_eq_ok.1 h
    obtain ⟨texts, ht⟩ := ngram_texts h
    exact ⟨text :: texts, .cons h1 ht⟩

theorem addWords_all : ∀ {ws : List (Option (List Nat))} {t r : List Term}, Wordfreq.addWords ws t = .ok r → ∃ us, ws = List.map some us
  | [], _, _, _ => ⟨[], rfl⟩
  | none :: ws, t, r, h => by rw [Wordfreq.addWords] at h; cases h
  | some w :: ws, t, r, h => by
    rcases some_or_none (some w :: ws) with h' | h'
    · exact h'
    · rw [addWords_none t h'] at h; cases h

theorem wordfreq_texts {U : Unicode} {prop : Nat → Word.WB} {nfc : List Nat → Option (List Nat)} {junk : List Nat} {junk' : Nat} :
    ∀ {files : List (List Nat)} {opt : Textopt} {t r : List Term},
    Wordfreq.processFiles U prop nfc junk junk' opt files t = .ok r → ∃ texts wss, Texts U junk opt files texts ∧
      List.Forall₂ (fun text (ws : List (List Nat)) => Word.find_words U prop nfc junk' text = .ok (ws.map some)) texts wss
  | [], _, _, _, _ => ⟨[], [], .nil, .nil⟩
  | f :: files, opt, t, r, h => by
    rw [Wordfreq.processFiles] at h
    obtain ⟨⟨text, opt'⟩, h1, h⟩ := bind_eq_ok.1 h
    obtain ⟨ws, h2, h⟩ := bind_eq_ok.1 h
    obtain ⟨t', h3, h4⟩ := bind_eq_ok.1 h
    obtain ⟨us, rfl⟩ := addWords_all h3
    obtain ⟨texts, wss, ht, hw⟩ := wordfreq_texts h4
    exact ⟨text :: texts, us :: wss, .cons h1 ht, .cons h2 hw⟩

theorem ngram_counted {U : Unicode} {W W' : List (List Ch)} (hp : W.Perm W') {rows : List Sequence} (h : Ngram.Counted U W rows) :
    Ngram.Counted U W' rows where
  distinct := h.distinct
  occur d := by
    rw [h.occur]
    constructor
    · rintro ⟨w, hw, e⟩; exact ⟨w, hp.mem_iff.1 hw, e⟩
    · rintro ⟨w, hw, e⟩; exact ⟨w, hp.mem_iff.2 hw, e⟩
  key := h.key
  count r hr := by rw [h.count r hr]; unfold Ngram.occurrences; rw [hp.countP_eq]
  suspect r hr := by rw [h.suspect r hr]; unfold Ngram.suspects; rw [hp.countP_eq]

theorem wordfreq_counted {W W' : List (List Nat)} (hp : W.Perm W') {rows : List (List Nat × Nat)} (h : Wordfreq.Counted W rows) :
    Wordfreq.Counted W' rows where
  distinct := h.distinct
  occur w := by rw [h.occur, hp.mem_iff]
  count r hr := by rw [h.count r hr, hp.count_eq]

/-! ## The programs -/

section
variable (fs : Fs) (prog prog' : List Nat) (args args' names names' : List (List Nat)) (hp : names.Perm names')

section
variable (ss ss' : List Args.Setting) (hc : CommandLine [] prog args names ss) (hc' : CommandLine [] prog' args' names' ss')
include hp hc hc'

/-- C81 (editopsum).  If a run over some reports ends with output, then a run over the same reports in any other order has the same output. -/
theorem c81_editopsum (out : Output) (h : editopsumProgram fs (prog :: args) = .ok out) :
    editopsumProgram fs (prog' :: args') = .ok out := by
  obtain ⟨b, V, e⟩ := init_none hc
  obtain ⟨b', V', e'⟩ := init_none hc'
  obtain ⟨files, hf⟩ : ∃ files, Opened fs names files := by
    have h := h
    unfold editopsumProgram at h
    rw [e, bind_ok] at h
    simp only at h
    split at h
    · cases h
    · obtain ⟨D, h, _⟩ := bind_eq_ok.1 h
      exact forFiles_opened h
  obtain ⟨files', hq, hf'⟩ := opened_perm hp hf
  rw [editopsum_eq e hf] at h
  obtain ⟨bytes, h1, h2⟩ := bind_eq_ok.1 h
  rw [editopsum_eq e' hf', Edo.c27_order files files' hq bytes h1]
  exact h2

/-- C81 (accsum).  The same, if no confusion is counted 2^31 times or more in total. -/
theorem c81_accsum (U : Unicode) (pct : Int → Int → List Nat)
    (hi : ∀ files Es, Opened fs names files → List.Forall₂ (fun f E => Acc.read_accrpt Acc.Accdata.zero f = .ok E) files Es →
      ∀ k, 0 ≤ (Es.map (Acc.confErrors k)).sum ∧ (Es.map (Acc.confErrors k)).sum < 2^31 ∧
        0 ≤ (Es.map (Acc.confMarked k)).sum ∧ (Es.map (Acc.confMarked k)).sum < 2^31)
    (out : Output) (h : accsumProgram U pct fs (prog :: args) = .ok out) : accsumProgram U pct fs (prog' :: args') = .ok out := by
  obtain ⟨b, V, e⟩ := init_none hc
  obtain ⟨b', V', e'⟩ := init_none hc'
  obtain ⟨files, hf⟩ : ∃ files, Opened fs names files := by
    have h := h
    unfold accsumProgram at h
    rw [e, bind_ok] at h
    simp only at h
    split at h
    · cases h
    · obtain ⟨D, h, _⟩ := bind_eq_ok.1 h
      exact forFiles_opened h
  obtain ⟨files', hq, hf'⟩ := opened_perm hp hf
  rw [accsum_eq e hf] at h
  obtain ⟨bytes, h1, h2⟩ := bind_eq_ok.1 h
  obtain ⟨D, hD⟩ : ∃ D, Acc.readAll Acc.Accdata.zero files = .ok D := by
    have h1 := h1
    unfold Acc.accsum at h1
    split at h1
    · cases h1
    · obtain ⟨D, h, _⟩ := bind_eq_ok.1 h1
      exact ⟨D, h⟩
  obtain ⟨Es, hE⟩ := Acc.readAll_each files _ _ hD
  obtain ⟨D', e1, hs⟩ := Acc.readAll_spec hE Acc.Accdata.zero (by simp [Acc.Accdata.zero])
  rw [hD] at e1
  cases e1
  have hs := hs.of_zero
  have hI : Acc.IntCounts D := by
    intro c hc
    have := hi files Es hf hE c.key
    rw [← (hs.conf c.key).1, ← (hs.conf c.key).2,
      show Acc.confErrors c.key D = c.errors from Store.sum_key_mem Conf.key Conf.errors hs.nodup hc,
      show Acc.confMarked c.key D = c.marked from Store.sum_key_mem Conf.key Conf.marked hs.nodup hc] at this
    exact this
  rw [accsum_eq e' hf', Acc.c29_order U pct files files' hq D hD hI, h1]
  exact h2

/-- C81 (wordaccsum). -/
theorem c81_wordaccsum (pct : Int → Int → List Nat) (out : Output) (h : wordaccsumProgram pct fs (prog :: args) = .ok out) :
    wordaccsumProgram pct fs (prog' :: args') = .ok out := by
  obtain ⟨b, V, e⟩ := init_none hc
  obtain ⟨b', V', e'⟩ := init_none hc'
  obtain ⟨files, hf⟩ : ∃ files, Opened fs names files := by
    have h := h
    unfold wordaccsumProgram at h
    rw [e, bind_ok] at h
    simp only at h
    split at h
    · cases h
    · obtain ⟨D, h, _⟩ := bind_eq_ok.1 h
      exact forFiles_opened h
  obtain ⟨files', hq, hf'⟩ := opened_perm hp hf
  rw [wordaccsum_eq e hf] at h
  obtain ⟨bytes, h1, h2⟩ := bind_eq_ok.1 h
  obtain ⟨D, hD⟩ : ∃ D, Wac.readAll Wac.Wacdata.zero files = .ok D := by
    have h1 := h1
    unfold Wac.wordaccsum at h1
    split at h1
    · cases h1
    · obtain ⟨D, h, _⟩ := bind_eq_ok.1 h1
      exact ⟨D, h⟩
  rw [wordaccsum_eq e' hf', Wac.c31_order pct files files' hq D hD, h1]
  exact h2

/-- C81 (accdist). -/
theorem c81_accdist (pct : Int → Int → List Nat) (out : Output) (h : accdistProgram pct fs (prog :: args) = .ok out) :
    accdistProgram pct fs (prog' :: args') = .ok out := by
  obtain ⟨b, V, e⟩ := init_none hc
  obtain ⟨b', V', e'⟩ := init_none hc'
  obtain ⟨files, hf⟩ : ∃ files, Opened fs names files := by
    have h := h
    unfold accdistProgram at h
    rw [e, bind_ok] at h
    obtain ⟨D, h, _⟩ := bind_eq_ok.1 h
    exact forFiles_opened h
  obtain ⟨files', hq, hf'⟩ := opened_perm hp hf
  rw [accdist_eq e hf] at h
  obtain ⟨bytes, h1, h2⟩ := bind_eq_ok.1 h
  rw [accdist_eq e' hf', accdist_order hq h1]
  exact h2

/-- C81 (wordaccdist). -/
theorem c81_wordaccdist (pct : Int → Int → List Nat) (out : Output) (h : wordaccdistProgram pct fs (prog :: args) = .ok out) :
    wordaccdistProgram pct fs (prog' :: args') = .ok out := by
  obtain ⟨b, V, e⟩ := init_none hc
  obtain ⟨b', V', e'⟩ := init_none hc'
  obtain ⟨files, hf⟩ : ∃ files, Opened fs names files := by
    have h := h
    unfold wordaccdistProgram at h
    rw [e, bind_ok] at h
    obtain ⟨D, h, _⟩ := bind_eq_ok.1 h
    exact forFiles_opened h
  obtain ⟨files', hq, hf'⟩ := opened_perm hp hf
  rw [wordaccdist_eq e hf] at h
  obtain ⟨bytes, h1, h2⟩ := bind_eq_ok.1 h
  rw [wordaccdist_eq e' hf', wordaccdist_order hq h1]
  exact h2

/-- C81 (accci).  In exact arithmetic. -/
theorem c81_accci (pct : Int → Int → List Nat) (fmt : ℝ → List Nat)
    (out : Output) (h : accciProgram pct fmt fs (prog :: args) = .ok out) : accciProgram pct fmt fs (prog' :: args') = .ok out := by
  obtain ⟨b, V, e⟩ := init_none hc
  obtain ⟨b', V', e'⟩ := init_none hc'
  obtain ⟨files, hf⟩ : ∃ files, Opened fs names files := by
    have h := h
    unfold accciProgram at h
    rw [e, bind_ok] at h
    simp only at h
    split at h
    · cases h
    · obtain ⟨D, h, _⟩ := bind_eq_ok.1 h
      exact forFiles_opened h
  obtain ⟨files', hq, hf'⟩ := opened_perm hp hf
  rw [accci_eq e hf] at h
  obtain ⟨bytes, h1, h2⟩ := bind_eq_ok.1 h
  rw [accci_eq e' hf', accci_order hq h1]
  exact h2

/-- C81 (wordaccci). -/
theorem c81_wordaccci (pct : Int → Int → List Nat) (fmt : ℝ → List Nat)
    (out : Output) (h : wordaccciProgram pct fmt fs (prog :: args) = .ok out) : wordaccciProgram pct fmt fs (prog' :: args') = .ok out := by
  obtain ⟨b, V, e⟩ := init_none hc
  obtain ⟨b', V', e'⟩ := init_none hc'
  obtain ⟨files, hf⟩ : ∃ files, Opened fs names files := by
    have h := h
    unfold wordaccciProgram at h
    rw [e, bind_ok] at h
    simp only at h
    split at h
    · cases h
    · obtain ⟨D, h, _⟩ := bind_eq_ok.1 h
      exact forFiles_opened h
  obtain ⟨files', hq, hf'⟩ := opened_perm hp hf
  rw [wordaccci_eq e hf] at h
  obtain ⟨bytes, h1, h2⟩ := bind_eq_ok.1 h
  rw [wordaccci_eq e' hf', wordaccci_order hq h1]
  exact h2

/-- C81 (wordfreq).  If the words are strings, fewer than 2^31 in total. -/
theorem c81_wordfreq (U : Unicode) (L : Lower U) (prop : Nat → Word.WB) (nfc : List Nat → Option (List Nat)) (junk : List Nat) (hj : Bytes junk)
    (junk' : Nat) (hfs : ∀ name file, fs name = some file → Bytes file)
    (hi : ∀ wss, AllRead fs (ReadsWords U prop nfc) names wss → (∀ w ∈ wss.flatten, 0 ∉ w) ∧ wss.flatten.length < 2^31)
    (out : Output) (h : wordfreqProgram U prop nfc junk junk' fs (prog :: args) = .ok out) :
    wordfreqProgram U prop nfc junk junk' fs (prog' :: args') = .ok out := by
  obtain ⟨b, V, e⟩ := init_none hc
  obtain ⟨b', V', e'⟩ := init_none hc'
  obtain ⟨files, hf⟩ : ∃ files, Opened fs names files := by
    have h := h
    unfold wordfreqProgram at h
    rw [e, bind_ok] at h
    simp only at h
    split at h
    · cases h
    · obtain ⟨D, h, _⟩ := bind_eq_ok.1 h
      exact forFiles_opened h
  obtain ⟨files', hq, hf'⟩ := opened_perm hp hf
  have hB : ∀ f ∈ files, Bytes f := by
    intro f hm
    obtain ⟨name, _, hn⟩ := forall₂_right hf hm
    exact hfs _ _ hn
  have hB' : ∀ f ∈ files', Bytes f := fun f hm => hB f (hq.mem_iff.2 hm)
  rw [wordfreq_eq e hf] at h
  obtain ⟨hne, texts, wss, ht0, hw⟩ : files ≠ [] ∧ ∃ texts wss, Texts U junk (pageText true) files texts ∧
      List.Forall₂ (fun text (ws : List (List Nat)) => Word.find_words U prop nfc junk' text = .ok (ws.map some)) texts wss := by
    obtain ⟨bytes, h, _⟩ := bind_eq_ok.1 h
    unfold Wordfreq.wordfreqMain at h
    split at h
    · cases h
    · rename_i hl
      obtain ⟨D, h, _⟩ := bind_eq_ok.1 h
      exact ⟨by rintro rfl; exact hl rfl, wordfreq_texts h⟩
  have ht := (texts_textOf hj (b := false) hB).1 ht0
  clear ht0
  obtain ⟨pairs, hpr⟩ : ∃ pairs : List (List Ch × List (List Nat)), List.Forall₂ (fun f p => TextOf U true f p.1 ∧
      Word.find_words U prop nfc junk' p.1 = .ok (p.2.map some)) files pairs ∧ pairs.map Prod.fst = texts ∧ pairs.map Prod.snd = wss := by
    clear hi hne hB hB' hq hf h
    induction ht generalizing wss with
    | nil => cases hw; exact ⟨[], .nil, rfl, rfl⟩
    | cons h1 _ ih =>
      cases hw with
      | cons h2 hw =>
        obtain ⟨ps, a, b, c⟩ := ih _ hw
        exact ⟨(_, _) :: ps, .cons ⟨h1, h2⟩ a, by simp [b], by simp [c]⟩
  obtain ⟨hpr, rfl, rfl⟩ := hpr
  obtain ⟨pairs', hr, hpr'⟩ := Acc.forall₂_perm hq hpr
  have split : ∀ {files : List (List Nat)} {pairs : List (List Ch × List (List Nat))}, List.Forall₂ (fun f p => TextOf U true f p.1 ∧
      Word.find_words U prop nfc junk' p.1 = .ok (p.2.map some)) files pairs → List.Forall₂ (TextOf U true) files (pairs.map Prod.fst) ∧
      List.Forall₂ (fun text (ws : List (List Nat)) => Word.find_words U prop nfc junk' text = .ok (ws.map some)) (pairs.map Prod.fst) (pairs.map Prod.snd) := by
    intro files pairs h
    induction h with
    | nil => exact ⟨.nil, .nil⟩
    | cons h _ ih => exact ⟨.cons h.1 ih.1, .cons h.2 ih.2⟩
  have hall : AllRead fs (ReadsWords U prop nfc) names (pairs.map Prod.snd) := by
    clear hi hne hB' hq h ht hw hr hpr' split hp hc hc' e
    induction hf generalizing pairs with
    | nil => cases hpr; exact .nil
    | cons h1 _ ih =>
      cases hpr with
      | cons h2 hpr =>
        refine .cons ⟨_, h1, _, h2.1, ?_⟩ (ih (fun f hm => hB f (by simp [hm])) _ hpr)
        exact ((find_gives U prop nfc junk' (textOf_lower L (hB _ (by simp)) h2.1)).value _).1 h2.2
  obtain ⟨hnul, hlen⟩ := hi _ hall
  have hflat : ((pairs.map Prod.snd).flatten).Perm ((pairs'.map Prod.snd).flatten) := (hr.map _).flatten
  obtain ⟨r1, r2, e1, a1, _, a2, a3, _, a4⟩ := Wordfreq.c45_report U prop nfc junk junk' files hne _
    ((texts_textOf hj (b := false) hB).2 (split hpr).1) _ (split hpr).2 (by intro w hw c hc e; exact hnul w hw (e ▸ hc)) hlen
  obtain ⟨s1, s2, e2, b1, _, b2, b3, _, b4⟩ := Wordfreq.c45_report U prop nfc junk junk' files' (by rintro rfl; exact hne (hq.eq_nil)) _
    ((texts_textOf hj (b := false) hB').2 (split hpr').1) _ (split hpr').2
    (by intro w hw c hc e; exact hnul w (hflat.mem_iff.2 hw) (e ▸ hc)) (by rw [← hflat.length_eq]; exact hlen)
  have u1 := (Wordfreq.c45_unique _ r1 s1 (wordfreq_counted hflat a1) b1).1 a2 b2
  have u2 := (Wordfreq.c45_unique _ r2 s2 (wordfreq_counted hflat a3) b3).2 a4 b4
  rw [wordfreq_eq e' hf', e2, ← u1, ← u2, ← hflat.length_eq, ← e1]
  exact h

end

/-- C81 (ngram).  With the same options, if fewer than 2^31 runs of characters are counted in total. -/
theorem c81_ngram (U : Unicode) (F : UnicodeFacts U) (signed : Bool) (junk : List Nat) (hj : Bytes junk)
    (hfs : ∀ name file, fs name = some file → Bytes file) (ss : List Args.Setting)
    (hp : names.Perm names') (hc : CommandLine [(110, .value 0)] prog args names ss) (hc' : CommandLine [(110, .value 0)] prog' args' names' ss)
    (hbytes : ∀ a ∈ args, ∀ b ∈ a, 0 < b ∧ b < 256)
    (hi : ∀ n ≤ 3, ∀ ts, AllRead fs (TextOf U false) names ts → (ts.flatMap (Ngram.windows n)).length < 2^31)
    (out : Output) (h : ngramProgram U signed junk fs (prog :: args) = .ok out) : ngramProgram U signed junk fs (prog' :: args') = .ok out := by
  obtain ⟨b, V, e, hV⟩ := init_args table_ngram hc
  obtain ⟨b', V', e', hV'⟩ := init_args table_ngram hc'
  have e := (show Args.initialize_ (some Args.ngramOptions) true (prog :: args) start = _ from e)
  have e' := (show Args.initialize_ (some Args.ngramOptions) true (prog' :: args') start = _ from e')
  have hv : V'.string 0 = V.string 0 := given_eq hV' (fun x => hV.1 0 x)
  obtain ⟨files, hf⟩ : ∃ files, Opened fs names files := by
    have h := h
    unfold ngramProgram at h
    rw [e, bind_ok] at h
    simp only at h
    split at h
    · cases h
    · obtain ⟨n, _, h⟩ := bind_eq_ok.1 h
      obtain ⟨D, h, _⟩ := bind_eq_ok.1 h
      exact forFiles_opened h
  obtain ⟨files', hq, hf'⟩ := opened_perm hp hf
  have hB : ∀ f ∈ files, Bytes f := by
    intro f hm
    obtain ⟨name, _, hn⟩ := forall₂_right hf hm
    exact hfs _ _ hn
  have hB' : ∀ f ∈ files', Bytes f := fun f hm => hB f (hq.mem_iff.2 hm)
  have hs : ∀ s, V.string 0 = some s → ∀ b ∈ s, 0 < b ∧ b < 256 := by
    intro s hs
    exact parse_bytes hc.parse hbytes _ ((hV.1 0 s).1 hs)
  have opt := Ngram.c44_option signed (V.string 0) hs
  rw [ngram_eq e hf] at h
  obtain ⟨hne, ⟨n, hn⟩, texts, ht0⟩ : files ≠ [] ∧ (∃ n, Ngram.Selected (V.string 0) n) ∧ ∃ texts, Texts U junk (pageText false) files texts := by
    obtain ⟨bytes, h, _⟩ := bind_eq_ok.1 h
    unfold Ngram.ngramMain at h
    split at h
    · cases h
    · rename_i hl
      obtain ⟨n, hn, h⟩ := bind_eq_ok.1 h
      obtain ⟨D, h, _⟩ := bind_eq_ok.1 h
      refine ⟨by rintro rfl; exact hl rfl, ?_, ngram_texts h⟩
      by_contra hno
      rw [opt.2 hno] at hn
      cases hn
  have ht := (texts_textOf hj (b := false) hB).1 ht0
  clear ht0
  obtain ⟨texts', hr, ht'⟩ := Acc.forall₂_perm hq ht
  have hall : AllRead fs (TextOf U false) names texts := allRead_of hf ht
  have hn3 : n ≤ 3 := by rcases hn with ⟨_, rfl⟩ | ⟨_, h3, _⟩ <;> omega
  have hW : (texts.flatMap (Ngram.windows n)).Perm (texts'.flatMap (Ngram.windows n)) := hr.flatMap_right _
  have hl := hi n hn3 texts hall
  obtain ⟨r1, r2, e1, a1, a2, a3, a4⟩ := Ngram.c44_report U F signed junk hj (V.string 0) n hn files hne hB texts
    ((texts_textOf hj (b := false) hB).2 ht) hl
  obtain ⟨s1, s2, e2, b1, b2, b3, b4⟩ := Ngram.c44_report U F signed junk hj (V.string 0) n hn files' (by rintro rfl; exact hne (hq.eq_nil)) hB' texts'
    ((texts_textOf hj (b := false) hB').2 ht') (by rw [← hW.length_eq]; exact hl)
  have u1 := (Ngram.c44_unique U _ r1 s1 (ngram_counted hW a1) b1).1 a2 b2
  have u2 := (Ngram.c44_unique U _ r2 s2 (ngram_counted hW a3) b3).2 a4 b4
  rw [ngram_eq e' hf', hv, e2, ← u1, ← u2, ← hW.length_eq, ← hW.countP_eq, ← e1]
  exact h

end

/-! ## Non-vacuity -/

theorem yx_line (prog : String) (hp : (ascii prog).length ≤ 32768) :
    CommandLine [] (ascii prog) [ascii "y", ascii "x"] [ascii "y", ascii "x"] [] :=
  pair_line [] prog "y" "x" hp (by decide +kernel) (by decide +kernel)

theorem zyx_line (prog : String) (hp : (ascii prog).length ≤ 32768) :
    CommandLine [] (ascii prog) [ascii "z", ascii "x", ascii "y"] [ascii "z", ascii "x", ascii "y"] [] :=
  ⟨hp, by decide +kernel, by decide +kernel, by simp,
    .operand (by rintro ⟨c, r, e⟩; simp [ascii] at e) (.operand (by rintro ⟨c, r, e⟩; simp [ascii] at e)
      (.operand (by rintro ⟨c, r, e⟩; simp [ascii] at e) .nil)), by simp [Args.Once]⟩

theorem zyx_perm : [ascii "x", ascii "y", ascii "z"].Perm [ascii "z", ascii "x", ascii "y"] := by decide +kernel

def oddReport : List Nat := Edo.TITLE ++ Edo.DIVIDER ++ ascii "5\n6\n1\n\n\n\n2 7\n"

theorem reads_report : ReadsEditop oddReport () := ⟨5, 6, 1, [⟨2, 7, ascii "2 7\n"⟩], by decide +kernel, by decide⟩

/-- The same sum of two different edit operation reports. -/
example : ∃ out, editopsumProgram (threeFiles oddEditop oddReport []) [ascii "editopsum", ascii "x", ascii "y"] = .ok out ∧
    editopsumProgram (threeFiles oddEditop oddReport []) [ascii "editopsum", ascii "y", ascii "x"] = .ok out := by
  have L := two_line "editopsum" (by decide +kernel)
  obtain ⟨out, h⟩ := (c71_editopsum (threeFiles oddEditop oddReport []) _ _ L.prog L.many L.nul).output.2
    ⟨_, _, L, by simp, _, reads_two reads_odd reads_report⟩
  exact ⟨out, h, c81_editopsum _ _ _ _ _ _ _ (.swap _ _ _) _ _ L (yx_line "editopsum" (by decide +kernel)) out h⟩

/-- The same for word accuracy reports. -/
example (pct : Int → Int → List Nat) : ∃ out,
    wordaccsumProgram pct (threeFiles (briefWordacc "3" "1") (briefWordacc "100" "-1") []) [ascii "wordaccsum", ascii "x", ascii "y"] = .ok out ∧
    wordaccsumProgram pct (threeFiles (briefWordacc "3" "1") (briefWordacc "100" "-1") []) [ascii "wordaccsum", ascii "y", ascii "x"] = .ok out := by
  have L := two_line "wordaccsum" (by decide +kernel)
  obtain ⟨out, h⟩ := (c71_wordaccsum (threeFiles (briefWordacc "3" "1") (briefWordacc "100" "-1") []) _ _ L.prog L.many L.nul pct).output.2
    ⟨_, _, L, by simp, _, reads_two reads_brief reads_over⟩
  exact ⟨out, h, c81_wordaccsum _ _ _ _ _ _ _ (.swap _ _ _) _ _ L (yx_line "wordaccsum" (by decide +kernel)) pct out h⟩

/-- Distributions and intervals, with a file for which the number of words is negative. -/
example (pct : Int → Int → List Nat) (fmt : ℝ → List Nat) : (∃ out,
    wordaccdistProgram pct (threeFiles (briefWordacc "3" "1") (briefWordacc "-3" "0") []) [ascii "wordaccdist", ascii "x", ascii "y"] = .ok out ∧
    wordaccdistProgram pct (threeFiles (briefWordacc "3" "1") (briefWordacc "-3" "0") []) [ascii "wordaccdist", ascii "y", ascii "x"] = .ok out) ∧
    ∃ out, wordaccciProgram pct fmt (threeFiles (briefWordacc "100" "-1") (briefWordacc "100" "-1") (briefWordacc "-3" "0"))
        [ascii "wordaccci", ascii "x", ascii "y", ascii "z"] = .ok out ∧
      wordaccciProgram pct fmt (threeFiles (briefWordacc "100" "-1") (briefWordacc "100" "-1") (briefWordacc "-3" "0"))
        [ascii "wordaccci", ascii "z", ascii "x", ascii "y"] = .ok out := by
  have L := two_line "wordaccdist" (by decide +kernel)
  have L' := three_line "wordaccci" (by decide +kernel)
  obtain ⟨out, h⟩ := (c71_wordaccdist (threeFiles (briefWordacc "3" "1") (briefWordacc "-3" "0") []) _ _ L.prog L.many L.nul pct).output.2
    ⟨_, _, L, _, reads_two (R := fun f o => ReadsWordacc f o ∧ ¬ Over o) ⟨reads_brief, by unfold Over; decide⟩ ⟨reads_minus, by unfold Over; decide⟩⟩
  obtain ⟨out', h'⟩ := (c71_wordaccci (threeFiles (briefWordacc "100" "-1") (briefWordacc "100" "-1") (briefWordacc "-3" "0")) _ _
    L'.prog L'.many L'.nul pct fmt).output.2
    ⟨_, _, L', by simp, _, reads_three reads_over reads_over reads_minus, by unfold Two; decide, by unfold Nothing; decide⟩
  exact ⟨⟨out, h, c81_wordaccdist _ _ _ _ _ _ _ (.swap _ _ _) _ _ L (yx_line "wordaccdist" (by decide +kernel)) pct out h⟩,
    ⟨out', h', c81_wordaccci _ _ _ _ _ _ _ zyx_perm _ _ L' (zyx_line "wordaccci" (by decide +kernel)) pct fmt out' h'⟩⟩

theorem conf_top {E : Acc.Accdata} (h : Acc.read_accrpt Acc.Accdata.zero oddTop = .ok E) : E.conftable = [⟨ascii "b}\n", 1, 0⟩] := by
  have : (Acc.read_accrpt Acc.Accdata.zero oddTop >>= fun E => .ok E.conftable) = .ok [⟨ascii "b}\n", 1, 0⟩] := by decide +kernel
  rw [h] at this
  exact Res.ok.inj this

theorem conf_plus {E : Acc.Accdata} (h : Acc.read_accrpt Acc.Accdata.zero (briefAccuracy "100" "-1") = .ok E) : E.conftable = [] := by
  have : (Acc.read_accrpt Acc.Accdata.zero (briefAccuracy "100" "-1") >>= fun E => .ok E.conftable) = .ok [] := by decide +kernel
  rw [h] at this
  exact Res.ok.inj this

/-- Accuracy reports. -/
example (pct : Int → Int → List Nat) (fmt : ℝ → List Nat) : (∃ out,
    accsumProgram sampleUnicode pct (threeFiles oddTop (briefAccuracy "100" "-1") []) [ascii "accsum", ascii "x", ascii "y"] = .ok out ∧
    accsumProgram sampleUnicode pct (threeFiles oddTop (briefAccuracy "100" "-1") []) [ascii "accsum", ascii "y", ascii "x"] = .ok out) ∧
    (∃ out, accdistProgram pct (threeFiles oddTop (briefAccuracy "-3" "0") []) [ascii "accdist", ascii "x", ascii "y"] = .ok out ∧
      accdistProgram pct (threeFiles oddTop (briefAccuracy "-3" "0") []) [ascii "accdist", ascii "y", ascii "x"] = .ok out) ∧
    ∃ out, accciProgram pct fmt (threeFiles oddTop oddTop (briefAccuracy "100" "-1")) [ascii "accci", ascii "x", ascii "y", ascii "z"] = .ok out ∧
      accciProgram pct fmt (threeFiles oddTop oddTop (briefAccuracy "100" "-1")) [ascii "accci", ascii "z", ascii "x", ascii "y"] = .ok out := by
  have L := two_line "accsum" (by decide +kernel)
  have L1 := two_line "accdist" (by decide +kernel)
  have L2 := three_line "accci" (by decide +kernel)
  have b0 : Bytes [] := by unfold Bytes; decide
  have b1 : Bytes oddTop := by unfold Bytes; decide +kernel
  have b3 : Bytes (briefAccuracy "100" "-1") := by unfold Bytes; decide +kernel
  have b4 : Bytes (briefAccuracy "-3" "0") := by unfold Bytes; decide +kernel
  obtain ⟨o1, h1⟩ := (c71_accsum _ (three_bytes b1 b3 b0) _ _ L.prog L.many L.nul _ sampleFacts pct).output.2
      ⟨_, _, L, by simp, _, reads_two reads_top reads_plus⟩
  obtain ⟨o2, h2⟩ := (c71_accdist _ (three_bytes b1 b4 b0) _ _ L1.prog L1.many L1.nul pct).output.2 ⟨_, _, L1, _,
      reads_two (R := fun f o => ReadsAccuracy f o ∧ ¬ Over o) ⟨reads_top, by unfold Over; decide⟩ ⟨reads_less, by unfold Over; decide⟩⟩
  obtain ⟨o3, h3⟩ := (c71_accci _ (three_bytes b1 b1 b3) _ _ L2.prog L2.many L2.nul pct fmt).output.2 ⟨_, _, L2, by simp, _,
      reads_three reads_top reads_top reads_plus, by unfold Two; decide, by unfold Nothing; decide⟩
  refine ⟨⟨o1, h1, c81_accsum _ _ _ _ _ _ _ (.swap _ _ _) _ _ L (yx_line "accsum" (by decide +kernel)) _ pct ?_ o1 h1⟩,
    ⟨o2, h2, c81_accdist _ _ _ _ _ _ _ (.swap _ _ _) _ _ L1 (yx_line "accdist" (by decide +kernel)) pct o2 h2⟩,
    ⟨o3, h3, c81_accci _ _ _ _ _ _ _ zyx_perm _ _ L2 (zyx_line "accci" (by decide +kernel)) pct fmt o3 h3⟩⟩
  intro files Es hf hE k
  cases hf with
  | cons f1 hf =>
    cases hf with
    | cons f2 hf =>
      cases hf
      cases hE with
      | cons e1 hE =>
        cases hE with
        | cons e2 hE =>
          cases hE
          cases Option.some.inj ((file_y _ _ _).symm.trans f2)
          cases Option.some.inj ((show threeFiles oddTop (briefAccuracy "100" "-1") [] (ascii "x") = some oddTop from rfl).symm.trans f1)
          simp only [Acc.confErrors, Acc.confMarked, List.map_cons, List.map_nil, conf_top e1, conf_plus e2]
          by_cases hk : ascii "b}\n" = k <;> simp [hk]

/-- Pairs of characters, and words. -/
example : (∃ out, ngramProgram sampleUnicode true [] (threeFiles textX textY textZ)
      [ascii "ngram", ascii "-n", ascii "2", ascii "x", ascii "z"] = .ok out ∧
    ngramProgram sampleUnicode true [] (threeFiles textX textY textZ) [ascii "ngram", ascii "-n2", ascii "z", ascii "x"] = .ok out) ∧
    ∃ out, wordfreqProgram sampleUnicode Word.wbProp some [] 0 (threeFiles textX textY textZ) [ascii "wordfreq", ascii "x", ascii "y"] = .ok out ∧
      wordfreqProgram sampleUnicode Word.wbProp some [] 0 (threeFiles textX textY textZ) [ascii "wordfreq", ascii "y", ascii "x"] = .ok out := by
  have L : CommandLine [(110, .value 0)] (ascii "ngram") [ascii "-n", ascii "2", ascii "x", ascii "z"] [ascii "x", ascii "z"] [⟨.value 0, ascii "2"⟩] :=
    ⟨by decide +kernel, by decide +kernel, by decide +kernel, by simp,
    .separate (by unfold Args.Help; decide +kernel) (by decide) (.operand (by rintro ⟨c, r, e⟩; simp [ascii] at e)
      (.operand (by rintro ⟨c, r, e⟩; simp [ascii] at e) .nil)), by simp [Args.Once]⟩
  have L' : CommandLine [(110, .value 0)] (ascii "ngram") [ascii "-n2", ascii "z", ascii "x"] [ascii "z", ascii "x"] [⟨.value 0, ascii "2"⟩] :=
    ⟨by decide +kernel, by decide +kernel, by decide +kernel, by simp,
    .attached (by unfold Args.Help; decide +kernel) (by decide) (.operand (by rintro ⟨c, r, e⟩; simp [ascii] at e)
      (.operand (by rintro ⟨c, r, e⟩; simp [ascii] at e) .nil)), by simp [Args.Once]⟩
  have A : AllRead (threeFiles textX textY textZ) (TextOf sampleUnicode false) [ascii "x", ascii "z"]
      [plain "The cat", [⟨false, 99⟩, ⟨false, 0x10FFFF⟩]] := .cons ⟨_, rfl, of_x⟩ (.cons ⟨_, file_z _ _ _, of_z⟩ .nil)
  obtain ⟨out, h⟩ := (c73_ngram _ sampleFacts true [] (by simp [Bytes]) _ xyz_bytes _ _ L.prog L.many (by decide +kernel)).output.2
    ⟨_, _, L, by simp, ⟨some (ascii "2"), 2, by intro x; simp [eq_comm], .inr ⟨by omega, by omega, by decide +kernel⟩⟩, _, A⟩
  have M := pair_line [] "wordfreq" "x" "y" (by decide +kernel) (by decide +kernel) (by decide +kernel)
  have rx : ReadsWords sampleUnicode Word.wbProp some textX [ascii "the", ascii "cat"] :=
    ⟨plain "the cat", text_of (by decide +kernel) (pageText true) (by decide +kernel), strings_of (by decide +kernel) (by decide +kernel)⟩
  have ry : ReadsWords sampleUnicode Word.wbProp some textY [ascii "a", ascii "b"] :=
    ⟨plain "a " ++ [⟨true, 98⟩], text_of (by decide +kernel) (pageText true) (by decide +kernel),
      strings_of (by decide +kernel) (by decide +kernel)⟩
  have B : AllRead (threeFiles textX textY textZ) (ReadsWords sampleUnicode Word.wbProp some) [ascii "x", ascii "y"]
      [[ascii "the", ascii "cat"], [ascii "a", ascii "b"]] := .cons ⟨_, rfl, rx⟩ (.cons ⟨_, file_y _ _ _, ry⟩ .nil)
  obtain ⟨out', h'⟩ := (c73_wordfreq _ [] (by simp [Bytes]) _ xyz_bytes _ _ M.prog M.many M.nul lower_sample Word.wbProp some 0).output.2
      ⟨_, _, M, by simp, _, B⟩
  refine ⟨⟨out, h, c81_ngram _ _ _ _ _ _ _ _ sampleFacts _ _ (by simp [Bytes]) xyz_bytes _ (.swap _ _ _) L L' (by decide +kernel) ?_ out h⟩,
    ⟨out', h', c81_wordfreq _ _ _ _ _ _ _ (.swap _ _ _) _ _ M (yx_line "wordfreq" (by decide +kernel)) _ lower_sample _ _ _ (by simp [Bytes]) _
      xyz_bytes ?_ out' h'⟩⟩
  · intro n hn ts hts
    rw [allRead_unique (R := TextOf sampleUnicode false) (fun f o o' h h' => textOf_unique h h') hts A]
    have : n = 0 ∨ n = 1 ∨ n = 2 ∨ n = 3 := by omega
    rcases this with rfl | rfl | rfl | rfl <;> decide +kernel
  · intro wss hw
    rw [allRead_unique (R := ReadsWords sampleUnicode Word.wbProp some) words_u hw B]
    decide +kernel

/-- How a run without output ends does depend on the order: a message or undefined behaviour. -/
example : editopsumProgram (threeFiles (ascii "no report\n") longEditop []) [ascii "editopsum", ascii "x", ascii "y"] = .err "invalid format in" ∧
    editopsumProgram (threeFiles (ascii "no report\n") longEditop []) [ascii "editopsum", ascii "y", ascii "x"] = .ub := by decide +kernel

end Ocr.FileOrder
