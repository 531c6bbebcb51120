import Verif.Props.Programs
import Verif.Proof.PrintEndings
import Mathlib.Algebra.Order.Field.Rat
import Mathlib.Tactic.FieldSimp
import Mathlib.Tactic.Linarith

/-!
# C95: what the options -s and -w of vote can change
-/

namespace Ocr.Vote
open Res Text Sync

/-! ## Statement -/

/-- The value of the fraction given with an option, or `default` if the option is not given. -/
def OptionValue (default : ℚ) : Option (List Nat) → ℚ → Prop
  | none, q => q = default
  | some f, q => ∃ m n, Fraction f m n ∧ q = m / n

/-- The same characters in the same order. -/
def SameValues (out out' : List Ch) : Prop := out.map Ch.value = out'.map Ch.value

/-- Every character marked in `out` is marked in `out'`. -/
def MarksKept (out out' : List Ch) : Prop := ∀ (i : Nat) (c c' : Ch), out[i]? = some c → out'[i]? = some c' → c.suspect = true → c'.suspect = true

/-! ## Proportional weights -/

/-- The weights of `cfg` and `cfg'` have the ratio k' to k for these ballots. -/
def Proportional (cfg cfg' : Config) (k k' : Int) (bs : List (Option Ch)) : Prop :=
  ∀ b ∈ bs, k * weight cfg b = k' * weight cfg' b

theorem tally_prop {cfg cfg' : Config} {k k' : Int} {bs : List (Option Ch)} (h : Proportional cfg cfg' k k' bs) (x : Option Nat) :
    k * tally cfg bs x = k' * tally cfg' bs x := by
  unfold tally
  induction bs with
  | nil => simp
  | cons b bs ih =>
    have ih := ih (fun c hc => h c (by simp [hc]))
    have hb := h b (by simp)
    rw [List.filter_cons]
    split
    · simp only [List.map_cons, List.sum_cons, Int.mul_add]; rw [hb, ih]
    · exact ih

theorem elected_prop {cfg cfg' : Config} {k k' : Int} (hk : 0 < k) (hk' : 0 < k') {bs : List (Option Ch)}
    (h : Proportional cfg cfg' k k' bs) {x : Option Nat} (he : Elected cfg bs x) : Elected cfg' bs x := by
  obtain ⟨pre, b, post, e, hp, h1, h2⟩ := he
  refine ⟨pre, b, post, e, hp, ?_, ?_⟩
  · intro c hc y hy
    have := h1 c hc y hy
    have a1 := tally_prop h x
    have a2 := tally_prop h y
    have : k * tally cfg bs y < k * tally cfg bs x := Int.mul_lt_mul_of_pos_left this hk
    rw [a1, a2] at this
    exact lt_of_mul_lt_mul_left this hk'.le
  · intro c hc y hy
    have := h2 c hc y hy
    have a1 := tally_prop h x
    have a2 := tally_prop h y
    have : k * tally cfg bs y ≤ k * tally cfg bs x := Int.mul_le_mul_of_nonneg_left this hk.le
    rw [a1, a2] at this
    exact le_of_mul_le_mul_left this hk'

/-- The relation of the results: the same character; a mark stays if `P`. -/
def Kept (P : Prop) (c c' : Ch) : Prop := c.value = c'.value ∧ (P → c.suspect = true → c'.suspect = true)

theorem round_prop {cfg cfg' : Config} {k k' : Int} (hk : 0 < k) (hk' : 0 < k') {bs : List (Option Ch)}
    (h : Proportional cfg cfg' k k' bs) {P : Prop}
    (hP : P → ∀ t t' : Int, k * t = k' * t' → t ≤ cfg.suspect_threshold → t' ≤ cfg'.suspect_threshold)
    {c c' : Ch} (r : RoundResult cfg bs c) (r' : RoundResult cfg' bs c') : Kept P c c' := by
  rcases r with ⟨rfl, ha⟩ | ⟨he, hs⟩
  · rcases r' with ⟨rfl, _⟩ | ⟨⟨pre, b, post, e, hp, _⟩, _⟩
    · exact ⟨rfl, fun _ h => h⟩
    · rw [ha b (by rw [e]; simp)] at hp; cases hp
  · have he' := elected_prop hk hk' h he
    have r2 : RoundResult cfg' bs ⟨decide (tally cfg' bs (some c.value) ≤ cfg'.suspect_threshold), c.value⟩ :=
      .inr ⟨he', by simp⟩
    have := round_unique r2 r'
    subst this
    refine ⟨rfl, fun p hc => ?_⟩
    simp only [decide_eq_true_eq]
    exact hP p _ _ (tally_prop h _) (hs.1 hc)

theorem region_prop {cfg cfg' : Config} {k k' : Int} (hk : 0 < k) (hk' : 0 < k') {strs : List (List Ch)}
    (h : ∀ i, Proportional cfg cfg' k k' (ballots strs i)) {P : Prop}
    (hP : P → ∀ t t' : Int, k * t = k' * t' → t ≤ cfg.suspect_threshold → t' ≤ cfg'.suspect_threshold)
    {out out' : List Ch} (r : RegionVote cfg strs out) (r' : RegionVote cfg' strs out') : List.Forall₂ (Kept P) out out' := by
  have h' : ∀ i, Proportional cfg' cfg k' k (ballots strs i) := fun i b hb => (h i b hb).symm
  have hlen : out.length = out'.length := by
    rcases lt_trichotomy out.length out'.length with hl | hl | hl
    · have hk := List.getElem?_eq_getElem (l := out') (i := out.length) hl
      exact absurd (elected_prop ‹0 < k› hk' (h _) r.stop) (fun he => round_not_stop (r'.round _ _ hk) he)
    · exact hl
    · have hk := List.getElem?_eq_getElem (l := out) (i := out'.length) hl
      exact absurd (elected_prop hk' ‹0 < k› (h' _) r'.stop) (fun he => round_not_stop (r.round _ _ hk) he)
  rw [List.forall₂_iff_get]
  refine ⟨hlen, fun i h1 h2 => ?_⟩
  exact round_prop hk hk' (h i) hP (r.round i _ (List.getElem?_eq_getElem h1)) (r'.round i _ (List.getElem?_eq_getElem h2))

theorem kept_values {P : Prop} {out out' : List Ch} (h : List.Forall₂ (Kept P) out out') : SameValues out out' := by
  unfold SameValues
  induction h with
  | nil => rfl
  | cons h _ ih => rw [List.map_cons, List.map_cons, h.1, ih]

theorem kept_marks {P : Prop} {out out' : List Ch} (h : List.Forall₂ (Kept P) out out') (p : P) : MarksKept out out' := by
  unfold MarksKept
  induction h with
  | nil => intro i c c' h1; simp at h1
  | cons h _ ih =>
    intro i c c' h1 h2 hs
    cases i with
    | zero => simp at h1 h2; subst h1 h2; exact h.2 p hs
    | succ i => simp at h1 h2; exact ih i c c' h1 h2 hs

theorem flatten_forall₂ {R : Ch → Ch → Prop} : ∀ {a b : List (List Ch)}, List.Forall₂ (List.Forall₂ R) a b →
    List.Forall₂ R a.flatten b.flatten := by
  intro a b h
  induction h with
  | nil => exact .nil
  | cons h _ ih => rw [List.flatten_cons, List.flatten_cons]; exact List.rel_append h ih

theorem votes_prop {cfg cfg' : Config} {k k' : Int} (hk : 0 < k) (hk' : 0 < k') (texts : List (List Ch)) (h2 : 2 ≤ texts.length)
    (h16 : texts.length ≤ 16)
    (h : ∀ c : Ch, (∃ t ∈ texts, c ∈ t) → k * weight cfg (some c) = k' * weight cfg' (some c))
    (h0 : k * weight cfg none = k' * weight cfg' none) {P : Prop}
    (hP : P → ∀ t t' : Int, k * t = k' * t' → t ≤ cfg.suspect_threshold → t' ≤ cfg'.suspect_threshold) :
    ∃ r out out', synchronize (texts.map (·.map Ch.value)) = .ok r ∧ perform_vote cfg texts (rounds texts) r.items [] = .ok out ∧
      perform_vote cfg' texts (rounds texts) r.items [] = .ok out' ∧ List.Forall₂ (Kept P) out out' := by
  obtain ⟨r, outs, e1, _, e2, f⟩ := c39_vote cfg texts h2 h16
  obtain ⟨r', outs', e1', _, e2', f'⟩ := c39_vote cfg' texts h2 h16
  rw [e1] at e1'
  cases e1'
  refine ⟨r, _, _, e1, e2, e2', flatten_forall₂ ?_⟩
  have key : ∀ (items : List Sync) (o o' : List (List Ch)),
      List.Forall₂ (fun s out => RegionVote cfg (strings texts s) out) items o →
      List.Forall₂ (fun s out => RegionVote cfg' (strings texts s) out) items o' →
      List.Forall₂ (List.Forall₂ (Kept P)) o o' := by
    intro items
    induction items with
    | nil => intro o o' a b; cases a; cases b; exact .nil
    | cons s items ih =>
      intro o o' a b
      cases a with
      | cons a1 a2 =>
        cases b with
        | cons b1 b2 =>
          refine .cons (region_prop hk hk' ?_ hP a1 b1) (ih _ _ a2 b2)
          intro i b hb
          unfold ballots strings at hb
          rw [List.map_map, List.mem_map] at hb
          obtain ⟨⟨t, j⟩, hm, rfl⟩ := hb
          simp only [Function.comp]
          cases hc : (piece t (s.sub j))[i]? with
          | none => exact h0
          | some c =>
            refine h c ⟨t, ?_, ?_⟩
            · exact (List.mem_zipIdx hm).2.2 ▸ List.getElem_mem _
            · have := List.mem_of_getElem? hc
              unfold piece at this
              exact List.mem_of_mem_drop (List.mem_of_mem_take this)
  exact key _ _ _ f f'

theorem select_input {U : Unicode} {optimize : Bool} {n : Nat} {texts input : List (List Ch)}
    (h : select_voters U optimize n texts = .ok input) : input.length = n ∧ ∀ t ∈ input, t ∈ texts := by
  unfold select_voters at h
  obtain ⟨v, hv, h⟩ := bind_eq_ok.1 h
  have hm : ∀ x ∈ v, x.text ∈ texts := by
    have hz : ∀ (f : List Ch × Nat → Int), ∀ x ∈ texts.zipIdx.map (fun p => (⟨p.2, p.1, f p⟩ : Voter)), x.text ∈ texts := by
      intro f x hx
      obtain ⟨⟨t, j⟩, hj, rfl⟩ := List.mem_map.1 hx
      exact (List.mem_zipIdx hj).2.2 ▸ List.getElem_mem _
    cases optimize with
    | false =>
      simp only [Bool.false_eq_true, if_false, pure_eq] at hv
      cases hv
      exact hz (fun _ => 0)
    | true =>
      simp only [if_true] at hv
      obtain ⟨t, _, hv⟩ := bind_eq_ok.1 hv
      obtain ⟨array, _, hv⟩ := bind_eq_ok.1 hv
      obtain ⟨a', e, hp⟩ := Sort.c03_sort_permutes compare_distances
        (texts.zipIdx.map (fun (p : List Ch × Nat) => (⟨p.2, p.1, compute_distance p.2 array⟩ : Voter))) texts.length (by simp)
      rw [e] at hv
      cases hv
      intro x hx
      exact hz (fun p => compute_distance p.2 array) x (hp.mem_iff.1 hx)
  split at h
  · cases h
    refine ⟨by simp; omega, fun t ht => ?_⟩
    obtain ⟨x, hx, rfl⟩ := List.mem_map.1 ht
    exact hm x (List.mem_of_mem_take hx)
  · cases h

/-! ## The options -/

theorem weights_pos {argc : Nat} {optimize : Bool} {s w : Option (List Nat)} {cfg : Config} (h : Settings argc optimize s w cfg) :
    0 < cfg.suspect_weight ∧ 0 < cfg.unmarked_weight := by
  rcases h.weights with ⟨_, a, b⟩ | ⟨f, m, n, _, ⟨h1, h2, h3, _⟩, a, b⟩ <;> omega

theorem fraction_unique {f : List Nat} {m n m' n' : Nat} (h : Fraction f m n) (h' : Fraction f m' n') : m = m' ∧ n = n' := by
  obtain ⟨_, _, _, e⟩ := h
  obtain ⟨_, _, _, e'⟩ := h'
  rw [e] at e'
  simp at e'
  exact e'

/-- The weights have the ratio that the option gives. -/
theorem weight_ratio {argc : Nat} {optimize : Bool} {s w : Option (List Nat)} {cfg : Config} (h : Settings argc optimize s w cfg)
    {q : ℚ} (hq : OptionValue 1 w q) : (cfg.suspect_weight : ℚ) = q * cfg.unmarked_weight := by
  rcases h.weights with ⟨rfl, a, b⟩ | ⟨f, m, n, rfl, hf, a, b⟩
  · have : q = 1 := hq
    rw [this, a, b]; norm_num
  · obtain ⟨m', n', hf', rfl⟩ := hq
    obtain ⟨rfl, rfl⟩ := fraction_unique hf hf'
    have hn : (n : ℚ) ≠ 0 := by have := hf.1; have := hf.2.1; exact_mod_cast (by omega : n ≠ 0)
    rw [a, b]; push_cast; field_simp

/-- At most the threshold: at most the given share of the votes of all voters. -/
theorem threshold_iff {argc : Nat} {optimize : Bool} {s w : Option (List Nat)} {cfg : Config} (h : Settings argc optimize s w cfg)
    {q : ℚ} (hq : OptionValue 0 s q) (t : Int) :
    t ≤ cfg.suspect_threshold ↔ (t : ℚ) ≤ q * (cfg.actual_voters * cfg.unmarked_weight) := by
  rcases h.threshold with ⟨rfl, a⟩ | ⟨f, m, n, rfl, hf, a⟩
  · have : q = 0 := hq
    rw [this, a, zero_mul]; norm_cast
  · obtain ⟨m', n', hf', rfl⟩ := hq
    obtain ⟨rfl, rfl⟩ := fraction_unique hf hf'
    have hn : 0 < n := by have := hf.1; have := hf.2.1; omega
    have hn' : (0 : ℚ) < n := by exact_mod_cast hn
    rw [a, Int.le_ediv_iff_mul_le (by exact_mod_cast hn), div_mul_eq_mul_div, le_div_iff₀ hn']
    constructor
    · intro h
      have : ((t * (n : Int) : Int) : ℚ) ≤ ((cfg.actual_voters * cfg.unmarked_weight * (m : Int) : Int) : ℚ) := by exact_mod_cast h
      push_cast at this; linarith
    · intro h
      have : ((t * (n : Int) : Int) : ℚ) ≤ ((cfg.actual_voters * cfg.unmarked_weight * (m : Int) : Int) : ℚ) := by push_cast; linarith
      exact_mod_cast this

theorem value_exists {argc : Nat} {optimize : Bool} {s w : Option (List Nat)} {cfg : Config} (h : Settings argc optimize s w cfg) :
    ∃ q, OptionValue 0 s q := by
  rcases h.threshold with ⟨rfl, _⟩ | ⟨f, m, n, rfl, hf, _⟩
  · exact ⟨0, rfl⟩
  · exact ⟨_, m, n, hf, rfl⟩

/-- Options -w of the same value, or texts without marks. -/
def WeightsAgree (w w' : Option (List Nat)) (texts : List (List Ch)) : Prop :=
  (∃ q, OptionValue 1 w q ∧ OptionValue 1 w' q) ∨ ∀ t ∈ texts, ∀ c ∈ t, c.suspect = false

theorem votes_core {optimize : Bool} {s s' w w' : Option (List Nat)} {cfg cfg' : Config} {argc : Nat} {texts : List (List Ch)}
    (h : Settings argc optimize s w cfg) (h' : Settings argc optimize s' w' cfg') (hw : WeightsAgree w w' texts)
    (hl : texts.length = cfg.actual_voters) :
    ∃ r out out', synchronize (texts.map (·.map Ch.value)) = .ok r ∧ perform_vote cfg texts (rounds texts) r.items [] = .ok out ∧
      perform_vote cfg' texts (rounds texts) r.items [] = .ok out' ∧
      List.Forall₂ (Kept (∀ q q', OptionValue 0 s q → OptionValue 0 s' q' → q ≤ q')) out out' := by
  have hp := weights_pos h
  have hp' := weights_pos h'
  have ha : cfg'.actual_voters = cfg.actual_voters := by rw [h.actual, h'.actual]
  have hv := h.voters
  have hact := h.actual
  refine votes_prop hp'.2 hp.2 texts ?_ ?_ ?_ ?_ ?_
  · rw [hl, hact]; split <;> omega
  · rw [hl, hact]; split <;> omega
  · rintro c ⟨t, ht, hc⟩
    simp only [weight]
    by_cases hs : c.suspect = true
    · rw [if_pos hs, if_pos hs]
      rcases hw with ⟨q, h1, h2⟩ | hw
      · have a := weight_ratio h h1
        have b := weight_ratio h' h2
        have : ((cfg'.unmarked_weight * cfg.suspect_weight : Int) : ℚ) = ((cfg.unmarked_weight * cfg'.suspect_weight : Int) : ℚ) := by
          push_cast; rw [a, b]; ring
        exact_mod_cast this
      · rw [hw t ht c hc] at hs; cases hs
    · rw [if_neg hs, if_neg hs, Int.mul_comm]
  · exact Int.mul_comm _ _
  · intro hP t t' ht hle
    obtain ⟨q, hq⟩ := value_exists h
    obtain ⟨q', hq'⟩ := value_exists h'
    have hqq := hP q q' hq hq'
    rw [threshold_iff h hq] at hle
    rw [threshold_iff h' hq', ha]
    have e : (cfg'.unmarked_weight : ℚ) * t = cfg.unmarked_weight * t' := by exact_mod_cast ht
    have u : (0 : ℚ) < cfg.unmarked_weight := by exact_mod_cast hp.2
    have u' : (0 : ℚ) < cfg'.unmarked_weight := by exact_mod_cast hp'.2
    have hA : (0 : ℚ) ≤ cfg.actual_voters := by positivity
    have h1 : (cfg.unmarked_weight : ℚ) * t' ≤ cfg'.unmarked_weight * (q * (cfg.actual_voters * cfg.unmarked_weight)) := by
      rw [← e]; exact mul_le_mul_of_nonneg_left hle u'.le
    have h2 : (t' : ℚ) ≤ q * (cfg.actual_voters * cfg'.unmarked_weight) := by
      refine le_of_mul_le_mul_left ?_ u
      linarith [h1]
    exact le_trans h2 (mul_le_mul_of_nonneg_right hqq (by positivity))

/-- C95.  For the same texts and the same option -O, the characters of the output do not depend on -s at all, and on -w only
through the value of the fraction; if no text has a mark, not on -w either.  A larger fraction for -s keeps all marks. -/
theorem c95_values (U : Unicode) (F : UnicodeFacts U) (optimize : Bool) (texts : List (List Ch)) (s w s' w' : Option (List Nat))
    (cfg cfg' : Config) (h : Settings texts.length optimize s w cfg) (h' : Settings texts.length optimize s' w' cfg')
    (hw : WeightsAgree w w' texts) (hv : ∀ t ∈ texts, ∀ c ∈ t, c.value < 0x110000) :
    ∃ out out', voteTexts U optimize cfg texts = .ok out ∧ voteTexts U optimize cfg' texts = .ok out' ∧ SameValues out out' ∧
      ((∀ q q', OptionValue 0 s q → OptionValue 0 s' q' → q ≤ q') → MarksKept out out') := by
  have hvo := h.voters
  have hact := h.actual
  obtain ⟨input, e, hl, hm⟩ := Ending.select_total F (optimize := optimize) hv hvo.2 (by omega) (actual := cfg.actual_voters)
    (by rw [hact]; split <;> omega)
  obtain ⟨r, out, out', e1, e2, e3, hk⟩ := votes_core (texts := input) h h' (hw.imp id (fun hs t ht => hs t (hm t ht))) hl
  refine ⟨out, out', ?_, ?_, kept_values hk, kept_marks hk⟩
  · unfold voteTexts; rw [e, bind_ok, e1, bind_ok, e2]
  · have ha : cfg'.actual_voters = cfg.actual_voters := by rw [h.actual, h'.actual]
    unfold voteTexts; rw [ha, e, bind_ok, e1, bind_ok, e3]

/-- C95 (same values).  If the fractions of -s have the same value, and those of -w as well or no text has a mark, the result is
the same. -/
theorem c95_same (U : Unicode) (optimize : Bool) (texts : List (List Ch)) (s w s' w' : Option (List Nat))
    (cfg cfg' : Config) (h : Settings texts.length optimize s w cfg) (h' : Settings texts.length optimize s' w' cfg')
    (hw : WeightsAgree w w' texts) (q : ℚ) (hs : OptionValue 0 s q) (hs' : OptionValue 0 s' q) :
    voteTexts U optimize cfg texts = voteTexts U optimize cfg' texts := by
  have ha : cfg'.actual_voters = cfg.actual_voters := by rw [h.actual, h'.actual]
  have uniq : ∀ {s : Option (List Nat)} {a b : ℚ}, OptionValue 0 s a → OptionValue 0 s b → a = b := by
    intro s a b h1 h2
    cases s with
    | none => exact h1.trans h2.symm
    | some f =>
      obtain ⟨m, n, hf, rfl⟩ := h1
      obtain ⟨m', n', hf', rfl⟩ := h2
      obtain ⟨rfl, rfl⟩ := fraction_unique hf hf'
      rfl
  unfold voteTexts
  rw [ha]
  cases e : select_voters U optimize cfg.actual_voters texts with
  | ok input =>
    obtain ⟨hl, hm⟩ := select_input e
    have hw1 := hw.imp id (fun hs t (ht : t ∈ input) => hs t (hm t ht))
    have hw2 : WeightsAgree w' w input := hw1.imp (fun ⟨q, a, b⟩ => ⟨q, b, a⟩) id
    obtain ⟨r, out, out', e1, e2, e3, hk⟩ := votes_core (texts := input) h h' hw1 hl
    obtain ⟨r2, o', o, e1', e2', e3', hk'⟩ := votes_core (texts := input) h' h hw2 (by rw [ha]; exact hl)
    rw [e1] at e1'; cases e1'
    rw [e3] at e2'; cases e2'
    rw [e2] at e3'; cases e3'
    rw [bind_ok, bind_ok, e1, bind_ok, bind_ok, e2, e3]
    congr 1
    have m1 := kept_marks hk (fun a b h1 h2 => by rw [uniq h1 hs, uniq h2 hs'])
    have m2 := kept_marks hk' (fun a b h1 h2 => by rw [uniq h1 hs', uniq h2 hs])
    have hv := kept_values hk
    have hlen : out.length = out'.length := by simpa using congrArg List.length hv
    refine List.ext_getElem hlen (fun i i1 i2 => ?_)
    have g1 := List.getElem?_eq_getElem i1
    have g2 := List.getElem?_eq_getElem i2
    have hvi : out[i].value = out'[i].value := by
      have := congrArg (fun l => l[i]?) hv
      simpa [g1, g2] using this
    have hsi : out[i].suspect = out'[i].suspect := by
      have a := m1 i _ _ g1 g2
      have b := m2 i _ _ g2 g1
      cases h1 : out[i].suspect <;> cases h2 : out'[i].suspect <;> simp_all
    cases h1 : out[i]
    cases h2 : out'[i]
    rw [h1, h2] at hvi hsi
    simp only at hvi hsi
    rw [hvi, hsi]
  | err m => rfl
  | ub => rfl
  | fuel => rfl

/-- C95 (program).  `-s 1/2` and `-s 2/4` are the same, and so on: for any files the program ends in the same way with the same
output. -/
theorem c95_program (U : Unicode) (signed : Bool) (junk : List Nat) (optimize : Bool) (files : List (List Nat))
    (s w s' w' : Option (List Nat)) (cfg cfg' : Config) (h : Settings files.length optimize s w cfg)
    (h' : Settings files.length optimize s' w' cfg') (p q : ℚ) (hs : OptionValue 0 s q) (hs' : OptionValue 0 s' q)
    (hw : OptionValue 1 w p) (hw' : OptionValue 1 w' p) :
    voteMain U signed junk optimize s w files = voteMain U signed junk optimize s' w' files := by
  have hvo := h.voters
  have len : ∀ (files : List (List Nat)) (opt : Textopt) (texts : List (List Ch)), readAll U junk opt files = .ok texts →
      texts.length = files.length := by
    intro files
    induction files with
    | nil => intro opt texts e; cases e; rfl
    | cons f files ih =>
      intro opt texts e
      unfold readAll at e
      obtain ⟨⟨t, o⟩, _, e⟩ := bind_eq_ok.1 e
      obtain ⟨ts, e1, e⟩ := bind_eq_ok.1 e
      cases e
      rw [List.length_cons, List.length_cons, ih _ _ e1]
  unfold voteMain
  rw [Prog.validate_eq h, Prog.validate_eq h']
  split
  · rfl
  · cases e : readAll U junk textopt files with
    | ok texts =>
      have hl := len _ _ _ e
      rw [← hl] at h h'
      simp only [bind_ok]
      rw [c95_same U optimize texts s w s' w' cfg cfg' h h' (.inl ⟨p, hw, hw'⟩) q hs hs']
    | err m => rfl
    | ub => rfl
    | fuel => rfl

/-! ## Non-vacuity -/

example : OptionValue 0 (some (ascii "1/2")) (1 / 2) ∧ OptionValue 0 (some (ascii "2/4")) (1 / 2) ∧ OptionValue 1 none 1 := by
  refine ⟨⟨1, 2, ⟨by omega, by omega, by omega, by decide⟩, by norm_num⟩, ⟨2, 4, ⟨by omega, by omega, by omega, by decide⟩, by norm_num⟩, rfl⟩

/-- Three texts, thresholds 1/3 and 2/3, weights 1/2 and 2/4: the same characters; with 2/3 there are more marks. -/
def sampleVotes : List (List Ch) := [[⟨false, 97⟩, ⟨true, 98⟩, ⟨false, 100⟩], [⟨false, 97⟩, ⟨false, 99⟩, ⟨false, 100⟩],
  [⟨false, 97⟩, ⟨true, 98⟩, ⟨false, 101⟩]]

example : Settings 3 false (some (ascii "1/3")) (some (ascii "1/2")) ⟨3, 2, 1, 2⟩ ∧
    Settings 3 false (some (ascii "2/3")) (some (ascii "2/4")) ⟨3, 8, 2, 4⟩ := by
  refine ⟨⟨by omega, rfl, .inr ⟨_, 1, 2, rfl, ⟨by omega, by omega, by omega, by decide⟩, rfl, rfl⟩,
    .inr ⟨_, 1, 3, rfl, ⟨by omega, by omega, by omega, by decide⟩, by decide⟩⟩,
    ⟨by omega, rfl, .inr ⟨_, 2, 4, rfl, ⟨by omega, by omega, by omega, by decide⟩, rfl, rfl⟩,
    .inr ⟨_, 2, 3, rfl, ⟨by omega, by omega, by omega, by decide⟩, by decide⟩⟩⟩

example : voteTexts sampleUnicode false ⟨3, 2, 1, 2⟩ sampleVotes = .ok [⟨false, 97⟩, ⟨true, 98⟩, ⟨false, 100⟩] ∧
    voteTexts sampleUnicode false ⟨3, 8, 2, 4⟩ sampleVotes = .ok [⟨false, 97⟩, ⟨true, 98⟩, ⟨true, 100⟩] := by decide +kernel

end Ocr.Vote
