import Verif.Spec.Vote
import Verif.Proof.Synchronize

/-!
# perform_vote elects a plurality
-/

namespace Ocr.Vote
open Text Sync Res

/-! ## Candidates -/

/-- The candidates after the ballots `bs`. -/
structure CI (cfg : Config) (bs : List (Option Ch)) (cand : List Cand) : Prop where
  nodup : (cand.map Cand.c).Nodup
  votes : ∀ x ∈ cand, x.num_votes = tally cfg bs x.c
  len   : cand.length ≤ bs.length
  all   : ∀ b ∈ bs, ∀ y, proposal b = some y → y ∈ cand.map Cand.c
  first : ∀ A x B, cand = A ++ x :: B → ∃ pre b post, bs = pre ++ b :: post ∧ proposal b = some x.c ∧
    ∀ c ∈ pre, ∀ y, proposal c = some y → y ∈ A.map Cand.c

theorem ci_nil (cfg : Config) : CI cfg [] [] := by
  constructor <;> simp

theorem tally_append (cfg : Config) (bs cs : List (Option Ch)) (y : Option Nat) :
    tally cfg (bs ++ cs) y = tally cfg bs y + tally cfg cs y := by
  simp [tally]

theorem tally_single (cfg : Config) (b : Option Ch) (y : Option Nat) :
    tally cfg [b] y = if proposal b = some y then weight cfg b else 0 := by
  unfold tally
  by_cases h : proposal b = some y <;> simp [h]

theorem addVotes_cases (v : Option Nat) (n : Int) (cand : List Cand) :
    (addVotes v n cand = cand ++ [⟨v, n⟩] ∧ v ∉ cand.map Cand.c) ∨
    (∃ A x B, cand = A ++ x :: B ∧ x.c = v ∧ addVotes v n cand = A ++ ⟨x.c, x.num_votes + n⟩ :: B) := by
  induction cand with
  | nil => left; simp [addVotes]
  | cons x xs ih =>
    unfold addVotes
    by_cases h : x.c = v
    · rw [if_pos h]; right; exact ⟨[], x, xs, rfl, h, rfl⟩
    · rw [if_neg h]
      rcases ih with ⟨h1, h2⟩ | ⟨A, z, B, h1, h2, h3⟩
      · left; rw [h1]; simp only [List.map_cons, List.mem_cons, not_or]; exact ⟨rfl, fun e => h e.symm, h2⟩
      · right; exact ⟨x :: A, z, B, by rw [h1]; rfl, h2, by rw [h3]; rfl⟩

theorem tally_absent {cfg : Config} {bs : List (Option Ch)} {y : Option Nat}
    (h : ∀ b ∈ bs, proposal b ≠ some y) : tally cfg bs y = 0 := by
  unfold tally
  rw [List.filter_eq_nil_iff.2 (by intro b hb; simpa using h b hb)]
  rfl

/-- A ballot that abstains. -/
theorem ci_abstain {cfg : Config} {bs cand b} (h : CI cfg bs cand) (hb : proposal b = none) : CI cfg (bs ++ [b]) cand := by
  refine ⟨h.nodup, ?_, ?_, ?_, ?_⟩
  · intro x hx; rw [tally_append, tally_single, hb, h.votes x hx]; simp
  · have := h.len; simp; omega
  · intro c hc y hy
    rcases List.mem_append.1 hc with hc | hc
    · exact h.all c hc y hy
    · simp at hc; subst hc; rw [hb] at hy; simp at hy
  · intro A x B e
    obtain ⟨pre, c, post, e1, e2, e3⟩ := h.first A x B e
    exact ⟨pre, c, post ++ [b], by rw [e1]; simp, e2, e3⟩

/-- A ballot for `v`. -/
theorem ci_vote {cfg : Config} {bs cand b v} (h : CI cfg bs cand) (hb : proposal b = some v) :
    CI cfg (bs ++ [b]) (addVotes v (weight cfg b) cand) := by
  rcases addVotes_cases v (weight cfg b) cand with ⟨e, hv⟩ | ⟨A, x, B, e0, hx, e⟩
  · rw [e]
    refine ⟨?_, ?_, ?_, ?_, ?_⟩
    · simp only [List.map_append, List.map_cons, List.map_nil]
      rw [List.nodup_append]
      refine ⟨h.nodup, by simp, ?_⟩
      intro a ha c hc e'
      simp at hc; exact hv (hc ▸ e' ▸ ha)
    · intro x hx
      rw [tally_append, tally_single, hb]
      rcases List.mem_append.1 hx with hx | hx
      · rw [h.votes x hx, if_neg]
        · simp
        · intro e'
          simp at e'
          exact hv (e' ▸ List.mem_map.2 ⟨x, hx, rfl⟩)
      · simp at hx; subst hx
        rw [tally_absent]
        · simp
        · intro c hc hp
          exact hv (h.all c hc v hp)
    · have := h.len; simp; omega
    · intro c hc y hy
      rcases List.mem_append.1 hc with hc | hc
      · simp only [List.map_append, List.mem_append]; left; exact h.all c hc y hy
      · simp at hc; subst hc; rw [hb] at hy; simp at hy; subst hy; simp
    · intro A x B hAB
      rcases List.eq_nil_or_concat B with rfl | ⟨B', z, rfl⟩
      · have e2 := List.append_inj' (s₁ := cand) (t₁ := [⟨v, weight cfg b⟩]) (s₂ := A) (t₂ := [x]) hAB rfl
        obtain ⟨rfl, e3⟩ := e2
        simp at e3; subst e3
        exact ⟨bs, b, [], rfl, hb, fun c hc y hy => h.all c hc y hy⟩
      · simp only [List.concat_eq_append] at hAB
        have : cand ++ [⟨v, weight cfg b⟩] = (A ++ x :: B') ++ [z] := by rw [hAB]; simp
        obtain ⟨e2, _⟩ := List.append_inj' this rfl
        obtain ⟨pre, c, post, e1, e3, e4⟩ := h.first A x B' e2
        exact ⟨pre, c, post ++ [b], by rw [e1]; simp, e3, e4⟩
  · rw [e]
    subst e0
    have hmap : (A ++ (⟨x.c, x.num_votes + weight cfg b⟩ : Cand) :: B).map Cand.c = (A ++ x :: B).map Cand.c := by simp
    refine ⟨by rw [hmap]; exact h.nodup, ?_, ?_, ?_, ?_⟩
    · have hnd := h.nodup
      simp only [List.map_append, List.map_cons] at hnd
      have hnotA : ∀ z ∈ A, z.c ≠ x.c := by
        intro z hz e
        rw [List.nodup_append] at hnd
        exact hnd.2.2 z.c (List.mem_map.2 ⟨z, hz, rfl⟩) x.c (by simp) e
      have hnotB : ∀ z ∈ B, z.c ≠ x.c := by
        intro z hz e
        rw [List.nodup_append, List.nodup_cons] at hnd
        exact hnd.2.1.1 (e ▸ List.mem_map.2 ⟨z, hz, rfl⟩)
      intro z hz
      rw [tally_append, tally_single, hb]
      rcases List.mem_append.1 hz with hz | hz
      · rw [h.votes z (by simp [hz]), if_neg]
        · simp
        · simp only [Option.some.injEq]; intro e; exact hnotA z hz (by rw [hx]; exact e.symm)
      · rcases List.mem_cons.1 hz with rfl | hz
        · simp only; rw [h.votes x (by simp), if_pos (by rw [hx])]
        · rw [h.votes z (by simp [hz]), if_neg]
          · simp
          · simp only [Option.some.injEq]; intro e; exact hnotB z hz (by rw [hx]; exact e.symm)
    · have := h.len; simp at this ⊢; omega
    · rw [hmap]
      intro c hc y hy
      rcases List.mem_append.1 hc with hc | hc
      · exact h.all c hc y hy
      · simp at hc; subst hc; rw [hb] at hy; simp at hy; subst hy; simp [hx]
    · intro A' z B' hAB
      -- the order of the candidates is unchanged
      have : ∃ A2 z2 B2, A ++ x :: B = A2 ++ z2 :: B2 ∧ A2.map Cand.c = A'.map Cand.c ∧ z2.c = z.c := by
        have hl : (A ++ x :: B).length = (A' ++ z :: B').length := by rw [← hAB]; simp
        refine ⟨(A ++ x :: B).take A'.length, (A ++ x :: B)[A'.length]'(by rw [hl]; simp), (A ++ x :: B).drop (A'.length + 1), ?_, ?_, ?_⟩
        · rw [List.getElem_cons_drop, List.take_append_drop]
        · rw [List.map_take, ← hmap, hAB]; simp
        · have h1 : ((A ++ x :: B).map Cand.c)[A'.length]? = ((A' ++ z :: B').map Cand.c)[A'.length]? := by
            rw [← hmap, hAB]
          rw [List.getElem?_map, List.getElem?_map, List.getElem?_eq_getElem (by rw [hl]; simp)] at h1
          simpa using h1
      obtain ⟨A2, z2, B2, k1, k2, k3⟩ := this
      obtain ⟨pre, c, post, e1, e2, e3⟩ := h.first A2 z2 B2 k1
      exact ⟨pre, c, post ++ [b], by rw [e1]; simp, by rw [e2, k3], fun c hc y hy => k2 ▸ e3 c hc y hy⟩

theorem place_spec {cfg : Config} {bs cand} (h : CI cfg bs cand) (b : Option Ch) (hl : bs.length < MAX_VOTERS) :
    ∃ cand', place_vote cfg b cand = .ok cand' ∧ CI cfg (bs ++ [b]) cand' := by
  unfold place_vote
  cases b with
  | none =>
    have h' := ci_vote h (b := none) (v := none) rfl
    have hlen := h'.len
    simp only [weight] at h' hlen
    simp only
    rw [if_pos (by simp at hlen; omega)]
    exact ⟨_, rfl, h'⟩
  | some ch =>
    simp only
    by_cases hr : ch.value = REJECT_CHARACTER
    · rw [if_pos hr]
      exact ⟨_, rfl, ci_abstain h (by simp only [proposal, hr]; rfl)⟩
    · rw [if_neg hr]
      have h' := ci_vote h (b := some ch) (v := some ch.value) (by simp only [proposal]; exact if_neg hr)
      have hlen := h'.len
      simp only [weight] at h' hlen
      rw [if_pos (by simp at hlen; omega)]
      exact ⟨_, rfl, h'⟩

theorem leader_spec : ∀ (xs : List Cand) (pre : List Cand) (leader : Cand) (mid : List Cand),
    (∀ a ∈ pre, a.num_votes < leader.num_votes) → (∀ a ∈ mid, a.num_votes ≤ leader.num_votes) →
    ∃ A B, pre ++ leader :: mid ++ xs = A ++ leaderLoop leader xs :: B ∧
      (∀ a ∈ A, a.num_votes < (leaderLoop leader xs).num_votes) ∧ (∀ a ∈ B, a.num_votes ≤ (leaderLoop leader xs).num_votes) := by
  intro xs
  induction xs with
  | nil => intro pre leader mid h1 h2; exact ⟨pre, mid, by simp [leaderLoop], h1, h2⟩
  | cons x xs ih =>
    intro pre leader mid h1 h2
    unfold leaderLoop
    by_cases hx : x.num_votes > leader.num_votes
    · rw [if_pos hx]
      obtain ⟨A, B, e, a1, a2⟩ := ih (pre ++ leader :: mid) x [] (by
        intro a ha
        rcases List.mem_append.1 ha with ha | ha
        · have := h1 a ha; omega
        · rcases List.mem_cons.1 ha with rfl | ha
          · omega
          · have := h2 a ha; omega) (by simp)
      exact ⟨A, B, by rw [← e]; simp, a1, a2⟩
    · rw [if_neg hx]
      obtain ⟨A, B, e, a1, a2⟩ := ih pre leader (mid ++ [x]) h1 (by
        intro a ha
        rcases List.mem_append.1 ha with ha | ha
        · exact h2 a ha
        · simp at ha; subst ha; omega)
      exact ⟨A, B, by rw [← e]; simp, a1, a2⟩

theorem leader_elected {cfg : Config} {bs x xs} (h : CI cfg bs (x :: xs)) :
    Elected cfg bs (leaderLoop x xs).c ∧ (leaderLoop x xs).num_votes = tally cfg bs (leaderLoop x xs).c := by
  obtain ⟨A, B, e, a1, a2⟩ := leader_spec xs [] x [] (by simp) (by simp)
  simp only [List.nil_append, List.cons_append] at e
  have hmem : leaderLoop x xs ∈ x :: xs := by rw [e]; simp
  have hv := h.votes _ hmem
  refine ⟨?_, hv⟩
  obtain ⟨pre, b, post, e1, e2, e3⟩ := h.first A _ B e
  refine ⟨pre, b, post, e1, e2, ?_, ?_⟩
  · intro c hc y hy
    obtain ⟨z, hz, rfl⟩ := List.mem_map.1 (e3 c hc y hy)
    have hz' : z ∈ x :: xs := by rw [e]; simp [hz]
    rw [← h.votes z hz', ← hv]
    exact a1 z hz
  · intro c hc y hy
    obtain ⟨z, hz, rfl⟩ := List.mem_map.1 (h.all c (by rw [e1]; simp [hc]) y hy)
    rw [← h.votes z hz, ← hv]
    rw [e] at hz
    rcases List.mem_append.1 hz with hz | hz
    · exact Int.le_of_lt (a1 z hz)
    · rcases List.mem_cons.1 hz with rfl | hz
      · exact Int.le_refl _
      · exact a2 z hz

/-- The three outcomes of a round. -/
theorem winner_spec {cfg : Config} {bs cand} (h : CI cfg bs cand) :
    (∃ c, winner cfg cand = (some c, true) ∧ RoundResult cfg bs c) ∨ (winner cfg cand = (none, false) ∧ Elected cfg bs none) := by
  cases cand with
  | nil =>
    left
    refine ⟨_, rfl, .inl ⟨rfl, ?_⟩⟩
    intro b hb
    cases hp : proposal b with
    | none => rfl
    | some y => have := h.all b hb y hp; simp at this
  | cons x xs =>
    obtain ⟨h1, h2⟩ := leader_elected h
    unfold winner
    simp only
    cases hc : (leaderLoop x xs).c with
    | none => right; rw [hc] at h1; exact ⟨rfl, h1⟩
    | some v =>
      left
      rw [hc] at h1 h2
      refine ⟨_, rfl, .inr ⟨h1, ?_⟩⟩
      simp [h2]

/-! ## A region -/

/-- What is left of a voter's string. -/
def rest (text : List Ch) (s : Substr) : List Ch := (text.drop s.start.toNat).take (s.stop + 1 - s.start).toNat

/-- A substring within its text. -/
def Within (text : List Ch) (s : Substr) : Prop := 0 ≤ s.start ∧ s.stop < text.length

theorem castLoop_spec (cfg : Config) : ∀ (input : List (List Ch)) (ss : List Substr) (bs : List (Option Ch)) (cand : List Cand),
    List.Forall₂ Within input ss → CI cfg bs cand → bs.length + input.length ≤ MAX_VOTERS →
    ∃ ss' cand', castLoop cfg input ss cand = .ok (ss', cand') ∧ List.Forall₂ Within input ss' ∧
      List.zipWith rest input ss' = (List.zipWith rest input ss).map List.tail ∧
      CI cfg (bs ++ (List.zipWith rest input ss).map List.head?) cand' := by
  intro input
  induction input with
  | nil =>
    intro ss bs cand hw hc _
    cases hw
    exact ⟨[], cand, rfl, .nil, rfl, by simpa using hc⟩
  | cons text input ih =>
    intro ss bs cand hw hc hl
    cases hw with
    | cons hs hrest =>
      rename_i s ss
      simp only [List.length_cons] at hl
      unfold castLoop
      by_cases hss : s.start ≤ s.stop
      · rw [if_pos hss]
        have hlt : s.start.toNat < text.length := by have := hs.1; have := hs.2; omega
        rw [rdI_eq hs.1 (List.getElem?_eq_getElem hlt)]
        simp only [bind_ok]
        obtain ⟨c1, e1, hc1⟩ := place_spec hc (some text[s.start.toNat]) (by omega)
        rw [e1]
        simp only [bind_ok]
        obtain ⟨ss', cand', e2, w2, r2, c2⟩ := ih ss _ c1 hrest hc1 (by simp; omega)
        rw [e2]
        simp only [bind_ok, pure_eq]
        have hr : rest text s = text[s.start.toNat] :: rest text ⟨s.start + 1, s.stop, s.length⟩ := by
          unfold rest
          simp only
          rw [List.drop_eq_getElem_cons hlt, show (s.stop + 1 - s.start).toNat = (s.stop + 1 - (s.start + 1)).toNat + 1 by omega,
            List.take_succ_cons, show (s.start + 1).toNat = s.start.toNat + 1 by have := hs.1; omega]
        refine ⟨_, _, rfl, .cons ⟨by have := hs.1; simp only; omega, hs.2⟩ w2, ?_, ?_⟩
        · simp only [List.zipWith_cons_cons, List.map_cons, r2, hr, List.tail_cons]
        · simp only [List.zipWith_cons_cons, List.map_cons, hr, List.head?_cons]
          simpa using c2
      · rw [if_neg hss]
        obtain ⟨c1, e1, hc1⟩ := place_spec hc none (by omega)
        rw [e1]
        simp only [bind_ok]
        obtain ⟨ss', cand', e2, w2, r2, c2⟩ := ih ss _ c1 hrest hc1 (by simp; omega)
        rw [e2]
        simp only [bind_ok, pure_eq]
        have hr : rest text s = [] := by
          unfold rest
          rw [show (s.stop + 1 - s.start).toNat = 0 by omega]; simp
        refine ⟨_, _, rfl, .cons hs w2, ?_, ?_⟩
        · simp only [List.zipWith_cons_cons, List.map_cons, r2, hr, List.tail_nil]
        · simp only [List.zipWith_cons_cons, List.map_cons, hr, List.head?_nil]
          simpa using c2

theorem ballots_zero (strs : List (List Ch)) : ballots strs 0 = strs.map List.head? := by
  unfold ballots; congr 1; funext l; cases l <;> rfl

theorem ballots_tail (strs : List (List Ch)) (k : Nat) : ballots (strs.map List.tail) k = ballots strs (k + 1) := by
  unfold ballots
  rw [List.map_map]; congr 1; funext l; cases l <;> simp

theorem sum_tail_le (strs : List (List Ch)) : ((strs.map List.tail).map List.length).sum ≤ (strs.map List.length).sum := by
  induction strs with
  | nil => simp
  | cons s strs ih => simp only [List.map_cons, List.sum_cons, List.length_tail]; omega

theorem sum_tail_lt {strs : List (List Ch)} {c : Ch} (h : some c ∈ strs.map List.head?) :
    ((strs.map List.tail).map List.length).sum < (strs.map List.length).sum := by
  induction strs with
  | nil => simp at h
  | cons s strs ih =>
    have := sum_tail_le strs
    simp only [List.map_cons, List.sum_cons, List.length_tail, List.mem_cons] at h ⊢
    rcases h with h | h
    · have : s ≠ [] := by rintro rfl; simp at h
      have := List.length_pos_iff.2 this
      omega
    · have := ih h; omega

/-- A round that goes on uses up a character. -/
theorem round_consumes {cfg : Config} {bs : List (Option Ch)} {c : Ch} (h : RoundResult cfg bs c) (hne : bs ≠ []) :
    ∃ d, some d ∈ bs := by
  rcases h with ⟨_, h⟩ | ⟨⟨pre, b, post, e, hb, _⟩, _⟩
  · cases bs with
    | nil => exact absurd rfl hne
    | cons b bs =>
      have := h b (by simp)
      cases b with
      | none => simp [proposal] at this
      | some d => exact ⟨d, by simp⟩
  · cases b with
    | none => simp [proposal] at hb
    | some d => exact ⟨d, by rw [e]; simp⟩

theorem regionLoop_spec (cfg : Config) (input : List (List Ch)) (hne : input ≠ []) (h16 : input.length ≤ MAX_VOTERS) :
    ∀ (fuel : Nat) (ss : List Substr) (output : List Ch), List.Forall₂ Within input ss →
    ((List.zipWith rest input ss).map List.length).sum ≤ fuel →
    ∃ out, regionLoop cfg input fuel ss output = .ok (output ++ out) ∧ RegionVote cfg (List.zipWith rest input ss) out := by
  intro fuel
  induction fuel with
  | zero =>
    intro ss output hw hf
    obtain ⟨ss', cand, e, w', r', hc⟩ := castLoop_spec cfg input ss [] [] hw (ci_nil cfg) (by simpa using h16)
    simp only [List.nil_append] at hc
    unfold regionLoop
    rw [e]
    simp only [bind_ok]
    rcases winner_spec hc with ⟨c, hwn, hr⟩ | ⟨hwn, hr⟩
    · exfalso
      obtain ⟨d, hd⟩ := round_consumes hr (by
        have := hw.length_eq
        cases input with
        | nil => exact absurd rfl hne
        | cons t ts => cases ss with
          | nil => simp at this
          | cons s ss => simp)
      have := sum_tail_lt hd
      omega
    · rw [hwn]
      refine ⟨[], by simp, ⟨by simp, ?_⟩⟩
      simpa [ballots_zero] using hr
  | succ fuel ih =>
    intro ss output hw hf
    obtain ⟨ss', cand, e, w', r', hc⟩ := castLoop_spec cfg input ss [] [] hw (ci_nil cfg) (by simpa using h16)
    simp only [List.nil_append] at hc
    unfold regionLoop
    rw [e]
    simp only [bind_ok]
    rcases winner_spec hc with ⟨c, hwn, hr⟩ | ⟨hwn, hr⟩
    · rw [hwn]
      simp only [if_true, Option.toList_some]
      obtain ⟨d, hd⟩ := round_consumes hr (by
        have := hw.length_eq
        cases input with
        | nil => exact absurd rfl hne
        | cons t ts => cases ss with
          | nil => simp at this
          | cons s ss => simp)
      have hlt := sum_tail_lt hd
      obtain ⟨out, e2, h2⟩ := ih ss' (output ++ [c]) w' (by rw [r']; omega)
      refine ⟨c :: out, by rw [e2]; simp, ⟨?_, ?_⟩⟩
      · intro k c' hk
        cases k with
        | zero => simp at hk; subst hk; rw [ballots_zero]; exact hr
        | succ k =>
          rw [List.getElem?_cons_succ] at hk
          have := h2.round k c' hk
          rwa [r', ballots_tail] at this
      · have := h2.stop
        rwa [r', ballots_tail] at this
    · rw [hwn]
      refine ⟨[], by simp, ⟨by simp, ?_⟩⟩
      simpa [ballots_zero] using hr

/-! ## The whole vote -/

theorem strings_eq {texts : List (List Ch)} {s : Sync} (hw : s.substr.length = texts.length)
    (hb : ∀ t (h : t < texts.length), 0 ≤ (s.sub t).start ∧ (s.sub t).stop = (s.sub t).start + (s.sub t).length - 1 ∧
      0 ≤ (s.sub t).length ∧ (s.sub t).stop < texts[t].length) :
    List.Forall₂ Within texts s.substr ∧ List.zipWith rest texts s.substr = strings texts s := by
  constructor
  · rw [List.forall₂_iff_get]
    refine ⟨hw.symm, ?_⟩
    intro i h1 h2
    have := hb i h1
    have e : s.sub i = s.substr[i] := by unfold Sync.sub; simp [h2]
    rw [e] at this
    exact ⟨this.1, this.2.2.2⟩
  · apply List.ext_getElem
    · simp [strings, hw]
    · intro i h1 h2
      have hi : i < texts.length := by simpa [strings] using h2
      have := hb i hi
      have e : s.sub i = s.substr[i]'(by omega) := by unfold Sync.sub; simp [hw, hi]
      simp only [strings, List.getElem_zipWith, List.getElem_map, List.getElem_zipIdx, Nat.zero_add]
      rw [← e]
      unfold rest piece
      congr 1
      omega

theorem rest_sum_le {texts : List (List Ch)} {s : Sync} : ((strings texts s).map List.length).sum ≤ rounds texts := by
  unfold rounds strings
  rw [List.map_map]
  have : ∀ (l : List (List Ch)) (n : Nat), ((l.zipIdx n).map (List.length ∘ fun p => piece p.1 (s.sub p.2))).sum ≤ (l.map List.length).sum := by
    intro l
    induction l with
    | nil => simp
    | cons t l ih =>
      intro n
      have := ih (n + 1)
      simp only [List.zipIdx_cons, List.map_cons, List.sum_cons, Function.comp]
      have h2 : (piece t (s.sub n)).length ≤ t.length := by unfold piece; simp
      have h3 := ih (n + 1)
      simp only [Function.comp_def] at h3
      omega
  exact this texts 0

theorem perform_spec (cfg : Config) (texts : List (List Ch)) (hne : texts ≠ []) (h16 : texts.length ≤ MAX_VOTERS) :
    ∀ (items : List Sync) (output : List Ch),
    (∀ s ∈ items, s.substr.length = texts.length ∧ ∀ t (h : t < texts.length), 0 ≤ (s.sub t).start ∧
      (s.sub t).stop = (s.sub t).start + (s.sub t).length - 1 ∧ 0 ≤ (s.sub t).length ∧ (s.sub t).stop < texts[t].length) →
    ∃ outs : List (List Ch), perform_vote cfg texts (rounds texts) items output = .ok (output ++ outs.flatten) ∧
      List.Forall₂ (fun s out => RegionVote cfg (strings texts s) out) items outs := by
  intro items
  induction items with
  | nil => intro output _; exact ⟨[], by simp [perform_vote], .nil⟩
  | cons s items ih =>
    intro output h
    obtain ⟨hw, hb⟩ := h s (by simp)
    obtain ⟨w1, w2⟩ := strings_eq hw hb
    obtain ⟨out, e1, r1⟩ := regionLoop_spec cfg texts hne h16 (rounds texts) s.substr output w1 (by rw [w2]; exact rest_sum_le)
    obtain ⟨outs, e2, r2⟩ := ih (output ++ out) (fun s hs => h s (by simp [hs]))
    unfold perform_vote
    rw [e1]
    simp only [bind_ok]
    rw [e2]
    rw [w2] at r1
    exact ⟨out :: outs, by simp, .cons r1 r2⟩

theorem alignment_bounds {texts : List (List Ch)} {items : List Sync} (h : IsAlignment (texts.map (·.map Ch.value)) items) :
    ∀ s ∈ items, s.substr.length = texts.length ∧ ∀ t (h : t < texts.length), 0 ≤ (s.sub t).start ∧
      (s.sub t).stop = (s.sub t).start + (s.sub t).length - 1 ∧ 0 ≤ (s.sub t).length ∧ (s.sub t).stop < texts[t].length := by
  intro s hs
  refine ⟨by simpa using h.width s hs, ?_⟩
  intro t ht
  obtain ⟨pre, post, rfl⟩ := List.append_of_mem hs
  have := item_bounds h (t := t) (by simpa using ht)
  simpa using this

/-! ## Uniqueness -/

theorem elected_unique {cfg : Config} {bs x y} (hx : Elected cfg bs x) (hy : Elected cfg bs y) : x = y := by
  obtain ⟨p1, b1, q1, e1, hb1, l1, r1⟩ := hx
  obtain ⟨p2, b2, q2, e2, hb2, l2, r2⟩ := hy
  have h1 : b1 ∈ p2 ∨ b1 = b2 ∨ b1 ∈ q2 := by
    have : b1 ∈ bs := by rw [e1]; simp
    rw [e2] at this; simpa using this
  have h2 : b2 ∈ p1 ∨ b2 = b1 ∨ b2 ∈ q1 := by
    have : b2 ∈ bs := by rw [e2]; simp
    rw [e1] at this; simpa using this
  -- compare the positions
  rcases Nat.lt_trichotomy p1.length p2.length with hlt | heq | hgt
  · have : b1 ∈ p2 := by
      have hh : bs[p1.length]? = some b1 := by rw [e1]; simp
      rw [e2, List.getElem?_append_left hlt] at hh
      exact List.mem_of_getElem? hh
    have k1 := l2 b1 this x hb1
    rcases h2 with h | h | h
    · have := l1 b2 h y hb2; omega
    · subst h; rw [hb1] at hb2; simpa using hb2
    · have := r1 b2 h y hb2; omega
  · have := List.append_inj (e1 ▸ e2 : p1 ++ b1 :: q1 = p2 ++ b2 :: q2) heq
    simp at this
    rw [this.2.1, hb2] at hb1
    simpa using hb1.symm
  · have : b2 ∈ p1 := by
      have hh : bs[p2.length]? = some b2 := by rw [e2]; simp
      rw [e1, List.getElem?_append_left hgt] at hh
      exact List.mem_of_getElem? hh
    have k1 := l1 b2 this y hb2
    rcases h1 with h | h | h
    · have := l2 b1 h x hb1; omega
    · subst h; rw [hb1] at hb2; simpa using hb2
    · have := r2 b1 h x hb1; omega

theorem round_unique {cfg : Config} {bs c d} (hc : RoundResult cfg bs c) (hd : RoundResult cfg bs d) : c = d := by
  have key : ∀ c x, (c = (⟨false, 126⟩ : Ch) ∧ ∀ b ∈ bs, proposal b = none) → Elected cfg bs x → False := by
    rintro c x ⟨_, h⟩ ⟨pre, b, post, e, hb, _⟩
    have := h b (by rw [e]; simp)
    rw [this] at hb; simp at hb
  rcases hc with hc | ⟨c1, c2⟩ <;> rcases hd with hd | ⟨d1, d2⟩
  · rw [hc.1, hd.1]
  · exact (key c _ hc d1).elim
  · exact (key d _ hd c1).elim
  · have := elected_unique c1 d1
    simp at this
    cases c; cases d
    simp only at this c2 d2 ⊢
    subst this
    have : (_ = true ↔ _ = true) := c2.trans d2.symm
    simpa using Bool.eq_iff_iff.2 this

theorem round_not_stop {cfg : Config} {bs c} (hc : RoundResult cfg bs c) (h : Elected cfg bs none) : False := by
  rcases hc with ⟨_, hc⟩ | ⟨c1, _⟩
  · obtain ⟨pre, b, post, e, hb, _⟩ := h
    have := hc b (by rw [e]; simp)
    rw [this] at hb; simp at hb
  · have := elected_unique c1 h; simp at this

theorem region_unique {cfg : Config} {strs o1 o2} (h1 : RegionVote cfg strs o1) (h2 : RegionVote cfg strs o2) : o1 = o2 := by
  have hlen : ∀ {o1 o2 : List Ch}, RegionVote cfg strs o1 → RegionVote cfg strs o2 → o2.length ≤ o1.length := by
    intro o1 o2 h1 h2
    by_contra hc
    have hk := List.getElem?_eq_getElem (l := o2) (i := o1.length) (by omega)
    exact round_not_stop (h2.round _ _ hk) h1.stop
  apply List.ext_getElem (Nat.le_antisymm (hlen h2 h1) (hlen h1 h2))
  intro k k1 k2
  exact round_unique (h1.round k _ (List.getElem?_eq_getElem k1)) (h2.round k _ (List.getElem?_eq_getElem k2))

/-! ## Agreement -/

/-- If all voters have the same string without rejects, that string is the output. -/
theorem region_agree {cfg : Config} {strs out} {w : List Nat} (h : RegionVote cfg strs out) (hne : strs ≠ [])
    (hw : ∀ s ∈ strs, s.map Ch.value = w) (hr : 126 ∉ w) : out.map Ch.value = w := by
  have hbal : ∀ k (hk : k < w.length), ∀ b ∈ ballots strs k, proposal b = some (some w[k]) := by
    intro k hk b hb
    obtain ⟨s, hs, rfl⟩ := List.mem_map.1 hb
    have e := hw s hs
    subst e
    have hks : k < s.length := by simpa using hk
    rw [List.getElem?_eq_getElem hks]
    simp only [proposal, List.getElem_map]
    rw [if_neg]
    intro h126
    exact hr (List.mem_map.2 ⟨s[k], by simp, h126⟩)
  have hend : ∀ b ∈ ballots strs w.length, b = none := by
    intro b hb
    obtain ⟨s, hs, rfl⟩ := List.mem_map.1 hb
    have e := hw s hs
    subst e
    simp
  have hle : out.length ≤ w.length := by
    by_contra hc
    have hk := List.getElem?_eq_getElem (l := out) (i := w.length) (by omega)
    rcases h.round _ _ hk with ⟨_, h0⟩ | ⟨⟨pre, b, post, e, hb, _⟩, _⟩
    · cases strs with
      | nil => exact hne rfl
      | cons s strs =>
        have h1 := hend (s[w.length]?) (by simp [ballots])
        have h2 := h0 (s[w.length]?) (by simp [ballots])
        rw [h1] at h2; simp [proposal] at h2
    · have := hend b (by rw [e]; simp)
      subst this; simp [proposal] at hb
  have hge : w.length ≤ out.length := by
    by_contra hc
    obtain ⟨pre, b, post, e, hb, _⟩ := h.stop
    have := hbal out.length (by omega) b (by rw [e]; simp)
    rw [this] at hb; simp at hb
  apply List.ext_getElem (by simp; omega)
  intro k k1 k2
  have hk := List.getElem?_eq_getElem (l := out) (i := k) (by simpa using k1)
  rw [List.getElem_map]
  rcases h.round _ _ hk with ⟨_, h0⟩ | ⟨⟨pre, b, post, e, hb, _⟩, _⟩
  · cases strs with
    | nil => exact absurd rfl hne
    | cons s strs =>
      have h1 := hbal k k2 (s[k]?) (by simp [ballots])
      have h2 := h0 (s[k]?) (by simp [ballots])
      rw [h1] at h2; simp at h2
  · have := hbal k k2 b (by rw [e]; simp)
    rw [this] at hb; simpa using hb.symm

end Ocr.Vote
