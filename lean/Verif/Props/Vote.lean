import Verif.Proof.Vote
import Verif.Proof.VoteSelect
import Verif.Proof.SyncSame
import Verif.Props.Text

/-!
# Claims about vote.c: C39 to C43
-/

namespace Ocr.Vote
open Text Sync Res

/-! ## C39: the vote -/

/-- C39.  For 2 to 16 texts, whatever the weights and the threshold, voting ends normally; in every region of the
synchronization the output is decided position by position by the plurality of the weighted votes. -/
theorem c39_vote (cfg : Config) (texts : List (List Ch)) (h2 : 2 ≤ texts.length) (h16 : texts.length ≤ 16) :
    ∃ r outs, synchronize (texts.map (·.map Ch.value)) = .ok r ∧ IsAlignment (texts.map (·.map Ch.value)) r.items ∧
      perform_vote cfg texts (rounds texts) r.items [] = .ok outs.flatten ∧
      List.Forall₂ (fun s out => RegionVote cfg (strings texts s) out) r.items outs := by
  obtain ⟨r, e, ha, _⟩ := synchronize_spec (texts.map (·.map Ch.value)) (by simpa [MIN_STREAMS] using h2) (by simpa [MAX_STREAMS] using h16)
  obtain ⟨outs, e2, hv⟩ := perform_spec cfg texts (by rintro rfl; simp at h2) h16 r.items [] (alignment_bounds ha)
  exact ⟨r, outs, e, ha, by simpa using e2, hv⟩

/-- C39 (the decision is unambiguous).  The result of a region is determined by the rules. -/
theorem c39_unique (cfg : Config) (strs : List (List Ch)) (o1 o2 : List Ch) (h1 : RegionVote cfg strs o1)
    (h2 : RegionVote cfg strs o2) : o1 = o2 := region_unique h1 h2

/-- Unmarked characters. -/
def plainText (s : String) : List Ch := (ascii s).map (fun v => ⟨false, v⟩)

def sampleConfig : Config := ⟨3, 4, 1, 2⟩

/-- Three voters: a tie goes to the first, a suspect character counts less, two votes for nothing end a region. -/
example : perform_vote sampleConfig [plainText "abx", plainText "aby", plainText "abz"] 9
    [⟨[⟨0, 1, 2⟩, ⟨0, 1, 2⟩, ⟨0, 1, 2⟩], some 0⟩, ⟨[⟨2, 2, 1⟩, ⟨2, 2, 1⟩, ⟨2, 2, 1⟩], none⟩] [] =
    .ok [⟨false, 97⟩, ⟨false, 98⟩, ⟨true, 120⟩] := by decide +kernel
example : voteTexts sampleUnicode false sampleConfig [[⟨true, 120⟩, ⟨false, 97⟩], plainText "ya", plainText "a"] =
    .ok [⟨true, 121⟩, ⟨false, 97⟩] := by decide +kernel
example : voteTexts sampleUnicode false sampleConfig [plainText "~~a", plainText "~b", plainText "~~c"] =
    .ok [⟨false, 126⟩, ⟨true, 98⟩, ⟨true, 97⟩] := by decide +kernel

/-! ## C40: agreement -/

/-- C40 (agreement is kept).  Wherever all voters agree on a matched string, that string is in the output. -/
theorem c40_matched (cfg : Config) (texts : List (List Ch)) (items : List Sync) (hne : texts ≠ [])
    (ha : IsAlignment (texts.map (·.map Ch.value)) items) (s : Sync) (hs : s ∈ items) (hm : s.mtch ≠ none) (out : List Ch)
    (h : RegionVote cfg (strings texts s) out) :
    ∃ w, w ≠ [] ∧ out.map Ch.value = w ∧ ∀ t (ht : t < texts.length), (piece texts[t] (s.sub t)).map Ch.value = w := by
  obtain ⟨w, hw, hr, hall⟩ := ha.matched s hs hm
  have hall' : ∀ t (ht : t < texts.length), (piece texts[t] (s.sub t)).map Ch.value = w := by
    intro t ht
    have := hall t (by simpa using ht)
    rw [← this]
    simp [piece, List.map_take, List.map_drop]
  refine ⟨w, hw, region_agree h ?_ ?_ hr, hall'⟩
  · intro e
    apply hne
    have := congrArg List.length e
    simpa [strings] using this
  · intro x hx
    unfold strings at hx
    obtain ⟨p, hp, rfl⟩ := List.mem_map.1 hx
    have := List.mem_zipIdx' hp
    rw [this.2]
    exact hall' p.2 this.1

/-- Voting on texts with the same values. -/
theorem same_vote (cfg : Config) (texts : List (List Ch)) (v : List Nat) (h2 : 2 ≤ texts.length) (h16 : texts.length ≤ 16)
    (hsame : ∀ t ∈ texts, t.map Ch.value = v) (hr : REJECT_CHARACTER ∉ v) :
    ∃ r out, synchronize (texts.map (·.map Ch.value)) = .ok r ∧ perform_vote cfg texts (rounds texts) r.items [] = .ok out ∧
      out.map Ch.value = v := by
  obtain ⟨r, outs, e, ha, e2, hv⟩ := c39_vote cfg texts h2 h16
  refine ⟨r, _, e, e2, ?_⟩
  have hrep : texts.map (·.map Ch.value) = List.replicate texts.length v := by
    rw [List.eq_replicate_iff]
    refine ⟨by simp, ?_⟩
    intro x hx
    obtain ⟨t, ht, rfl⟩ := List.mem_map.1 hx
    exact hsame t ht
  by_cases hne : v = []
  · have hn : r.items = [] := by
      rw [List.eq_nil_iff_forall_not_mem]
      intro s hs
      obtain ⟨t, ht, hl⟩ := ha.nonempty s hs
      obtain ⟨pre, post, hpp⟩ := List.append_of_mem hs
      rw [hpp] at ha
      have := item_bounds ha ht
      simp only [hrep, List.getElem_replicate, hne, List.length_nil] at this
      omega
    rw [hn] at hv
    cases hv
    simp [hne]
  · obtain ⟨r', e', hit⟩ := synchronize_same hne hr (n := texts.length) h2 h16
    rw [hrep, e'] at e
    have e := Res.ok.inj e
    subst e
    rw [hit] at hv ha
    cases hv with
    | cons h1 hrest =>
      cases hrest
      rename_i out
      have hsub : ∀ t (ht : t < texts.length), (midOf (List.replicate texts.length 0) (v.length : Int) 0).sub t =
          ⟨0, 0 + (v.length : Int) - 1, v.length⟩ := by
        intro t ht
        rw [sub_mid (by simpa using ht)]
        simp
      have := region_agree (w := v) h1 (by
        intro e
        have := congrArg List.length e
        simp [strings] at this
        subst this; simp at h2) (by
        intro x hx
        unfold strings at hx
        obtain ⟨p, hp, rfl⟩ := List.mem_map.1 hx
        have hp' := List.mem_zipIdx' hp
        have hs := hsame p.1 (by rw [hp'.2]; exact List.getElem_mem _)
        rw [hsub p.2 hp'.1]
        have hl : p.1.length = v.length := by rw [← hs]; simp
        unfold piece
        simp only [Int.toNat_zero, List.drop_zero, Int.toNat_natCast]
        rw [← hl, List.take_length, hs]) hr
      simpa using this

/-- C40.  If all voters submit the same characters (suspect marks may differ), none a reject character, the output has
exactly these characters, with or without optimization. -/
theorem c40_unanimous (U : Unicode) (F : UnicodeFacts U) (signed optimize : Bool) (s w : Option (List Nat)) (texts : List (List Ch))
    (cfg : Config) (hcfg : validate_args signed texts.length optimize s w = .ok cfg) (v : List Nat)
    (hsame : ∀ t ∈ texts, t.map Ch.value = v) (hr : REJECT_CHARACTER ∉ v) (hval : ∀ x ∈ v, x ≤ 0x10FFFF) (hlen : v.length < 2 ^ 31) :
    ∃ out, voteTexts U optimize cfg texts = .ok out ∧ out.map Ch.value = v := by
  have hbounds : 2 ≤ texts.length ∧ texts.length ≤ 16 ∧ cfg.actual_voters = (if ¬ optimize ∨ texts.length < 3 then texts.length else 3) := by
    unfold validate_args at hcfg
    split at hcfg
    · simp at hcfg
    · rename_i hb
      obtain ⟨_, _, hcfg⟩ := bind_eq_ok.1 hcfg
      obtain ⟨_, _, hcfg⟩ := bind_eq_ok.1 hcfg
      simp only [pure_eq, Res.ok.injEq] at hcfg
      subst hcfg
      simp only [MIN_VOTERS, MAX_VOTERS] at hb
      exact ⟨by omega, by omega, rfl⟩
  obtain ⟨h2, h16, hact⟩ := hbounds
  have hval' : ∀ t ∈ texts, Valid t := by
    intro t ht c hc
    have := hval c.value (by rw [← hsame t ht]; exact List.mem_map.2 ⟨c, hc, rfl⟩)
    omega
  have hlen' : ∀ t ∈ texts, t.length < 2 ^ 31 := by
    intro t ht
    have := congrArg List.length (hsame t ht)
    simp only [List.length_map] at this
    omega
  obtain ⟨input, e, hi, hsi⟩ : ∃ input, select_voters U optimize cfg.actual_voters texts = .ok input ∧
      input.length = cfg.actual_voters ∧ ∀ t ∈ input, t.map Ch.value = v := by
    cases optimize with
    | true =>
      obtain ⟨order, hp, _, e⟩ := select_spec F hval' hlen' h16 (by omega) (actual := cfg.actual_voters) (by
        rw [hact]; split <;> omega)
      refine ⟨_, e, ?_, ?_⟩
      · have := hp.length_eq
        simp only [List.length_range] at this
        rw [List.length_map, List.length_take, hact]
        split <;> omega
      · intro t ht
        obtain ⟨i, hi, rfl⟩ := List.mem_map.1 ht
        have := List.mem_range.1 (hp.mem_iff.1 (List.mem_of_mem_take hi))
        apply hsame
        rw [List.getD_eq_getElem?_getD, List.getElem?_eq_getElem this]
        exact List.getElem_mem this
    | false =>
      simp only [Bool.false_eq_true, not_false_eq_true, true_or, if_true] at hact
      refine ⟨texts, ?_, hact.symm, hsame⟩
      unfold select_voters
      simp only [Bool.false_eq_true, if_false, pure_eq, bind_ok]
      rw [if_pos (by simp [hact])]
      refine congrArg Res.ok ?_
      rw [List.take_of_length_le (by simp [hact]), List.map_map]
      apply List.ext_getElem (by simp)
      intro i _ _
      simp
  have ha2 : 2 ≤ cfg.actual_voters ∧ cfg.actual_voters ≤ 16 := by rw [hact]; split <;> omega
  obtain ⟨r, out, e1, e2, hv⟩ := same_vote cfg input v (by omega) (by omega) hsi hr
  refine ⟨out, ?_, hv⟩
  unfold voteTexts
  rw [e]
  simp only [bind_ok]
  rw [e1]
  simp only [bind_ok]
  exact e2

example : voteTexts sampleUnicode true ⟨3, 0, 1, 1⟩ [plainText "abcab", [⟨true, 97⟩, ⟨false, 98⟩, ⟨true, 99⟩, ⟨false, 97⟩, ⟨false, 98⟩],
    plainText "abcab", plainText "abcab"] = .ok (plainText "abcab") := by decide +kernel

/-! ## C42 and C41: options and marks -/

/-- A fraction "m/n". -/
def Fraction (s : List Nat) (m n : Nat) : Prop := 1 ≤ m ∧ m ≤ n ∧ n ≤ 9 ∧ s = [48 + m, 47, 48 + n]

/-- C42.  Whether or not `char` is signed, a fraction option is accepted exactly if it is "m/n" with 1 ≤ m ≤ n ≤ 9, and
no byte beyond the terminating NUL is read. -/
theorem c42_fraction (signed : Bool) (s : List Nat) (hs : ∀ b ∈ s, 0 < b ∧ b < 256) :
    (∃ m n, Fraction s m n ∧ valid_fraction signed s = .ok (some ((m : Int), (n : Int)))) ∨
    ((¬ ∃ m n, Fraction s m n) ∧ valid_fraction signed s = .ok none) := by
  have cv : ∀ b, 0 < b → b < 256 → (49 ≤ charVal signed b ∧ charVal signed b = b ∧ b < 256) ∨ (charVal signed b < 49 ∧ (b < 49 ∨ 128 ≤ b) ∧ (b < 128 → charVal signed b = b)) := by
    intro b b1 b2
    unfold charVal
    split <;> omega
  by_cases hf : ∃ m n, Fraction s m n
  · left
    obtain ⟨m, n, h1, h2, h3, rfl⟩ := hf
    refine ⟨m, n, ⟨h1, h2, h3, rfl⟩, ?_⟩
    have c0 : charVal signed (48 + m) = 48 + m := by unfold charVal; rw [if_neg (by omega)]; push_cast; rfl
    have c1 : charVal signed 47 = 47 := by unfold charVal; rw [if_neg (by omega)]; rfl
    have c2 : charVal signed (48 + n) = 48 + n := by unfold charVal; rw [if_neg (by omega)]; push_cast; rfl
    unfold valid_fraction
    have b0 : byteAt [48 + m, 47, 48 + n] 0 = .ok (48 + m) := rfl
    have b1 : byteAt [48 + m, 47, 48 + n] 1 = .ok 47 := rfl
    have b2 : byteAt [48 + m, 47, 48 + n] 2 = .ok (48 + n) := rfl
    have b3 : byteAt [48 + m, 47, 48 + n] 3 = .ok 0 := rfl
    rw [b0, b1, b2, b3]
    simp only [bind_ok, c0, c1, c2]
    rw [if_pos (by omega), if_pos trivial, if_pos (by omega), if_pos (by omega), if_pos trivial, pure_eq]
    rw [show (48 + (m : Int) - 48) = m by omega, show (48 + (n : Int) - 48) = n by omega]
  · right
    refine ⟨hf, ?_⟩
    unfold valid_fraction
    match s with
    | [] =>
      have c0 : charVal signed 0 = 0 := by unfold charVal; rw [if_neg (by omega)]; rfl
      have b0 : byteAt [] 0 = .ok 0 := rfl
      rw [b0]
      simp only [bind_ok, c0]
      rw [if_neg (by omega)]; rfl
    | a :: s =>
      have ha := hs a (by simp)
      have b0 : byteAt (a :: s) 0 = .ok a := rfl
      rw [b0]
      simp only [bind_ok]
      split
      case isFalse => rfl
      case isTrue h0 =>
      match s with
      | [] =>
        have c1 : charVal signed 0 = 0 := by unfold charVal; rw [if_neg (by omega)]; rfl
        have b1 : byteAt [a] 1 = .ok 0 := rfl
        rw [b1]
        simp only [bind_ok, c1]
        rw [if_neg (by omega)]; rfl
      | b :: s =>
        have hb := hs b (by simp)
        have b1 : byteAt (a :: b :: s) 1 = .ok b := rfl
        rw [b1]
        simp only [bind_ok]
        split
        case isFalse => rfl
        case isTrue h1 =>
        match s with
        | [] =>
          have c2 : charVal signed 0 = 0 := by unfold charVal; rw [if_neg (by omega)]; rfl
          have b2 : byteAt [a, b] 2 = .ok 0 := rfl
          rw [b2]
          simp only [bind_ok, c2]
          rw [if_pos (by omega), if_neg (by omega)]; rfl
        | c :: s =>
          have hc := hs c (by simp)
          have b2 : byteAt (a :: b :: c :: s) 2 = .ok c := rfl
          rw [b2]
          simp only [bind_ok]
          split
          case isFalse => rfl
          case isTrue h2 =>
          split
          case isFalse => rfl
          case isTrue h3 =>
          match s with
          | [] =>
            exfalso
            apply hf
            have e1 := cv a ha.1 ha.2
            have e2 := cv b hb.1 hb.2
            have e3 := cv c hc.1 hc.2
            refine ⟨a - 48, c - 48, by omega, by omega, by omega, ?_⟩
            have hb47 : b = 47 := by
              unfold charVal at h1
              split at h1 <;> omega
            rw [hb47, show 48 + (a - 48) = a by omega, show 48 + (c - 48) = c by omega]
          | d :: s =>
            have hd := hs d (by simp)
            have b3 : byteAt (a :: b :: c :: d :: s) 3 = .ok d := rfl
            rw [b3]
            simp only [bind_ok]
            rw [if_neg (by omega)]; rfl

example : Fraction (ascii "2/3") 2 3 ∧ valid_fraction true (ascii "2/3") = .ok (some (2, 3)) := by
  refine ⟨⟨by omega, by omega, by omega, by decide⟩, by decide⟩
example : [ascii "3/2", ascii "0/4", ascii "1/2x", ascii "1/", ascii "", ascii "1/10", [200, 47, 57], [49, 47, 200]].map (valid_fraction true) =
    List.replicate 8 (.ok none) := by decide

/-- The numbers that the options ask for. -/
structure Settings (argc : Nat) (optimize : Bool) (s w : Option (List Nat)) (cfg : Config) : Prop where
  voters  : 2 ≤ argc ∧ argc ≤ 16
  actual  : cfg.actual_voters = if optimize then min 3 argc else argc
  weights : (w = none ∧ cfg.suspect_weight = 1 ∧ cfg.unmarked_weight = 1) ∨
    ∃ f m n, w = some f ∧ Fraction f m n ∧ cfg.suspect_weight = m ∧ cfg.unmarked_weight = n
  threshold : (s = none ∧ cfg.suspect_threshold = 0) ∨
    ∃ f m n, s = some f ∧ Fraction f m n ∧ cfg.suspect_threshold = cfg.actual_voters * cfg.unmarked_weight * m / n

/-- C42 (use).  The settings are those that the options ask for; anything else is refused with a message. -/
theorem c42_settings (signed optimize : Bool) (argc : Nat) (s w : Option (List Nat))
    (hs : ∀ f, s = some f → ∀ b ∈ f, 0 < b ∧ b < 256) (hw : ∀ f, w = some f → ∀ b ∈ f, 0 < b ∧ b < 256) :
    (∃ cfg, validate_args signed argc optimize s w = .ok cfg ∧ Settings argc optimize s w cfg) ∨
    ((¬ ∃ cfg, Settings argc optimize s w cfg) ∧ ∃ msg, validate_args signed argc optimize s w = .err msg) := by
  unfold validate_args
  by_cases hb : argc < MIN_VOTERS ∨ argc > MAX_VOTERS
  · right
    rw [if_pos hb]
    refine ⟨?_, _, rfl⟩
    rintro ⟨cfg, h⟩
    have := h.voters
    simp only [MIN_VOTERS, MAX_VOTERS] at hb
    omega
  · rw [if_neg hb]
    simp only [MIN_VOTERS, MAX_VOTERS] at hb
    have hact : (if ¬ (optimize = true) ∨ argc < 3 then argc else 3) = if optimize then min 3 argc else argc := by
      cases optimize <;> simp; split <;> omega
    simp only
    rw [hact]
    generalize ha : (if optimize then min 3 argc else argc) = actual
    obtain ⟨sw, uw, hwt⟩ | hbad : (∃ sw uw : Int, (w = none ∧ sw = 1 ∧ uw = 1) ∨ ∃ f m n, w = some f ∧ Fraction f m n ∧ sw = m ∧ uw = n) ∨
        (∃ f, w = some f ∧ ¬ ∃ m n, Fraction f m n) := by
      cases w with
      | none => left; exact ⟨1, 1, .inl ⟨rfl, rfl, rfl⟩⟩
      | some f =>
        by_cases hf : ∃ m n, Fraction f m n
        · obtain ⟨m, n, hf⟩ := hf
          left; exact ⟨m, n, .inr ⟨f, m, n, rfl, hf, rfl, rfl⟩⟩
        · right; exact ⟨f, rfl, hf⟩
    · have huniq : ∀ f m n m' n', Fraction f m n → Fraction f m' n' → m = m' ∧ n = n' := by
        rintro f m n m' n' ⟨_, _, _, e⟩ ⟨_, _, _, e'⟩
        rw [e] at e'; simp at e'; exact e'
      have e1 : weightOption signed w = .ok (sw, uw) := by
        unfold weightOption
        rcases hwt with ⟨rfl, rfl, rfl⟩ | ⟨f, m, n, rfl, hf, rfl, rfl⟩
        · rfl
        · simp only
          rcases c42_fraction signed f (hw f rfl) with ⟨m', n', hf', e⟩ | ⟨hn, _⟩
          · obtain ⟨rfl, rfl⟩ := huniq f _ _ _ _ hf hf'
            rw [e]; rfl
          · exact absurd ⟨m, n, hf⟩ hn
      rw [e1]
      simp only [bind_ok]
      have huw : 1 ≤ uw := by
        rcases hwt with ⟨_, _, rfl⟩ | ⟨f, m, n, _, ⟨_, _, _, _⟩, _, rfl⟩ <;> omega
      cases s with
      | none =>
        left
        refine ⟨⟨actual, 0, sw, uw⟩, rfl, ⟨by omega, ha.symm, hwt, .inl ⟨rfl, rfl⟩⟩⟩
      | some f =>
        simp only [thresholdOption]
        rcases c42_fraction signed f (hs f rfl) with ⟨m, n, hf, e⟩ | ⟨hn, e⟩
        · left
          rw [e]
          refine ⟨⟨actual, ((actual : Int) * uw * m).tdiv n, sw, uw⟩, rfl, ⟨by omega, ha.symm, hwt, .inr ⟨f, m, n, rfl, hf, ?_⟩⟩⟩
          simp only
          rw [Int.tdiv_eq_ediv_of_nonneg]
          have h1 : (0 : Int) ≤ (actual : Int) * uw := Int.mul_nonneg (by omega) (by omega)
          exact Int.mul_nonneg h1 (by omega)
        · right
          rw [e]
          refine ⟨?_, _, rfl⟩
          rintro ⟨cfg, h⟩
          rcases h.threshold with ⟨h, _⟩ | ⟨f', m, n, h, hf, _⟩
          · simp at h
          · simp only [Option.some.injEq] at h
            subst h
            exact hn ⟨m, n, hf⟩
    · right
      obtain ⟨f, rfl, hn⟩ := hbad
      rcases c42_fraction signed f (hw f rfl) with ⟨m, n, hf, e⟩ | ⟨_, e⟩
      · exact absurd ⟨m, n, hf⟩ hn
      · simp only [weightOption]
        rw [e]
        refine ⟨?_, _, rfl⟩
        rintro ⟨cfg, h⟩
        rcases h.weights with ⟨h, _⟩ | ⟨f', m, n, h, hf, _⟩
        · simp at h
        · simp only [Option.some.injEq] at h
          subst h
          exact hn ⟨m, n, hf⟩

example : Settings 5 true (some (ascii "1/2")) (some (ascii "1/3")) ⟨3, 4, 1, 3⟩ :=
  ⟨by omega, by decide, .inr ⟨_, 1, 3, rfl, ⟨by omega, by omega, by omega, by decide⟩, rfl, rfl⟩,
    .inr ⟨_, 1, 2, rfl, ⟨by omega, by omega, by omega, by decide⟩, by decide⟩⟩

/-- C41.  An output character is '~' (unmarked) where all voters abstain; elsewhere it is marked exactly if the votes
for it are at most the threshold. -/
theorem c41_marks (cfg : Config) (strs : List (List Ch)) (out : List Ch) (h : RegionVote cfg strs out) (k : Nat) (c : Ch)
    (hk : out[k]? = some c) (hsome : ∃ b ∈ ballots strs k, proposal b ≠ none) :
    c.suspect = true ↔ tally cfg (ballots strs k) (some c.value) ≤ cfg.suspect_threshold := by
  rcases h.round k c hk with ⟨_, h⟩ | ⟨_, h⟩
  · obtain ⟨b, hb, hp⟩ := hsome
    exact absurd (h b hb) hp
  · exact h

/-- C41 (no threshold).  Without the -s option no output character is marked. -/
theorem c41_unmarked (U : Unicode) (optimize : Bool) (w : Option (List Nat)) (texts : List (List Ch)) (cfg : Config)
    (hcfg : Settings texts.length optimize none w cfg) (out : List Ch) (h : voteTexts U optimize cfg texts = .ok out) :
    ∀ c ∈ out, c.suspect = false := by
  have hpos : 1 ≤ cfg.suspect_weight ∧ 1 ≤ cfg.unmarked_weight := by
    rcases hcfg.weights with ⟨_, h1, h2⟩ | ⟨f, m, n, _, ⟨_, _, _, _⟩, h1, h2⟩ <;> omega
  have hthr : cfg.suspect_threshold = 0 := by
    rcases hcfg.threshold with ⟨_, h⟩ | ⟨f, m, n, h, _⟩
    · exact h
    · simp at h
  have hwt : ∀ b : Option Ch, 1 ≤ weight cfg b := by
    intro b; cases b with
    | none => exact hpos.2
    | some c => unfold weight; simp only; split <;> omega
  have htally : ∀ bs x, 0 ≤ tally cfg bs x := by
    intro bs x
    unfold tally
    induction bs.filter (fun b => proposal b = some x) with
    | nil => simp
    | cons b l ih =>
      have := hwt b
      rw [List.map_cons, List.sum_cons]; omega
  unfold voteTexts at h
  obtain ⟨input, e1, h⟩ := bind_eq_ok.1 h
  obtain ⟨r, e2, h⟩ := bind_eq_ok.1 h
  have hb : 2 ≤ input.length ∧ input.length ≤ 16 := by
    unfold synchronize at e2
    split at e2
    · simp at e2
    · rename_i hb
      simp only [List.length_map, MIN_STREAMS, MAX_STREAMS] at hb
      omega
  obtain ⟨r', outs, e2', ha, e3, hv⟩ := c39_vote cfg input hb.1 hb.2
  rw [e2'] at e2
  have e2 := Res.ok.inj e2
  subst e2
  rw [e3] at h
  have h := Res.ok.inj h
  subst h
  intro c hc
  obtain ⟨o, ho, hco⟩ := List.mem_flatten.1 hc
  have hreg : ∀ (items : List Sync) (outs : List (List Ch)), List.Forall₂ (fun s out => RegionVote cfg (strings input s) out) items outs →
      ∀ o ∈ outs, ∃ strs, RegionVote cfg strs o := by
    intro items outs hv
    induction hv with
    | nil => simp
    | cons h1 _ ih =>
      intro o ho
      rcases List.mem_cons.1 ho with rfl | ho
      · exact ⟨_, h1⟩
      · exact ih o ho
  obtain ⟨strs, hreg⟩ := hreg _ _ hv o ho
  obtain ⟨k, hk, rfl⟩ := List.mem_iff_getElem.1 hco
  rcases hreg.round k _ (List.getElem?_eq_getElem hk) with ⟨h, _⟩ | ⟨hel, hm⟩
  · rw [h]
  · rw [hthr] at hm
    obtain ⟨pre, b, post, e, hp, _⟩ := hel
    have h1 : 1 ≤ tally cfg (ballots strs k) (some (o[k]).value) := by
      rw [e, show pre ++ b :: post = pre ++ ([b] ++ post) by simp, tally_append, tally_append, tally_single, if_pos hp]
      have := htally pre (some (o[k]).value)
      have := htally post (some (o[k]).value)
      have := hwt b
      omega
    cases hs : (o[k]).suspect with
    | false => rfl
    | true => have := hm.1 hs; omega

/-! ## C43: optimization -/

/-- C43.  With -O and 2 to 16 texts, the voters are ranked by their distance from the median digram counts (then by their
position among the arguments), and the first three of the ranking (two if there are only two) are used. -/
theorem c43_select (U : Unicode) (F : UnicodeFacts U) (s w : Option (List Nat)) (texts : List (List Ch)) (cfg : Config)
    (hcfg : Settings texts.length true s w cfg) (hval : ∀ t ∈ texts, ∀ c ∈ t, c.value ≤ 0x10FFFF)
    (hlen : ∀ t ∈ texts, t.length < 2 ^ 31) :
    ∃ order : List Nat, order.Perm (List.range texts.length) ∧ order.Pairwise (Closer texts) ∧
      select_voters U true cfg.actual_voters texts = .ok ((order.take (min 3 texts.length)).map (fun i => texts.getD i [])) := by
  have ha := hcfg.actual
  simp only [if_true] at ha
  rw [ha]
  exact select_spec F (fun t ht c hc => by have := hval t ht c hc; omega) hlen hcfg.voters.2 (by have := hcfg.voters; omega) (by omega)

/-- C43 (consequence).  Nobody left out is closer to the median than somebody chosen. -/
theorem c43_closest (texts : List (List Ch)) (order : List Nat) (k : Nat) (hp : order.Perm (List.range texts.length))
    (hs : order.Pairwise (Closer texts)) : (order.take k).Nodup ∧ ∀ i ∈ order.take k, ∀ j, j < texts.length → j ∉ order.take k →
      distance2 texts (texts.getD i []) ≤ distance2 texts (texts.getD j []) := by
  refine ⟨(hp.nodup_iff.2 List.nodup_range).sublist (List.take_sublist _ _), ?_⟩
  intro i hi j hj hnj
  have hj' : j ∈ order := hp.mem_iff.2 (List.mem_range.2 hj)
  rw [← List.take_append_drop k order] at hs hj'
  rcases List.mem_append.1 hj' with h | h
  · exact absurd h hnj
  · rcases (List.pairwise_append.1 hs).2.2 i hi j h with h | h
    · omega
    · omega

/-- Of four texts the one with a reject and then a strange digram is left out. -/
example : select_voters sampleUnicode true 3 [plainText "ab~a", plainText "abc", plainText "abc", plainText "abd"] =
    .ok [plainText "abc", plainText "abc", plainText "abd"] := by decide +kernel
example : distance2 [plainText "aab", plainText "ab", plainText "ab"] (plainText "aab") = 2 := by decide +kernel

end Ocr.Vote
