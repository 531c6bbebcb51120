import Verif.Spec.PrintEndings
import Verif.Proof.WordEndings
import Verif.Props.Synctext

namespace Ocr.Ending
open Text Res Prog Spec AnyText

/-- A computation that goes astray if `B` and otherwise has a result. -/
def Cut {α : Type} (r : Res α) (B : Prop) : Prop := (B → r = .ub) ∧ (¬ B → ∃ a, r = .ok a)

theorem Cut.ok {α : Type} (a : α) : Cut (.ok a) False := ⟨False.elim, fun _ => ⟨a, rfl⟩⟩
theorem Cut.imp {α : Type} {r : Res α} {B B' : Prop} (h : Cut r B) (hB : B ↔ B') : Cut r B' := by
  have : B = B' := propext hB
  subst this; exact h
theorem Cut.bind {α β : Type} {x : Res α} {k : α → Res β} {B C : Prop} (h : Cut x B) (hk : ∀ a, x = .ok a → Cut (k a) C) : Cut (x >>= k) (B ∨ C) := by
  by_cases hB : B
  · rw [h.1 hB]
    exact ⟨fun _ => rfl, fun h => absurd (.inl hB) h⟩
  · obtain ⟨a, e⟩ := h.2 hB
    have := hk a e
    rw [e, bind_ok]
    refine ⟨fun h => this.1 (h.resolve_left hB), fun h => this.2 (fun c => h (.inr c))⟩
theorem Cut.map {α β : Type} {x : Res α} {k : α → Res β} {B : Prop} (h : Cut x B) (hk : ∀ a, ∃ b, k a = .ok b) : Cut (x >>= k) B :=
  (h.bind (C := False) (fun a _ => by obtain ⟨b, e⟩ := hk a; rw [e]; exact .ok b)).imp (by simp)
theorem Cut.ends {α : Type} {r : Res α} {B : Prop} (h : Cut r B) : EndsAs r (¬ B) B := by
  by_cases hB : B
  · exact .ub (h.1 hB) (fun h => h hB) hB
  · obtain ⟨a, e⟩ := h.2 hB
    exact .ok a e hB hB

theorem char_cut {U : Unicode} {c : Ch} (hv : c.value < 0x110000) : Cut (char_to_string U STRING_SIZE c.suspect c.value false) (TooLong U c) := by
  obtain ⟨s, e, hl⟩ := charString_len (U := U) hv c.suspect false
  unfold char_to_string
  rw [e, bind_ok]
  refine ⟨fun h => if_neg (fun h' => hl.1 h' h), fun h => ⟨s, ?_⟩⟩
  rw [if_pos (hl.2 h)]
  rfl

/-! ## write_text -/

theorem writeLoop_cut {U : Unicode} : ∀ text : List Ch, (∀ c ∈ text, c.value < 0x110000) → Cut (writeLoop U text) (∃ c ∈ text, TooLong U c)
  | [], _ => (Cut.ok []).imp (by simp)
  | c :: text, h => by
    rw [writeLoop]
    refine ((char_cut (h c (by simp))).bind (fun s _ => (writeLoop_cut text (fun d hd => h d (by simp [hd]))).map (fun r => ⟨_, rfl⟩))).imp ?_
    simp

/-! ## The selection of voters, whatever the length of the texts -/

theorem median_total {n : Nat} (hn : 0 < n) (s : Vote.Seq) : ∃ s', Vote.compute_median n s = .ok s' := by
  unfold Vote.compute_median
  by_cases h0 : s.median2 = 0
  · rw [if_pos h0]; exact ⟨_, rfl⟩
  · rw [if_neg h0]
    obtain ⟨l, e, hp⟩ := Sort.c03_sort_permutes Vote.compare_counts ((List.range n).map s.count) n (by simp)
    rw [e]
    simp only [bind_ok]
    have hlen : l.length = n := by rw [hp.length_eq]; simp
    have h1 : n / 2 < l.length := by omega
    have e1 : rd l (n / 2) = .ok l[n / 2] := by unfold rd; rw [List.getElem?_eq_getElem h1]
    by_cases hodd : n % 2 = 1
    · rw [if_pos hodd, e1]
      exact ⟨_, rfl⟩
    · rw [if_neg hodd]
      have h2 : (n - 1) / 2 < l.length := by omega
      have e2 : Sync.rdI l (((n / 2 : Nat) : Int) - 1) = .ok l[(n - 1) / 2] := by
        unfold Sync.rdI
        rw [if_neg (by omega), show (((n / 2 : Nat) : Int) - 1).toNat = (n - 1) / 2 by omega]
        unfold rd; rw [List.getElem?_eq_getElem h2]
      rw [e2, e1]
      exact ⟨_, rfl⟩

theorem medians_total {n : Nat} (hn : 0 < n) : ∀ l : List Vote.Seq, ∃ l', Vote.medianAll n l = .ok l'
  | [] => ⟨_, rfl⟩
  | s :: l => by
    obtain ⟨s', e⟩ := median_total hn s
    obtain ⟨l', e'⟩ := medians_total hn l
    exact ⟨s' :: l', by rw [Vote.medianAll, e, bind_ok, e']; rfl⟩

theorem select_total {U : Unicode} (F : UnicodeFacts U) {optimize : Bool} {texts : List (List Ch)} (hv : ∀ t ∈ texts, ∀ c ∈ t, c.value < 0x110000)
    (h16 : texts.length ≤ 16) (h0 : 0 < texts.length) {actual : Nat} (ha : actual ≤ texts.length) :
    ∃ input, Vote.select_voters U optimize actual texts = .ok input ∧ input.length = actual ∧ ∀ t ∈ input, t ∈ texts := by
  have fin : ∀ voter : List Vote.Voter, voter.length = texts.length → (∀ v ∈ voter, v.text ∈ texts) →
      ∃ input, (if actual ≤ voter.length then pure ((voter.take actual).map Vote.Voter.text) else .ub : Res (List (List Ch))) = .ok input ∧
        input.length = actual ∧ ∀ t ∈ input, t ∈ texts := by
    intro voter hl hm
    rw [if_pos (by omega)]
    refine ⟨_, rfl, by rw [List.length_map, List.length_take]; omega, ?_⟩
    intro t ht
    obtain ⟨v, hv, rfl⟩ := List.mem_map.1 ht
    exact hm v (List.mem_of_mem_take hv)
  unfold Vote.select_voters
  cases optimize with
  | false =>
    simp only [Bool.false_eq_true, if_false, pure_eq, bind_ok]
    refine fin _ (by simp) ?_
    intro v hv
    obtain ⟨p, hp, rfl⟩ := List.mem_map.1 hv
    have := List.mem_zipIdx' hp
    simp only
    rw [this.2]
    exact List.getElem_mem _
  | true =>
    obtain ⟨t, e1, _⟩ := Vote.countAll_spec F texts 0 [] [] hv (by unfold Vote.MAX_VOTERS; omega) ⟨[], by simp, by simp, rfl⟩ (by intro e he; simp at he)
    obtain ⟨array, e2⟩ := medians_total h0 (Store.in_array Vote.Seq.key t)
    simp only [if_true]
    rw [e1]
    simp only [bind_ok]
    rw [e2]
    simp only [bind_ok]
    obtain ⟨vs, hvs⟩ : ∃ vs, vs = texts.zipIdx.map (fun (p : List Ch × Nat) => (⟨p.2, p.1, Vote.compute_distance p.2 array⟩ : Vote.Voter)) := ⟨_, rfl⟩
    rw [← hvs]
    have hlen : vs.length = texts.length := by rw [hvs]; simp
    obtain ⟨l, e3, hp⟩ := Sort.c03_sort_permutes Vote.compare_distances vs texts.length (by omega)
    rw [e3]
    simp only [bind_ok]
    refine fin l (by rw [hp.length_eq, hlen]) ?_
    intro v hvl
    have hm := hp.mem_iff.1 hvl
    rw [hvs] at hm
    obtain ⟨p, hp', rfl⟩ := List.mem_map.1 hm
    have := List.mem_zipIdx' hp'
    simp only
    rw [this.2]
    exact List.getElem_mem _

/-- The vote always has a result, of characters of the texts and reject characters. -/
theorem vote_total {U : Unicode} (F : UnicodeFacts U) {optimize : Bool} {s w : Option (List Nat)} {texts : List (List Ch)} {cfg : Vote.Config}
    (hcfg : Vote.Settings texts.length optimize s w cfg) (hv : ∀ t ∈ texts, ∀ c ∈ t, c.value < 0x110000) :
    ∃ out, Vote.voteTexts U optimize cfg texts = .ok out ∧ ∀ c ∈ out, c.value = 126 ∨ ∃ t ∈ texts, ∃ d ∈ t, d.value = c.value := by
  have h2 := hcfg.voters
  have ha := hcfg.actual
  have hact : 2 ≤ cfg.actual_voters ∧ cfg.actual_voters ≤ texts.length := by
    rw [ha]; split <;> omega
  obtain ⟨input, e, hi, hm⟩ := select_total F (optimize := optimize) hv h2.2 (by omega) hact.2
  obtain ⟨r, outs, e1, hal, e2, hr⟩ := Vote.c39_vote cfg input (by omega) (by omega)
  refine ⟨outs.flatten, ?_, ?_⟩
  · unfold Vote.voteTexts
    rw [e, bind_ok, e1, bind_ok]
    exact e2
  · intro c hc
    obtain ⟨o, ho, hc⟩ := List.mem_flatten.1 hc
    obtain ⟨i, hi, e⟩ := List.mem_iff_getElem.1 ho
    have hi' : i < r.items.length := by rw [hr.length_eq]; exact hi
    have hv := hr.get hi' hi
    simp only [List.get_eq_getElem] at hv
    rw [e] at hv
    rcases region_values hv c hc with e | ⟨str, hs, d, hd, e⟩
    · exact .inl e
    · unfold Vote.strings at hs
      obtain ⟨p, hp, rfl⟩ := List.mem_map.1 hs
      have hp' := List.mem_zipIdx' hp
      have hm' : p.1 ∈ input := by rw [hp'.2]; exact List.getElem_mem _
      unfold Sync.piece at hd
      exact .inr ⟨p.1, hm _ hm', d, List.mem_of_mem_drop (List.mem_of_mem_take hd), e⟩

theorem allRead_mem {β : Type} {fs : Fs} {R : List Nat → β → Prop} {names : List (List Nat)} {os : List β} (h : AllRead fs R names os) :
    ∀ o ∈ os, ∃ name file, fs name = some file ∧ R file o := by
  unfold AllRead at h
  induction h with
  | nil => intro o ho; cases ho
  | @cons x y l m hxy _ ih =>
    intro o ho
    rcases List.mem_cons.1 ho with rfl | ho
    · obtain ⟨file, h⟩ := hxy; exact ⟨x, file, h⟩
    · exact ih o ho

theorem allRead_unique {β : Type} {fs : Fs} {R : List Nat → β → Prop} (hu : ∀ f o o', R f o → R f o' → o = o') {names : List (List Nat)} :
    ∀ {os os' : List β}, AllRead fs R names os → AllRead fs R names os' → os = os' := by
  unfold AllRead
  induction names with
  | nil => intro os os' h h'; cases h; cases h'; rfl
  | cons n names ih =>
    intro os os' h h'
    cases h with
    | cons h1 h2 =>
      cases h' with
      | cons h1' h2' =>
        obtain ⟨f, e, r⟩ := h1
        obtain ⟨f', e', r'⟩ := h1'
        rw [e] at e'
        cases e'
        rw [hu _ _ _ r r', ih h2 h2']

/-- Reading all the voters' files. -/
theorem voters_give (U : Unicode) {junk : List Nat} (hj : Bytes junk) {fs : Fs} (hfs : ∀ name file, fs name = some file → Bytes file)
    (names : List (List Nat)) (b : Bool) (ts0 : List (List Ch)) :
    ∀ r, r = (forFiles fs (voteFile U junk) names ({ pageText false with found_header := b }, ts0)) → 
      (∃ opt ts, AllRead fs (TextOf U false) names ts ∧ r = .ok (opt, ts0 ++ ts)) ∨ ((¬ ∃ ts, AllRead fs (TextOf U false) names ts) ∧ ∃ msg, r = .err msg) := by
  rintro r rfl
  have := forFiles_ends (P := Bytes) (R := TextOf U false) (B := fun _ => False) (fs := fs) (step := voteFile U junk)
    (J := fun os (a : Textopt × List (List Ch)) => (∃ b, a.1 = { pageText false with found_header := b }) ∧ a.2 = ts0 ++ os) (fun f o _ _ => id) hfs
    ?_ (fun _ _ _ _ _ h => h.elim) ?_ names [] ({ pageText false with found_header := b }, ts0) ⟨⟨b, rfl⟩, by simp⟩
  · revert this
    generalize forFiles fs (voteFile U junk) names ({ pageText false with found_header := b }, ts0) = r
    intro this
    cases this with
    | read a os h1 h2 =>
      obtain ⟨opt, ts⟩ := a
      obtain ⟨_, rfl⟩ := h2
      exact .inl ⟨opt, os, h1, by simp⟩
    | refused msg h1 _ => exact .inr ⟨h1, msg, rfl⟩
    | astray h => obtain ⟨_, _, _, _, _, _, _, _, h⟩ := h; exact h.elim
  · rintro os ⟨opt, T⟩ f o ⟨⟨b, rfl⟩, rfl⟩ hf ht
    refine ⟨({ pageText false with found_header := decide (Headed f) }, ts0 ++ (os ++ [o])), ?_, ⟨_, rfl⟩, rfl⟩
    unfold voteFile
    rw [((read_gives U hj false b hf).value (o, _)).2 ⟨ht, rfl⟩, bind_ok]
    simp
  · rintro os ⟨opt, T⟩ f ⟨⟨b, rfl⟩, rfl⟩ hf h3 _
    obtain ⟨msg, e⟩ := read_refused U junk false b f hf hj (fun hw => h3 ((textOf_iff U false f).2 hw))
    unfold voteFile
    rw [e]
    exact ⟨msg, rfl⟩

/-! ## The printouts of synctext -/

section
open Sync Synctext

/-- The character as it is shown is too long. -/
def Shown (U : Unicode) (sh : Bool) (c : Ch) : Prop := TooLong U ⟨sh && c.suspect, c.value⟩

theorem shown_iff {U : Unicode} {sh : Bool} {c : Ch} : Shown U sh c ↔ sh = true ∧ TooLong U c := by
  unfold Shown TooLong
  cases sh <;> simp

theorem spanLoop_cut {U : Unicode} {sh : Bool} {pad : List Nat} {text : List Ch} {stop : Nat} (hs : stop ≤ text.length)
    (hv : ∀ c ∈ text, c.value < 0x110000) : ∀ (fuel i : Nat), i ≤ stop → stop < i + fuel →
    Cut (spanLoop U sh pad text ((stop : Int) - 1) fuel i) (∃ c ∈ (text.drop i).take (stop - i), Shown U sh c) := by
  intro fuel
  induction fuel with
  | zero => intro i h1 h2; omega
  | succ fuel ih =>
    intro i h1 h2
    rw [spanLoop]
    by_cases hi : i < stop
    · have hl : i < text.length := by omega
      rw [if_pos (by omega), rdI_nat hl, bind_ok, show ((i : Int) + 1) = ((i + 1 : Nat) : Int) by omega]
      refine ((char_cut (c := ⟨sh && text[i].suspect, text[i].value⟩) (hv text[i] (List.getElem_mem hl))).bind
        (fun s _ => (ih (i + 1) (by omega) (by omega)).map (fun r => ⟨_, rfl⟩))).imp ?_
      rw [List.drop_eq_getElem_cons hl, show stop - i = (stop - (i + 1)) + 1 by omega, List.take_succ_cons]
      simp [Shown]
    · rw [if_neg (by omega), show stop - i = 0 by omega]
      exact (Cut.ok []).imp (by simp)

theorem span_cut {U : Unicode} {sh : Bool} {pad : List Nat} {text : List Ch} {s : Substr} (hs : Within text.length s)
    (hv : ∀ c ∈ text, c.value < 0x110000) :
    Cut (spanLoop U sh pad text s.stop (text.length + 1) s.start) (∃ c ∈ piece text s, Shown U sh c) := by
  obtain ⟨h1, h2, h3, h4⟩ := hs
  have := spanLoop_cut (U := U) (sh := sh) (pad := pad) (stop := (s.start + s.length).toNat) (by omega) hv (text.length + 1) s.start.toNat
    (by omega) (by omega)
  rw [Int.toNat_of_nonneg h1, show (((s.start + s.length).toNat : Nat) : Int) - 1 = s.stop by omega,
    show (s.start + s.length).toNat - s.start.toNat = s.length.toNat by omega] at this
  exact this

theorem matchLoop_cut {U : Unicode} {sh : Bool} {texts : List (List Ch)} {s : Sync} (hs : Sound texts s)
    (hm : s.mtch ≠ none) (h0 : 0 < texts.length) (hv : ∀ t ∈ texts, ∀ c ∈ t, c.value < 0x110000) :
    ∀ (count i : Nat), i + count = (s.sub 0).length.toNat →
      Cut (matchLoop U sh texts s.substr count i) (∃ c ∈ (List.range' i count).map (commonAt texts s), Shown U sh c) := by
  have hlen : ∀ t (h : t < texts.length), (s.sub t).length.toNat = (s.sub 0).length.toNat := by
    intro t h
    have := congrArg List.length (hs.same hm t h)
    rw [List.length_map, List.length_map, piece_length (hs.within t h)] at this
    have e : texts.getD 0 [] = texts[0] := by simp [h0]
    rw [e, piece_length (hs.within 0 h0)] at this
    exact this
  intro count
  induction count with
  | zero => intro i _; exact (Cut.ok []).imp (by simp)
  | succ count ih =>
    intro i hi
    rw [matchLoop]
    have hsus : (if sh = true then suspectLoop (i : Int) texts s.substr else pure false : Res Bool) =
        .ok (sh && (commonAt texts s i).suspect) := by
      cases sh with
      | false => rfl
      | true =>
        rw [if_pos rfl, suspectLoop_spec i texts s.substr hs.width (fun t ht => ⟨hs.within t ht, by
          have := hlen t ht
          show i < (s.sub t).length.toNat
          omega⟩)]
        rfl
    have e0 : texts.getD 0 [] = texts[0] := by simp [h0]
    have ht0 : rd texts 0 = .ok texts[0] := by unfold rd; rw [List.getElem?_eq_getElem h0]
    have hc := rdI_at (hs.within 0 h0) (i := i) (by omega)
    have hcv : (commonAt texts s i).value = (at_ texts[0] (s.sub 0) i).value := by unfold commonAt; rw [e0]
    rw [hsus, bind_ok, ht0, bind_ok, rd_sub hs h0, bind_ok, hc.1, bind_ok, ← hcv, show ((i : Int) + 1) = ((i + 1 : Nat) : Int) by omega]
    refine ((char_cut (c := ⟨sh && (commonAt texts s i).suspect, (commonAt texts s i).value⟩) (by
      rw [hcv]; exact hv _ (List.getElem_mem h0) _ hc.2)).bind (fun _ _ => (ih (i + 1) (by omega)).map (fun r => ⟨_, rfl⟩))).imp ?_
    rw [List.range'_succ]
    simp [Shown]

theorem matchesLoop_cut {U : Unicode} {sh : Bool} {texts : List (List Ch)} (h0 : 0 < texts.length)
    (hv : ∀ t ∈ texts, ∀ c ∈ t, c.value < 0x110000) : ∀ (l : List Sync), (∀ s ∈ l, Sound texts s) → ∀ k,
      Cut (matchesLoop U sh texts l k) (∃ s ∈ l, s.mtch ≠ none ∧ ∃ c ∈ Synctext.common texts s, Shown U sh c) := by
  intro l
  induction l with
  | nil => intro _ k; exact (Cut.ok []).imp (by simp)
  | cons s l ih =>
    intro hl k
    have hs := hl s (by simp)
    have ih := ih (fun s h => hl s (by simp [h]))
    rw [matchesLoop]
    cases hm : s.mtch with
    | some q =>
      simp only
      rw [rd_sub hs h0, bind_ok]
      have := matchLoop_cut (U := U) (sh := sh) hs (by rw [hm]; simp) h0 hv (s.sub 0).length.toNat 0 (by omega)
      rw [show ((0 : Nat) : Int) = 0 from rfl, ← common_eq] at this
      refine (this.bind (fun _ _ => (ih k).map (fun r => ⟨_, rfl⟩))).imp ?_
      simp [hm]
    | none =>
      simp only
      refine ((ih (k + 1)).map (fun r => ⟨_, rfl⟩)).imp ?_
      simp [hm]

theorem versionsLoop_cut {U : Unicode} {sh : Bool} {m : Nat} : ∀ (texts : List (List Ch)) (ss : List Substr)
    (names : List (List Nat)), ss.length = texts.length → names.length = texts.length →
    (∀ t ∈ texts, ∀ c ∈ t, c.value < 0x110000) →
    (∀ t (h : t < texts.length), Within texts[t].length (ss.getD t ⟨0, -1, 0⟩)) →
    Cut (versionsLoop U sh m texts ss names) (∃ t, t < texts.length ∧ ∃ c ∈ piece (texts.getD t []) (ss.getD t ⟨0, -1, 0⟩), Shown U sh c) := by
  intro texts
  induction texts with
  | nil => intro ss names _ _ _ _; rcases names with _ | ⟨f, names⟩ <;> exact (Cut.ok []).imp (by simp)
  | cons t texts ih =>
    intro ss names h1 h2 hv hw
    rcases ss with _ | ⟨s, ss⟩
    · simp at h1
    rcases names with _ | ⟨f, names⟩
    · simp at h2
    rw [versionsLoop]
    have hw0 := hw 0 (by simp)
    simp only [List.getElem_cons_zero, List.getD_cons_zero] at hw0
    have ih := ih ss names (by simpa using h1) (by simpa using h2) (fun t h => hv t (by simp [h])) (fun t ht => by
      have := hw (t + 1) (by simpa using ht)
      simpa using this)
    refine ((span_cut hw0 (hv t (by simp))).bind (fun _ _ => ih.map (fun r => ⟨_, rfl⟩))).imp ?_
    constructor
    · rintro (h | ⟨k, hk, h⟩)
      · exact ⟨0, by simp, h⟩
      · exact ⟨k + 1, by simpa using hk, h⟩
    · rintro ⟨k, hk, h⟩
      cases k with
      | zero => exact .inl h
      | succ k => exact .inr ⟨k, by simpa using hk, h⟩

theorem differencesLoop_cut {U : Unicode} {sh : Bool} {m : Nat} {texts : List (List Ch)} {names : List (List Nat)} (hn : names.length = texts.length)
    (hv : ∀ t ∈ texts, ∀ c ∈ t, c.value < 0x110000) : ∀ (l : List Sync), (∀ s ∈ l, Sound texts s) → ∀ k,
      Cut (differencesLoop U sh m texts names l k) (∃ s ∈ l, s.mtch = none ∧ ∃ t, t < texts.length ∧
        ∃ c ∈ piece (texts.getD t []) (s.sub t), Shown U sh c) := by
  intro l
  induction l with
  | nil => intro _ k; exact (Cut.ok []).imp (by simp)
  | cons s l ih =>
    intro hl k
    have hs := hl s (by simp)
    have ih := ih (fun s h => hl s (by simp [h]))
    rw [differencesLoop]
    cases hm : s.mtch with
    | some q =>
      simp only
      exact (ih k).imp (by simp [hm])
    | none =>
      simp only
      refine ((versionsLoop_cut texts s.substr names hs.width hn hv hs.within).bind (fun _ _ => (ih (k + 1)).map (fun r => ⟨_, rfl⟩))).imp ?_
      simp only [List.mem_cons, exists_eq_or_imp, hm, true_and]
      exact Iff.rfl

theorem transposedLoop_cut {U : Unicode} {sh : Bool} {cells : Nat → Int} {text : List Ch}
    (hv : ∀ c ∈ text, c.value < 0x110000) : ∀ (l : List Sync), (∀ s ∈ l, Sound [text] s) →
    Cut (transposedLoop U sh cells text l) (∃ s ∈ l, ∃ c ∈ piece text (s.sub 0), Shown U sh c) := by
  intro l
  induction l with
  | nil => intro _; exact (Cut.ok []).imp (by simp)
  | cons s l ih =>
    intro hl
    have hs := hl s (by simp)
    have ih := ih (fun x hx => hl x (by simp [hx]))
    rw [transposedLoop]
    have e1 : s.only = .ok (s.sub 0) := rd_sub hs (by simp)
    rw [e1, bind_ok]
    refine ((span_cut (hs.within 0 (by simp)) hv).bind (fun _ _ => ih.map (fun r => ?_))).imp (by simp)
    cases hm : s.mtch <;> exact ⟨_, rfl⟩

/-- Every character of a text is in one of its pieces. -/
theorem tiles_mem {α : Type} (text : List α) : ∀ (l : List Substr) (p q : Nat), Tiles p l q → q ≤ text.length →
    ∀ c ∈ (text.drop p).take (q - p), ∃ s ∈ l, c ∈ piece text s := by
  intro l
  induction l with
  | nil =>
    intro p q h _ c hc
    have : (p : Int) = q := h
    rw [show q - p = 0 by omega] at hc
    cases hc
  | cons s l ih =>
    intro p q h hq c hc
    obtain ⟨h1, h2, h3, h4⟩ := h
    have hle := tiles_le h4
    rw [show (p : Int) + s.length = ((p + s.length.toNat : Nat) : Int) by omega] at h4
    rw [show (text.drop p).take (q - p) = piece text s ++ (text.drop (p + s.length.toNat)).take (q - (p + s.length.toNat)) by
      unfold piece
      rw [h1, Int.toNat_natCast, ← List.drop_drop, show q - p = s.length.toNat + (q - (p + s.length.toNat)) by omega, List.take_add]] at hc
    rcases List.mem_append.1 hc with hc | hc
    · exact ⟨s, by simp, hc⟩
    · obtain ⟨s', h, hc⟩ := ih _ q h4 hq c hc
      exact ⟨s', by simp [h], hc⟩

theorem piece_mem {α : Type} {text : List α} {s : Substr} {c : α} (h : c ∈ piece text s) : c ∈ text := by
  unfold piece at h
  exact List.mem_of_mem_drop (List.mem_of_mem_take h)

theorem at_mem {text : List Ch} {s : Substr} (h : Within text.length s) {c : Ch} (hc : c ∈ piece text s) : ∃ i, i < s.length.toNat ∧ c = at_ text s i := by
  obtain ⟨i, hi, e⟩ := List.mem_iff_getElem.1 hc
  have hl := piece_length h
  refine ⟨i, by omega, ?_⟩
  obtain ⟨h1, h2, h3, h4⟩ := h
  have : s.start.toNat + i < text.length := by omega
  rw [← e]
  unfold at_
  simp only [piece, List.getElem_take, List.getElem_drop]
  simp [this]

/-- What is printed of an alignment holds a character that is too long exactly if marks are shown and one of the texts does. -/
theorem printed_iff {U : Unicode} {sh : Bool} {texts : List (List Ch)} {l : List Sync} (h0 : 0 < texts.length)
    (ha : IsAlignment (texts.map (fun t => t.map Ch.value)) l) :
    ((∃ s ∈ l, s.mtch ≠ none ∧ ∃ c ∈ Synctext.common texts s, Shown U sh c) ∨
      ∃ s ∈ l, s.mtch = none ∧ ∃ t, t < texts.length ∧ ∃ c ∈ piece (texts.getD t []) (s.sub t), Shown U sh c) ↔
    sh = true ∧ ∃ t ∈ texts, ∃ c ∈ t, TooLong U c := by
  have hsound := sound_of_alignment ha
  have hval : ∀ s ∈ l, s.mtch ≠ none → ∀ t (h : t < texts.length) i, i < (s.sub 0).length.toNat →
      (at_ texts[t] (s.sub t) i).value = (at_ texts[0] (s.sub 0) i).value ∧ at_ texts[t] (s.sub t) i ∈ texts[t] := by
    intro s hs hm t ht i hi
    have S := hsound s hs
    have e := S.same hm t ht
    have l0 := piece_length (S.within 0 h0)
    have lt := piece_length (S.within t ht)
    rw [getD_texts h0] at e
    have el := congrArg List.length e
    rw [List.length_map, List.length_map] at el
    have := List.getElem_of_eq e (i := i) (by rw [List.length_map]; omega)
    refine ⟨?_, (rdI_at (S.within t ht) (by omega)).2⟩
    have w0 := S.within 0 h0
    have wt := S.within t ht
    have b0 : (s.sub 0).start.toNat + i < texts[0].length := by have := w0.le; have := w0.start; omega
    have bt : (s.sub t).start.toNat + i < texts[t].length := by have := wt.le; have := wt.start; omega
    simp only [piece, List.getElem_map, List.getElem_take, List.getElem_drop] at this
    unfold at_
    simp only [List.getD_eq_getElem?_getD, List.getElem?_eq_getElem b0, List.getElem?_eq_getElem bt, Option.getD_some]
    exact this
  constructor
  · rintro (⟨s, hs, hm, c, hc, h⟩ | ⟨s, hs, hm, t, ht, c, hc, h⟩)
    · obtain ⟨h1, h2⟩ := shown_iff.1 h
      refine ⟨h1, ?_⟩
      rw [common_eq] at hc
      obtain ⟨i, hi, rfl⟩ := List.mem_map.1 hc
      have hi := (List.mem_range'_1.1 hi).2
      obtain ⟨k1, k2, k3, k4⟩ := h2
      unfold commonAt at k1
      obtain ⟨t, ht, k1⟩ := List.any_eq_true.1 k1
      have ht := List.mem_range.1 ht
      rw [getD_texts ht] at k1
      obtain ⟨v1, v2⟩ := hval s hs hm t ht i (by omega)
      have : (commonAt texts s i).value = (at_ texts[t] (s.sub t) i).value := by
        rw [v1]; unfold commonAt; rw [getD_texts h0]
      rw [this] at k2 k3 k4
      exact ⟨texts[t], List.getElem_mem ht, _, v2, k1, k2, k3, k4⟩
    · obtain ⟨h1, h2⟩ := shown_iff.1 h
      rw [getD_texts ht] at hc
      exact ⟨h1, texts[t], List.getElem_mem ht, c, piece_mem hc, h2⟩
  · rintro ⟨h1, t', ht', c, hc, h⟩
    obtain ⟨t, ht, rfl⟩ := List.mem_iff_getElem.1 ht'
    have hT := ha.tiles t (by simpa using ht)
    simp only [List.getElem_map, List.length_map] at hT
    obtain ⟨x, hx, hcx⟩ := tiles_mem texts[t] _ 0 texts[t].length hT (Nat.le_refl _) c (by simpa using hc)
    obtain ⟨s, hs, rfl⟩ := List.mem_map.1 hx
    by_cases hm : s.mtch = none
    · exact .inr ⟨s, hs, hm, t, ht, c, by rw [getD_texts ht]; exact hcx, shown_iff.2 ⟨h1, h⟩⟩
    · left
      obtain ⟨i, hi, rfl⟩ := at_mem ((hsound s hs).within t ht) hcx
      have hlen : (s.sub t).length.toNat = (s.sub 0).length.toNat := by
        have e := congrArg List.length ((hsound s hs).same hm t ht)
        rw [List.length_map, List.length_map, getD_texts h0, piece_length ((hsound s hs).within t ht), piece_length ((hsound s hs).within 0 h0)] at e
        exact e
      refine ⟨s, hs, hm, commonAt texts s i, ?_, shown_iff.2 ⟨h1, ?_⟩⟩
      · rw [common_eq]
        exact List.mem_map_of_mem (List.mem_range'_1.2 ⟨by omega, by omega⟩)
      · obtain ⟨v1, v2⟩ := hval s hs hm t ht i (by omega)
        have : (commonAt texts s i).value = (at_ texts[t] (s.sub t) i).value := by
          rw [v1]; unfold commonAt; rw [getD_texts h0]
        obtain ⟨k1, k2, k3, k4⟩ := h
        unfold TooLong
        rw [this]
        refine ⟨?_, k2, k3, k4⟩
        unfold commonAt
        exact List.any_eq_true.2 ⟨t, List.mem_range.2 ht, by rw [getD_texts ht]; exact k1⟩

theorem single_iff {U : Unicode} {sh : Bool} {text : List Ch} {l : List Sync} (ha : IsAlignment [text.map Ch.value] l) :
    (∃ s ∈ l, ∃ c ∈ piece text (s.sub 0), Shown U sh c) ↔ sh = true ∧ ∃ c ∈ text, TooLong U c := by
  constructor
  · rintro ⟨s, hs, c, hc, h⟩
    obtain ⟨h1, h2⟩ := shown_iff.1 h
    exact ⟨h1, c, piece_mem hc, h2⟩
  · rintro ⟨h1, c, hc, h⟩
    have hT := ha.tiles 0 (by simp)
    simp only [List.getElem_cons_zero, List.length_map] at hT
    obtain ⟨x, hx, hcx⟩ := tiles_mem text _ 0 text.length hT (Nat.le_refl _) c (by simpa using hc)
    obtain ⟨s, hs, rfl⟩ := List.mem_map.1 hx
    exact ⟨s, hs, c, hcx, shown_iff.2 ⟨h1, h⟩⟩

theorem dec_long : ∀ k v, 10 ^ k ≤ v → k + 1 ≤ (decDigits v).length := by
  intro k
  induction k with
  | zero =>
    intro v hv
    rw [decDigits]
    split <;> simp
  | succ k ih =>
    intro v hv
    have h10 : 10 ≤ v := by
      have : 10 ^ (k + 1) = 10 ^ k * 10 := pow_succ 10 k
      have : 0 < 10 ^ k := Nat.pow_pos (by omega)
      omega
    rw [decDigits, if_neg (by omega)]
    have := ih (v / 10) (by rw [Nat.le_div_iff_mul_le (by omega), ← pow_succ]; exact hv)
    simp only [List.length_append, List.length_cons, List.length_nil]
    omega

theorem dec_short : ∀ k v, v < 10 ^ (k + 1) → (decDigits v).length ≤ k + 1 := by
  intro k
  induction k with
  | zero => intro v hv; rw [decDigits, if_pos (by omega)]; simp
  | succ k ih =>
    intro v hv
    rw [decDigits]
    split
    · simp
    · have := ih (v / 10) (by rw [Nat.div_lt_iff_lt_mul (by omega)]; rw [← pow_succ]; exact hv)
      simp only [List.length_append, List.length_cons, List.length_nil]
      omega

theorem maxLen_le {names : List (List Nat)} {b : Nat} : maxLen names ≤ b ↔ ∀ f ∈ names, f.length ≤ b := by
  rw [maxLen_eq]
  induction names with
  | nil => simp
  | cons f names ih =>
    simp only [List.map_cons, List.foldr_cons, Nat.max_le, ih]
    simp

theorem nameable_iff (names : List (List Nat)) :
    (maxLen names = 0 ∨ (ascii "%-" ++ decDigits (maxLen names) ++ ascii "s").length + 1 > 20) ↔ ¬ Nameable names := by
  have e1 : (ascii "%-").length = 2 := by decide
  have e2 : (ascii "s").length = 1 := by decide
  simp only [List.length_append, e1, e2]
  have h16 : ∀ m, 2 + (decDigits m).length + 1 + 1 > 20 ↔ 10 ^ 16 ≤ m := by
    intro m
    constructor
    · intro h
      by_contra hc
      have := dec_short 15 m (by omega)
      omega
    · intro h
      have := dec_long 16 m h
      omega
  rw [h16]
  unfold Nameable
  rw [← Nat.le_zero, maxLen_le, ← not_lt, ← Nat.le_pred_iff_lt (by positivity), maxLen_le]
  constructor
  · rintro (h | h) ⟨⟨f, hf, hne⟩, hlt⟩
    · exact hne (List.length_eq_zero_iff.1 (Nat.le_zero.1 (h f hf)))
    · exact h (fun f hf => Nat.le_pred_of_lt (hlt f hf))
  · intro h
    by_cases h1 : ∃ f ∈ names, f ≠ []
    · right
      intro h2
      refine h ⟨h1, fun f hf => ?_⟩
      have := h2 f hf
      exact (Nat.le_pred_iff_lt (by positivity)).1 this
    · left
      intro f hf
      by_contra hc
      exact h1 ⟨f, hf, by rintro rfl; simp at hc⟩

theorem texts_give (U : Unicode) {junk : List Nat} (hj : Bytes junk) {fs : Fs} (hfs : ∀ name file, fs name = some file → Bytes file)
    (fold : Bool) : ∀ (names : List (List Nat)) (b : Bool),
    Gives (readTexts U junk fs names { pageText fold with found_header := b }) (AllRead fs (TextOf U fold) names) False
  | [], b => .ok [] rfl (fun ts => ⟨fun h => (by cases h; rfl), fun h => (by rw [h]; exact .nil)⟩) id
  | n :: names, b => by
    have e : readTexts U junk fs (n :: names) { pageText fold with found_header := b } =
        readFile U junk fs n { pageText fold with found_header := b } >>= fun p => readTexts U junk fs names p.2 >>= fun r => .ok (p.1 :: r) := by
      rw [readTexts, readFile, open_file]
      cases fs n <;> rfl
    rw [e]
    refine ((readFile_gives U hj hfs fold b n).bind (S := fun p ts => ∃ r, AllRead fs (TextOf U fold) names r ∧ ts = p.1 :: r) (C := fun _ => False) ?_).imp ?_ (by simp)
    · rintro ⟨t, opt⟩ ⟨f, h1, h2, h3⟩
      simp only at h3
      subst h3
      exact ((texts_give U hj hfs fold names _).bind (S := fun r ts => ts = t :: r) (C := fun _ => False)
        (fun r _ => .ok _ rfl (fun _ => Iff.rfl) id)).imp (fun _ => Iff.rfl) (by simp)
    · intro ts
      constructor
      · rintro ⟨p, ⟨f, h1, h2, h3⟩, r, hr, rfl⟩
        exact .cons ⟨f, h1, h2⟩ hr
      · intro h
        cases h with
        | cons h hr =>
          obtain ⟨f, h1, h2⟩ := h
          exact ⟨(_, _), ⟨f, h1, h2, rfl⟩, _, hr, rfl⟩

end

end Ocr.Ending
