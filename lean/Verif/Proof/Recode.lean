import Verif.Model.Editop
import Verif.Model.Vote
import Verif.Spec.Alike
import Verif.Spec.Edit

/-!
# Synchronization compares characters for equality only
-/

namespace Ocr.Alike
open Text Sync

/-- The same positions of two texts match. -/
structure Like (a b a' b' : List Nat) : Prop where
  left  : a.length = a'.length
  right : b.length = b'.length
  same  : ∀ p q : Nat, (∃ c, a[p]? = some c ∧ b[q]? = some c ∧ c ≠ 126) ↔ (∃ c, a'[p]? = some c ∧ b'[q]? = some c ∧ c ≠ 126)

theorem rdI_out {a : List Nat} {i : Int} (h : ¬ (0 ≤ i ∧ i.toNat < a.length)) : rdI a i = .ub := by
  unfold rdI
  split
  · rfl
  · unfold rd
    rw [List.getElem?_eq_none (by omega)]

theorem rdI_in {a : List Nat} {i : Int} (h : 0 ≤ i ∧ i.toNat < a.length) : rdI a i = .ok (a[i.toNat]'h.2) := by
  unfold rdI rd
  rw [if_neg (by omega), List.getElem?_eq_getElem h.2]

/-- The comparison of two characters, whatever is done next. -/
theorem compare {β : Type} {a b a' b' : List Nat} (h : Like a b a' b') (i j : Int) (A B : Res β) :
    (rdI a i).bind (fun x => (rdI b j).bind (fun y => if x = y ∧ x ≠ REJECT_CHARACTER then A else B)) =
      (rdI a' i).bind (fun x => (rdI b' j).bind (fun y => if x = y ∧ x ≠ REJECT_CHARACTER then A else B)) := by
  by_cases hi : 0 ≤ i ∧ i.toNat < a.length
  · by_cases hj : 0 ≤ j ∧ j.toNat < b.length
    · have hi' : 0 ≤ i ∧ i.toNat < a'.length := h.left ▸ hi
      have hj' : 0 ≤ j ∧ j.toNat < b'.length := h.right ▸ hj
      rw [rdI_in hi, rdI_in hj, rdI_in hi', rdI_in hj']
      have := h.same i.toNat j.toNat
      rw [List.getElem?_eq_getElem hi.2, List.getElem?_eq_getElem hj.2, List.getElem?_eq_getElem hi'.2,
        List.getElem?_eq_getElem hj'.2] at this
      have key : (a[i.toNat]'hi.2 = b[j.toNat]'hj.2 ∧ a[i.toNat]'hi.2 ≠ REJECT_CHARACTER) ↔
          (a'[i.toNat]'hi'.2 = b'[j.toNat]'hj'.2 ∧ a'[i.toNat]'hi'.2 ≠ REJECT_CHARACTER) := by
        unfold REJECT_CHARACTER
        constructor
        · rintro ⟨e, n⟩
          obtain ⟨c, e1, e2, e3⟩ := this.1 ⟨_, rfl, by rw [e], n⟩
          simp only [Option.some.injEq] at e1 e2
          exact ⟨e1.trans e2.symm, e1 ▸ e3⟩
        · rintro ⟨e, n⟩
          obtain ⟨c, e1, e2, e3⟩ := this.2 ⟨_, rfl, by rw [e], n⟩
          simp only [Option.some.injEq] at e1 e2
          exact ⟨e1.trans e2.symm, e1 ▸ e3⟩
      simp only [Res.bind]
      by_cases k : a[i.toNat]'hi.2 = b[j.toNat]'hj.2 ∧ a[i.toNat]'hi.2 ≠ REJECT_CHARACTER
      · rw [if_pos k, if_pos (key.1 k)]
      · rw [if_neg k, if_neg (fun h => k (key.2 h))]
    · have hi' : 0 ≤ i ∧ i.toNat < a'.length := h.left ▸ hi
      have hj' : ¬ (0 ≤ j ∧ j.toNat < b'.length) := h.right ▸ hj
      rw [rdI_in hi, rdI_in hi', rdI_out hj, rdI_out hj']
      rfl
  · have hi' : ¬ (0 ≤ i ∧ i.toNat < a'.length) := h.left ▸ hi
    rw [rdI_out hi, rdI_out hi']
    rfl

variable {a b a' b' : List Nat}

/-! ## fastukk_sync -/

theorem extendLoop_like (h : Like a b a' b') : ∀ (fuel : Nat) (i j : Int), extendLoop a b fuel i j = extendLoop a' b' fuel i j := by
  intro fuel
  induction fuel with
  | zero =>
    intro i j
    unfold extendLoop
    rw [h.left, h.right]
    split
    · exact compare h i j _ _
    · rfl
  | succ n ih =>
    intro i j
    unfold extendLoop
    rw [h.left, h.right]
    split
    · simp only [ih]
      exact compare h i j _ _
    · rfl

theorem compute_f_like (h : Like a b a' b') : compute_f a b = compute_f a' b' := by
  funext p prev k s
  unfold compute_f
  simp only [extendLoop_like h, h.left, h.right]

theorem downLoop_like (h : Like a b a' b') (p : Int) (prev : Option Path) : ∀ (fuel : Nat) (k : Int) (s : FState),
    downLoop a b p prev fuel k s = downLoop a' b' p prev fuel k s := by
  intro fuel
  induction fuel with
  | zero => intro k s; unfold downLoop; rfl
  | succ n ih => intro k s; unfold downLoop; simp only [compute_f_like h, ih]

theorem upLoop_like (h : Like a b a' b') (p : Int) (prev : Option Path) : ∀ (fuel : Nat) (k : Int) (s : FState),
    upLoop a b p prev fuel k s = upLoop a' b' p prev fuel k s := by
  intro fuel
  induction fuel with
  | zero => intro k s; unfold upLoop; rfl
  | succ n ih => intro k s; unfold upLoop; simp only [compute_f_like h, ih]

theorem computeLevel_like (h : Like a b a' b') : computeLevel a b = computeLevel a' b' := by
  funext p prev min_k max_k
  unfold computeLevel
  simp only [downLoop_like h, upLoop_like h, h.left, h.right]

theorem pathLoop_like (h : Like a b a' b') : ∀ (fuel p : Nat) (min_k max_k : Int) (paths : List Path),
    pathLoop a b fuel p min_k max_k paths = pathLoop a' b' fuel p min_k max_k paths := by
  intro fuel
  induction fuel with
  | zero => intro p min_k max_k paths; unfold pathLoop; rw [h.left, h.right]
  | succ n ih => intro p min_k max_k paths; unfold pathLoop; simp only [computeLevel_like h, ih, h.left, h.right]

theorem compute_pathlist_like (h : Like a b a' b') : compute_pathlist a b = compute_pathlist a' b' := by
  unfold compute_pathlist
  rw [pathLoop_like h, h.left, h.right]

theorem fastukk_like {t0 t1 u0 u1 : List Ch} (h : Like (t0.map Ch.value) (t1.map Ch.value) (u0.map Ch.value) (u1.map Ch.value)) :
    fastukk_sync t0 t1 = fastukk_sync u0 u1 := by
  have hl := h.left
  have hr := h.right
  simp only [List.length_map] at hl hr
  unfold fastukk_sync
  simp only [compute_pathlist_like h, hl, hr, List.length_map]

/-! ## longest_match -/

theorem matchRun_like (h : Like a b a' b') (stop1 stop2 : Int) : ∀ (fuel : Nat) (i j : Int),
    matchRun a b stop1 stop2 fuel i j = matchRun a' b' stop1 stop2 fuel i j := by
  intro fuel
  induction fuel with
  | zero =>
    intro i j
    unfold matchRun
    split
    · exact compare h i j _ _
    · rfl
  | succ n ih =>
    intro i j
    unfold matchRun
    split
    · simp only [ih]
      exact compare h i j _ _
    · rfl

theorem longestStep_like (h : Like a b a' b') : longestStep a b = longestStep a' b' := by
  funext stop1 stop2 s1 s2 st
  unfold longestStep
  simp only [matchRun_like h, h.left]
  exact compare h s1 s2 _ _

theorem longestInner_like (h : Like a b a' b') (stop1 stop2 s1 : Int) : ∀ (fuel : Nat) (s2 : Int) (st : LM),
    longestInner a b stop1 stop2 s1 fuel s2 st = longestInner a' b' stop1 stop2 s1 fuel s2 st := by
  intro fuel
  induction fuel with
  | zero => intro s2 st; unfold longestInner; rfl
  | succ n ih => intro s2 st; unfold longestInner; simp only [longestStep_like h, ih]

theorem longestOuter_like (h : Like a b a' b') (stop1 start2 stop2 : Int) : ∀ (fuel : Nat) (s1 : Int) (st : LM),
    longestOuter a b stop1 start2 stop2 fuel s1 st = longestOuter a' b' stop1 start2 stop2 fuel s1 st := by
  intro fuel
  induction fuel with
  | zero => intro s1 st; unfold longestOuter; rfl
  | succ n ih => intro s1 st; unfold longestOuter; simp only [longestInner_like h, ih, h.right]

theorem longest_match_like (h : Like a b a' b') (maxlen start1 stop1 start2 stop2 : Int) (m : Option (Int × Int)) :
    longest_match maxlen a start1 stop1 b start2 stop2 m = longest_match maxlen a' start1 stop1 b' start2 stop2 m := by
  unfold longest_match
  rw [longestOuter_like h, h.left]

/-! ## synchronize -/

theorem matchTexts_like : ∀ (l l' : List (List Nat)) (subs : List Substr) (start : List Int) (length : Int),
    List.Forall₂ (fun b b' => Like a b a' b') l l' →
    matchTexts a (l.zip subs) start length = matchTexts a' (l'.zip subs) start length := by
  intro l l' subs start length h
  induction h generalizing subs start length with
  | nil => rfl
  | cons h _ ih =>
    cases subs with
    | nil => rfl
    | cons s subs =>
      rw [List.zip_cons_cons, List.zip_cons_cons]
      unfold matchTexts
      simp only [longest_match_like h, ih]

theorem recursive_sync_like {more more' : List (List Nat)} (h : List.Forall₂ (fun b b' => Like a b a' b') more more') :
    ∀ (fuel pos : Nat) (l : List Sync) (next : Nat),
      recursive_sync (a :: more) fuel pos l next = recursive_sync (a' :: more') fuel pos l next := by
  intro fuel
  induction fuel with
  | zero => intro pos l next; rfl
  | succ n ih =>
    intro pos l next
    unfold recursive_sync
    cases l[pos]? with
    | none => rfl
    | some sync => simp only [matchTexts_like _ _ _ _ _ h, ih]

theorem like_of {texts texts' : List (List Nat)} (h : SameMatches texts texts') {i j : Nat} {a b a' b' : List Nat}
    (ha : texts[i]? = some a) (hb : texts[j]? = some b) (ha' : texts'[i]? = some a') (hb' : texts'[j]? = some b') : Like a b a' b' := by
  obtain ⟨hl, hm⟩ := h
  have len : ∀ {k : Nat} {s s' : List Nat}, texts[k]? = some s → texts'[k]? = some s' → s.length = s'.length := by
    intro k s s' e e'
    have := congrArg (fun l => l[k]?) hl
    simpa [e, e'] using this
  refine ⟨len ha ha', len hb hb', fun p q => ?_⟩
  have := hm i p j q
  constructor
  · rintro ⟨c, h1, h2, h3⟩
    obtain ⟨s, t, c', e1, e2, e3, e4, e5⟩ := this.1 ⟨a, b, c, ha, hb, h1, h2, h3⟩
    rw [ha'] at e1
    rw [hb'] at e2
    cases e1
    cases e2
    exact ⟨c', e3, e4, e5⟩
  · rintro ⟨c, h1, h2, h3⟩
    obtain ⟨s, t, c', e1, e2, e3, e4, e5⟩ := this.2 ⟨a', b', c, ha', hb', h1, h2, h3⟩
    rw [ha] at e1
    rw [hb] at e2
    cases e1
    cases e2
    exact ⟨c', e3, e4, e5⟩

theorem synchronize_like {texts texts' : List (List Nat)} (h : SameMatches texts texts') : synchronize texts = synchronize texts' := by
  have hn : texts.length = texts'.length := by simpa using congrArg List.length h.1
  rcases texts with _ | ⟨a, more⟩
  · rcases texts' with _ | ⟨a', more'⟩
    · rfl
    · simp at hn
  · rcases texts' with _ | ⟨a', more'⟩
    · simp at hn
    · have hf : List.Forall₂ (fun b b' => Like a b a' b') more more' := by
        rw [List.forall₂_iff_get]
        refine ⟨by simpa using hn, fun i h1 h2 => ?_⟩
        refine like_of h (i := 0) (j := i + 1) rfl ?_ rfl ?_
        · simp [List.getElem?_eq_getElem h1]
        · simp [List.getElem?_eq_getElem h2]
      have ha : a.length = a'.length := (like_of h (i := 0) (j := 0) rfl rfl rfl rfl).left
      unfold synchronize
      simp only [h.1, hn, recursive_sync_like hf, List.headD_cons, ha]

/-! ## transpose_sync and editop -/

theorem transInner_like (h : Like a b a' b') (sub1 : Substr) (pos1 : Nat) : ∀ (l2 : List Sync) (pos2 : Nat) (best : TBest),
    transInner a b sub1 pos1 l2 pos2 best = transInner a' b' sub1 pos1 l2 pos2 best := by
  intro l2
  induction l2 with
  | nil => intro pos2 best; rfl
  | cons s l2 ih => intro pos2 best; unfold transInner; simp only [longest_match_like h, ih]

theorem transOuter_like (h : Like a b a' b') (l2 : List Sync) : ∀ (l1 : List Sync) (pos1 : Nat) (best : TBest),
    transOuter a b l2 l1 pos1 best = transOuter a' b' l2 l1 pos1 best := by
  intro l1
  induction l1 with
  | nil => intro pos1 best; rfl
  | cons s l1 ih => intro pos1 best; unfold transOuter; simp only [transInner_like h, ih]

theorem transLoop_like (h : Like a b a' b') : ∀ (fuel : Nat) (l1 l2 : List Sync) (next : Nat),
    transLoop a b fuel l1 l2 next = transLoop a' b' fuel l1 l2 next := by
  intro fuel
  induction fuel with
  | zero => intro l1 l2 next; unfold transLoop; simp only [transOuter_like h]
  | succ n ih => intro l1 l2 next; unfold transLoop; simp only [transOuter_like h, ih]

theorem transpose_like (h : Like a b a' b') : transpose_sync a b = transpose_sync a' b' := by
  unfold transpose_sync
  simp only [transLoop_like h, h.left, h.right]

theorem insertionLoop_like (h : Like a a a' a') : ∀ (n : Nat) (i total : Int),
    Edo.insertionLoop a n i total = Edo.insertionLoop a' n i total := by
  intro n
  induction n with
  | zero => intro i total; rfl
  | succ n ih =>
    intro i total
    unfold Edo.insertionLoop
    simp only [ih]
    have := compare h i i (Edo.insertionLoop a' n (i + 1) (total + 1)) (Edo.insertionLoop a' n (i + 1) total)
    by_cases hi : 0 ≤ i ∧ i.toNat < a.length
    · have hi' : 0 ≤ i ∧ i.toNat < a'.length := h.left ▸ hi
      rw [rdI_in hi, rdI_in hi'] at this ⊢
      simp only [Res.bind, true_and] at this
      show Edo.insertionLoop a' n (i + 1) (if _ then _ else _) = Edo.insertionLoop a' n (i + 1) (if _ then _ else _)
      rw [apply_ite (Edo.insertionLoop a' n (i + 1)), apply_ite (Edo.insertionLoop a' n (i + 1))]
      exact this
    · have hi' : ¬ (0 ≤ i ∧ i.toNat < a'.length) := h.left ▸ hi
      rw [rdI_out hi, rdI_out hi']

theorem count_insertions_like (h : Like a a a' a') : ∀ (l : List Sync) (total : Int),
    Edo.count_insertions a l total = Edo.count_insertions a' l total := by
  intro l
  induction l with
  | nil => intro total; rfl
  | cons s l ih => intro total; unfold Edo.count_insertions; simp only [insertionLoop_like h, ih]

theorem editop_like (h : Like a b a' b') (h' : Like a a a' a') : Edo.editop a b = Edo.editop a' b' := by
  unfold Edo.editop
  simp only [transpose_like h, count_insertions_like h']

/-! ## Edit distance -/

theorem like_symm (h : Like a b a' b') : Like a' b' a b := ⟨h.left.symm, h.right.symm, fun p q => (h.same p q).symm⟩

theorem edits_like {n : Nat} (e : Edits a b n) : ∀ {a' b' : List Nat}, Like a b a' b' → Edits a' b' n := by
  induction e with
  | nil =>
    intro a' b' h
    rw [List.eq_nil_of_length_eq_zero (l := a') h.left.symm, List.eq_nil_of_length_eq_zero (l := b') h.right.symm]
    exact .nil
  | keep c hc _ ih =>
    intro a' b' h
    rcases a' with _ | ⟨x, a'⟩
    · simpa using h.left
    rcases b' with _ | ⟨y, b'⟩
    · simpa using h.right
    obtain ⟨d, h1, h2, h3⟩ := (h.same 0 0).1 ⟨c, rfl, rfl, hc⟩
    simp only [List.getElem?_cons_zero, Option.some.injEq] at h1 h2
    subst h1
    subst h2
    exact .keep _ h3 (ih ⟨by simpa using h.left, by simpa using h.right, fun p q => by simpa using h.same (p + 1) (q + 1)⟩)
  | subst x0 y0 _ ih =>
    intro a' b' h
    rcases a' with _ | ⟨x, a'⟩
    · simpa using h.left
    rcases b' with _ | ⟨y, b'⟩
    · simpa using h.right
    exact .subst _ _ (ih ⟨by simpa using h.left, by simpa using h.right, fun p q => by simpa using h.same (p + 1) (q + 1)⟩)
  | del x0 _ ih =>
    intro a' b' h
    rcases a' with _ | ⟨x, a'⟩
    · simpa using h.left
    exact .del _ (ih ⟨by simpa using h.left, h.right, fun p q => by simpa using h.same (p + 1) q⟩)
  | ins y0 _ ih =>
    intro a' b' h
    rcases b' with _ | ⟨y, b'⟩
    · simpa using h.right
    exact .ins _ (ih ⟨h.left, by simpa using h.right, fun p q => by simpa using h.same p (q + 1)⟩)

theorem distance_like {d : Nat} (h : Like a b a' b') (hd : IsEditDistance a b d) : IsEditDistance a' b' d :=
  ⟨edits_like hd.1 h, fun n e => hd.2 n (edits_like e (like_symm h))⟩

/-! ## vote -/

/-- The texts of a code are like the texts themselves. -/
theorem code_alike {f : Nat → Nat} (hf : Code f) (texts : List (List Nat)) : SameMatches texts (texts.map (·.map f)) := by
  refine ⟨by simp [Function.comp_def], fun i p j q => ?_⟩
  constructor
  · rintro ⟨s, t, c, h1, h2, h3, h4, h5⟩
    refine ⟨s.map f, t.map f, f c, by simp [h1], by simp [h2], by simp [h3], by simp [h4], fun e => h5 (hf.1 _ _ (e.trans hf.2.symm))⟩
  · rintro ⟨s, t, c, h1, h2, h3, h4, h5⟩
    simp only [List.getElem?_map, Option.map_eq_some_iff] at h1 h2
    obtain ⟨s, h1, rfl⟩ := h1
    obtain ⟨t, h2, rfl⟩ := h2
    simp only [List.getElem?_map, Option.map_eq_some_iff] at h3 h4
    obtain ⟨x, h3, rfl⟩ := h3
    obtain ⟨y, h4, e⟩ := h4
    have := hf.1 _ _ e
    subst this
    exact ⟨s, t, y, h1, h2, h3, h4, fun e => h5 (by rw [e, hf.2])⟩

open Vote

def recodeCand (f : Nat → Nat) (x : Cand) : Cand := ⟨x.c.map f, x.num_votes⟩

theorem addVotes_code {f : Nat → Nat} (hf : Code f) (v : Option Nat) (n : Int) : ∀ l : List Cand,
    addVotes (v.map f) n (l.map (recodeCand f)) = (addVotes v n l).map (recodeCand f) := by
  intro l
  induction l with
  | nil => rfl
  | cons x l ih =>
    rw [List.map_cons]
    unfold addVotes
    have key : (recodeCand f x).c = v.map f ↔ x.c = v := by
      constructor
      · intro h
        exact Option.map_injective (fun _ _ h => hf.1 _ _ h) h
      · rintro rfl
        rfl
    by_cases h : x.c = v
    · rw [if_pos h, if_pos (key.2 h)]
      rfl
    · rw [if_neg h, if_neg (fun k => h (key.1 k)), ih]
      rfl

theorem place_vote_code {f : Nat → Nat} (hf : Code f) (cfg : Config) (c : Option Ch) (l : List Cand) :
    place_vote cfg (c.map (fun c => { c with value := f c.value })) (l.map (recodeCand f)) =
      (place_vote cfg c l).bind (fun l => .ok (l.map (recodeCand f))) := by
  cases c with
  | none =>
    show (if _ then _ else _) = Res.bind (if _ then _ else _) _
    have := addVotes_code hf none cfg.unmarked_weight l
    simp only [Option.map_none] at this
    rw [this, List.length_map]
    split <;> rfl
  | some c =>
    unfold place_vote
    simp only [Option.map_some]
    have key : f c.value = REJECT_CHARACTER ↔ c.value = REJECT_CHARACTER := by
      unfold REJECT_CHARACTER
      constructor
      · intro h
        exact hf.1 _ _ (h.trans hf.2.symm)
      · intro h
        rw [h, hf.2]
    by_cases h : c.value = REJECT_CHARACTER
    · rw [if_pos h, if_pos (key.2 h)]
      rfl
    · rw [if_neg h, if_neg (fun k => h (key.1 k))]
      have := addVotes_code hf (some c.value) (if c.suspect then cfg.suspect_weight else cfg.unmarked_weight) l
      simp only [Option.map_some] at this
      rw [this, List.length_map]
      by_cases k : (addVotes (some c.value) (if c.suspect then cfg.suspect_weight else cfg.unmarked_weight) l).length ≤ MAX_VOTERS
      · rw [if_pos k, if_pos k]
        rfl
      · rw [if_neg k, if_neg k]
        rfl

theorem leaderLoop_code (f : Nat → Nat) : ∀ (l : List Cand) (x : Cand),
    leaderLoop (recodeCand f x) (l.map (recodeCand f)) = recodeCand f (leaderLoop x l) := by
  intro l
  induction l with
  | nil => intro x; rfl
  | cons y l ih =>
    intro x
    rw [List.map_cons]
    unfold leaderLoop
    rw [← ih]
    congr 1
    show (if y.num_votes > x.num_votes then _ else _) = _
    split <;> rfl

theorem winner_code {f : Nat → Nat} (hf : Code f) (cfg : Config) (l : List Cand) :
    winner cfg (l.map (recodeCand f)) = ((winner cfg l).1.map (fun c => { c with value := f c.value }), (winner cfg l).2) := by
  cases l with
  | nil =>
    unfold winner
    simp only [List.map_nil, Option.map_some]
    unfold REJECT_CHARACTER
    rw [hf.2]
  | cons x l =>
    rw [List.map_cons]
    unfold winner
    simp only [leaderLoop_code]
    cases h : (leaderLoop x l).c with
    | none => simp [recodeCand, h]
    | some v => simp [recodeCand, h]

theorem rdI_code (f : Nat → Nat) (t : List Ch) (i : Int) :
    rdI (recode f t) i = (rdI t i).bind (fun c => .ok { c with value := f c.value }) := by
  unfold rdI rd recode
  split
  · rfl
  · rw [List.getElem?_map]
    cases t[i.toNat]? <;> rfl

theorem castLoop_code {f : Nat → Nat} (hf : Code f) (cfg : Config) : ∀ (input : List (List Ch)) (ss : List Substr) (l : List Cand),
    castLoop cfg (input.map (recode f)) ss (l.map (recodeCand f)) =
      (castLoop cfg input ss l).bind (fun r => .ok (r.1, r.2.map (recodeCand f))) := by
  intro input
  induction input with
  | nil => intro ss l; rfl
  | cons t input ih =>
    intro ss l
    cases ss with
    | nil => rfl
    | cons s ss =>
      rw [List.map_cons]
      unfold castLoop
      split
      · rw [rdI_code]
        cases rdI t s.start with
        | ok c =>
          show (place_vote cfg (some _) _).bind _ = ((place_vote cfg (some c) l).bind _).bind _
          have := place_vote_code hf cfg (some c) l
          simp only [Option.map_some] at this
          rw [this]
          cases place_vote cfg (some c) l with
          | ok l' =>
            show (castLoop cfg _ ss (l'.map _)).bind _ = ((castLoop cfg input ss l').bind _).bind _
            rw [ih]
            cases castLoop cfg input ss l' <;> rfl
          | err _ => rfl
          | ub => rfl
          | fuel => rfl
        | err _ => rfl
        | ub => rfl
        | fuel => rfl
      · show (place_vote cfg none _).bind _ = ((place_vote cfg none l).bind _).bind _
        have := place_vote_code hf cfg none l
        simp only [Option.map_none] at this
        rw [this]
        cases place_vote cfg none l with
        | ok l' =>
          show (castLoop cfg _ ss (l'.map _)).bind _ = ((castLoop cfg input ss l').bind _).bind _
          rw [ih]
          cases castLoop cfg input ss l' <;> rfl
        | err _ => rfl
        | ub => rfl
        | fuel => rfl

theorem regionLoop_code {f : Nat → Nat} (hf : Code f) (cfg : Config) (input : List (List Ch)) :
    ∀ (fuel : Nat) (ss : List Substr) (out : List Ch), regionLoop cfg (input.map (recode f)) fuel ss (recode f out) =
      (regionLoop cfg input fuel ss out).bind (fun o => .ok (recode f o)) := by
  intro fuel
  induction fuel with
  | zero =>
    intro ss out
    unfold regionLoop
    have := castLoop_code hf cfg input ss []
    rw [List.map_nil] at this
    rw [this]
    cases castLoop cfg input ss [] with
    | ok r =>
      have key : ∀ c : Option Ch, recode f out ++ (c.map (fun c => { c with value := f c.value })).toList = recode f (out ++ c.toList) := by
        intro c
        cases c <;> simp [recode]
      have hw := winner_code hf cfg r.2
      show (if (winner cfg (r.2.map (recodeCand f))).2 = true then _ else Res.ok (recode f out ++ (winner cfg (r.2.map (recodeCand f))).1.toList)) =
        Res.bind (if (winner cfg r.2).2 = true then _ else Res.ok (out ++ (winner cfg r.2).1.toList)) _
      rw [hw]
      simp only [key]
      split <;> rfl
    | err _ => rfl
    | ub => rfl
    | fuel => rfl
  | succ n ih =>
    intro ss out
    unfold regionLoop
    have := castLoop_code hf cfg input ss []
    rw [List.map_nil] at this
    rw [this]
    cases castLoop cfg input ss [] with
    | ok r =>
      have key : ∀ c : Option Ch, recode f out ++ (c.map (fun c => { c with value := f c.value })).toList = recode f (out ++ c.toList) := by
        intro c
        cases c <;> simp [recode]
      have hw := winner_code hf cfg r.2
      show (if (winner cfg (r.2.map (recodeCand f))).2 = true then regionLoop cfg (input.map (recode f)) n r.1 (recode f out ++ (winner cfg (r.2.map (recodeCand f))).1.toList) else Res.ok (recode f out ++ (winner cfg (r.2.map (recodeCand f))).1.toList)) =
        Res.bind (if (winner cfg r.2).2 = true then regionLoop cfg input n r.1 (out ++ (winner cfg r.2).1.toList) else Res.ok (out ++ (winner cfg r.2).1.toList)) _
      rw [hw]
      simp only [key]
      split
      · exact ih _ _
      · rfl
    | err _ => rfl
    | ub => rfl
    | fuel => rfl

theorem perform_vote_code {f : Nat → Nat} (hf : Code f) (cfg : Config) (input : List (List Ch)) (fuel : Nat) :
    ∀ (l : List Sync) (out : List Ch), perform_vote cfg (input.map (recode f)) fuel l (recode f out) =
      (perform_vote cfg input fuel l out).bind (fun o => .ok (recode f o)) := by
  intro l
  induction l with
  | nil => intro out; rfl
  | cons s l ih =>
    intro out
    unfold perform_vote
    rw [regionLoop_code hf]
    cases regionLoop cfg input fuel s.substr out with
    | ok o => exact ih o
    | err _ => rfl
    | ub => rfl
    | fuel => rfl

theorem select_code (U : Unicode) (f : Nat → Nat) (n : Nat) (texts : List (List Ch)) :
    select_voters U false n (texts.map (recode f)) = (select_voters U false n texts).bind (fun l => .ok (l.map (recode f))) := by
  unfold select_voters
  simp only [Bool.false_eq_true, if_false]
  show (if _ then _ else _) = Res.bind (if _ then _ else _) _
  simp only [List.length_map, List.length_zipIdx]
  split
  · show Res.ok _ = Res.ok _
    congr 1
    simp only [List.map_take, List.map_map]
    congr 1
    rw [List.zipIdx_map, List.map_map]
    rfl
  · rfl

theorem voteTexts_code {f : Nat → Nat} (hf : Code f) (U : Unicode) (cfg : Config) (texts : List (List Ch)) :
    voteTexts U false cfg (texts.map (recode f)) = (voteTexts U false cfg texts).bind (fun o => .ok (recode f o)) := by
  unfold voteTexts
  rw [select_code]
  cases select_voters U false cfg.actual_voters texts with
  | ok input =>
    have e1 : (input.map (recode f)).map (·.map Ch.value) = (input.map (·.map Ch.value)).map (·.map f) := by
      simp [recode, Function.comp_def]
    have e2 : rounds (input.map (recode f)) = rounds input := by
      unfold rounds recode
      simp [Function.comp_def]
    show (synchronize _).bind _ = ((synchronize _).bind _).bind _
    rw [e1, ← synchronize_like (code_alike hf _)]
    cases synchronize (input.map (·.map Ch.value)) with
    | ok r =>
      show perform_vote cfg _ _ r.items [] = (perform_vote cfg input _ r.items []).bind _
      rw [e2]
      exact perform_vote_code hf cfg input _ r.items []
    | err _ => rfl
    | ub => rfl
    | fuel => rfl
  | err _ => rfl
  | ub => rfl
  | fuel => rfl

end Ocr.Alike
