import Verif.Proof.WordBreak

/-!
# Word segmentation

A text is a (possibly empty) stretch of Extend and Format characters followed by groups: a base character with the Extend
and Format characters that follow it.
-/

namespace Ocr.Word
open WB Res

section
variable (prop : Nat → WB)

def E (v : Nat) : Bool := isExt (prop v)

theorem E_eq : (fun v => ExtendOrFormat (prop v)) = E prop := by funext v; exact ext_eq _

abbrev Group := Nat × List Nat

def grp (g : Group) : List Nat := g.1 :: g.2

def flat (gs : List Group) : List Nat := gs.flatMap grp

theorem flat_cons (g : Group) (gs : List Group) : flat (g :: gs) = g.1 :: (g.2 ++ flat gs) := rfl

def WF (gs : List Group) : Prop := ∀ g ∈ gs, E prop g.1 = false ∧ ∀ x ∈ g.2, E prop x = true

def AllExt (e : List Nat) : Prop := ∀ x ∈ e, E prop x = true

theorem exists_groups (s : List Nat) : ∃ e gs, s = e ++ flat gs ∧ AllExt prop e ∧ WF prop gs := by
  induction s with
  | nil => exact ⟨[], [], rfl, by simp [AllExt], by simp [WF]⟩
  | cons v s ih =>
    obtain ⟨e, gs, rfl, he, hg⟩ := ih
    cases hv : E prop v with
    | true => exact ⟨v :: e, gs, rfl, by simp only [AllExt, List.mem_cons]; rintro x (rfl | h); exact hv; exact he x h, hg⟩
    | false =>
      refine ⟨[], (v, e) :: gs, by rw [flat_cons]; rfl, by simp [AllExt], ?_⟩
      simp only [WF, List.mem_cons]
      rintro g (rfl | h)
      · exact ⟨hv, he⟩
      · exact hg g h

variable {prop}

theorem dropWhile_ext {e : List Nat} (he : AllExt prop e) {gs : List Group} (hg : WF prop gs) :
    (e ++ flat gs).dropWhile (E prop) = flat gs := by
  induction e with
  | nil =>
    cases gs with
    | nil => rfl
    | cons g gs =>
      rw [List.nil_append, flat_cons, List.dropWhile_cons, (hg g (by simp)).1]
      simp
  | cons x e ih =>
    rw [List.cons_append, List.dropWhile_cons, he x (by simp)]
    simp only [if_true]
    exact ih (fun y hy => he y (by simp [hy]))

theorem skip_next {x : Nat} {e : List Nat} (he : AllExt prop e) {gs : List Group} (hg : WF prop gs) :
    skip_to_next prop (x :: (e ++ flat gs)) = flat gs := by
  unfold skip_to_next
  simp only
  rw [E_eq]
  exact dropWhile_ext he hg

def props (prop : Nat → WB) (gs : List Group) : List WB := gs.map (fun g => prop g.1)

theorem char_prop (gs : List Group) : char_property prop (flat gs) = (props prop gs).headD eot := by
  cases gs with
  | nil => rfl
  | cons g gs => rfl

theorem skip_next_flat {gs : List Group} (hg : WF prop gs) : skip_to_next prop (flat gs) = flat gs.tail := by
  cases gs with
  | nil => rfl
  | cons g gs =>
    rw [flat_cons]
    exact skip_next (hg g (by simp)).2 (fun x hx => hg x (by simp [hx]))

theorem end_of_extend {e : List Nat} (he : AllExt prop e) {gs : List Group} (hg : WF prop gs) (v : Nat) :
    ∃ w, skip_to_end_of_extend prop (v :: (e ++ flat gs)) = w :: flat gs := by
  induction e generalizing v with
  | nil =>
    refine ⟨v, ?_⟩
    cases gs with
    | nil => rfl
    | cons g gs =>
      rw [List.nil_append, flat_cons, skip_to_end_of_extend, ext_eq, if_neg]
      have := (hg g (by simp)).1
      unfold E at this
      simp [this]
  | cons x e ih =>
    have hx := he x (by simp)
    rw [List.cons_append, skip_to_end_of_extend, ext_eq, if_pos (by unfold E at hx; exact hx)]
    exact ih (fun y hy => he y (by simp [hy])) x

/-- The number of groups in the first segment. -/
def segLen (prop : Nat → WB) (b : WB) : List Group → Nat
  | [] => 0
  | g :: gs =>
    if continues b (prop g.1) ((props prop gs).headD eot) ((props prop gs).tail.headD eot) then
      segLen prop (prop g.1) gs + 1
    else 1

theorem tail_WF {g : Group} {gs : List Group} (h : WF prop (g :: gs)) : WF prop gs := fun x hx => h x (by simp [hx])

theorem drop_WF {n : Nat} {gs : List Group} (h : WF prop gs) : WF prop (gs.drop n) := fun x hx => h x (List.mem_of_mem_drop hx)

theorem boundaryLoop_spec : ∀ (gs : List Group) (fuel : Nat) (x : Nat) (e : List Nat) (b : WB), gs ≠ [] → WF prop gs → AllExt prop e →
    gs.length ≤ fuel → ∃ g e', boundaryLoop prop fuel (x :: (e ++ flat gs)) b = .ok (g :: (e' ++ flat (gs.drop (segLen prop b gs)))) ∧ AllExt prop e' := by
  intro gs
  induction gs with
  | nil => intro _ _ _ _ h; exact absurd rfl h
  | cons g gs ih =>
    intro fuel x e b _ hg he hf
    obtain ⟨w, rest, hw⟩ : ∃ w rest, e ++ flat (g :: gs) = w :: rest := by
      cases e with
      | nil => exact ⟨_, _, rfl⟩
      | cons y e => exact ⟨_, _, rfl⟩
    rw [boundaryLoop.eq_def, hw]
    simp only
    rw [← hw, skip_next he hg]
    have e1 : skip_to_next prop (flat (g :: gs)) = flat gs := skip_next_flat hg
    have e2 : skip_twice prop (flat (g :: gs)) = flat gs.tail := by
      unfold skip_twice; rw [e1, skip_next_flat (tail_WF hg)]
    rw [e1, e2, char_prop, char_prop, char_prop]
    have e3 : (props prop gs.tail) = (props prop gs).tail := by unfold props; rw [List.map_tail]
    rw [e3, show (props prop (g :: gs)).headD eot = prop g.1 from rfl]
    unfold segLen
    split
    · rename_i hc
      cases fuel with
      | zero => simp at hf
      | succ fuel =>
        simp only
        rw [flat_cons]
        cases gs with
        | nil =>
          rw [show (props prop []).headD eot = eot from rfl, continues_eot] at hc
          cases hc
        | cons g' gs =>
          obtain ⟨h, e', q1, q2⟩ := ih fuel g.1 g.2 (prop g.1) (by simp) (tail_WF hg) (hg g (by simp)).2 (by simp at hf ⊢; omega)
          exact ⟨h, e', by rw [q1]; rfl, q2⟩
    · exact ⟨g.1, g.2, rfl, (hg g (by simp)).2⟩

theorem find_next_spec {gs : List Group} {e : List Nat} (h : gs ≠ []) (hg : WF prop gs) (he : AllExt prop e) :
    ∃ w, find_next_boundary prop (e ++ flat gs) = .ok (w :: flat (gs.drop (segLen prop sot gs))) := by
  unfold find_next_boundary
  rw [if_neg (by
    cases gs with
    | nil => exact absurd rfl h
    | cons g gs => rw [flat_cons]; simp)]
  have hl : gs.length ≤ (e ++ flat gs).length := by
    rw [List.length_append]
    have : ∀ gs : List Group, gs.length ≤ (flat gs).length := by
      intro gs
      induction gs with
      | nil => simp
      | cons g gs ih => rw [flat_cons]; simp; omega
    have := this gs
    omega
  obtain ⟨g, e', q1, q2⟩ := boundaryLoop_spec gs _ 0 e sot h hg he hl
  rw [q1]
  obtain ⟨w, q3⟩ := end_of_extend q2 (drop_WF hg) g
  exact ⟨w, by rw [bind_ok, q3]; rfl⟩

/-- A nonempty text of Extend and Format characters only. -/
theorem find_next_ext {e : List Nat} (he : AllExt prop e) : find_next_boundary prop e = .ok [] := by
  unfold find_next_boundary
  split
  · rfl
  · rename_i h
    obtain ⟨w, rest, rfl⟩ : ∃ w rest, e = w :: rest := by
      cases e with
      | nil => exact absurd rfl h
      | cons w r => exact ⟨w, r, rfl⟩
    have : skip_to_next prop (0 :: w :: rest) = [] := by
      have := skip_next (x := 0) he (gs := []) (by simp [WF])
      simpa [flat] using this
    rw [boundaryLoop.eq_def]
    simp only
    rw [this, show skip_to_next prop [] = [] from rfl, show skip_twice prop [] = [] from rfl,
      show char_property prop [] = eot from rfl, continues_eot]
    rfl

/-! ## Segments -/

def prepend (p : List Nat) : List (List Nat) → List (List Nat)
  | [] => [p]
  | s :: ss => (p ++ s) :: ss

/-- The segments of the groups, decided as in the loop. -/
def segs (prop : Nat → WB) (b : WB) : List Group → List (List Nat)
  | [] => []
  | g :: gs =>
    if continues b (prop g.1) ((props prop gs).headD eot) ((props prop gs).tail.headD eot) then
      prepend (grp g) (segs prop (prop g.1) gs)
    else grp g :: segs prop sot gs

theorem segs_first : ∀ (gs : List Group) (b : WB), gs ≠ [] →
    segs prop b gs = flat (gs.take (segLen prop b gs)) :: segs prop sot (gs.drop (segLen prop b gs)) := by
  intro gs
  induction gs with
  | nil => intro _ h; exact absurd rfl h
  | cons g gs ih =>
    intro b _
    rw [segs, segLen]
    split
    · rename_i hc
      cases gs with
      | nil =>
        rw [show (props prop []).headD eot = eot from rfl, continues_eot] at hc
        cases hc
      | cons g' gs =>
        rw [ih _ (by simp)]
        simp only [prepend, List.take_succ_cons, List.drop_succ_cons]
        rfl
    · simp [flat]

theorem segLen_pos {gs : List Group} (h : gs ≠ []) (b : WB) : 1 ≤ segLen prop b gs := by
  cases gs with
  | nil => exact absurd rfl h
  | cons g gs => unfold segLen; split <;> omega

theorem flat_append (a b : List Group) : flat (a ++ b) = flat a ++ flat b := List.flatMap_append

theorem flat_take_drop (n : Nat) (gs : List Group) : flat (gs.take n) ++ flat (gs.drop n) = flat gs := by
  rw [← flat_append, List.take_append_drop]

/-! ## The string of a word -/

theorem storeBytes_spec : ∀ (bytes pre post : List Nat), bytes.length ≤ post.length →
    storeBytes bytes pre.length (pre ++ post) = .ok (pre ++ bytes ++ post.drop bytes.length) := by
  intro bytes
  induction bytes with
  | nil => intro pre post _; simp [storeBytes]
  | cons x bytes ih =>
    intro pre post h
    cases post with
    | nil => simp at h
    | cons y post =>
      unfold storeBytes wr
      rw [if_pos (by simp), bind_ok]
      have e1 : (pre ++ y :: post).set pre.length x = (pre ++ [x]) ++ post := by simp
      have e2 : pre.length + 1 = (pre ++ [x]).length := by simp
      rw [e1, e2, ih (pre ++ [x]) post (by simpa using h)]
      simp

theorem copy_spec : ∀ (cs pre post : List Nat), post.length = (cs.flatMap encode_char).length + 1 →
    copy_into_buffer cs pre.length (pre ++ post) = .ok (pre ++ cs.flatMap encode_char ++ [0]) := by
  intro cs
  induction cs with
  | nil =>
    intro pre post h
    obtain ⟨y, rfl⟩ : ∃ y, post = [y] := List.length_eq_one_iff.1 (by simpa using h)
    unfold copy_into_buffer wr
    simp
  | cons v vs ih =>
    intro pre post h
    rw [List.flatMap_cons, List.length_append] at h
    unfold copy_into_buffer
    rw [storeBytes_spec _ _ _ (by omega), bind_ok]
    have e2 : pre.length + (encode_char v).length = (pre ++ encode_char v).length := by simp
    rw [e2, ih _ _ (by rw [List.length_drop]; omega)]
    simp

theorem utf8_length : ∀ (cs : List Nat), (∀ v ∈ cs, v < 0x110000) → find_utf8_length cs = .ok (cs.flatMap encode_char).length := by
  intro cs
  induction cs with
  | nil => intro _; rfl
  | cons v vs ih =>
    intro h
    have hv : (encode_char v).length ≠ 0 := by
      have := h v (by simp)
      unfold encode_char
      split; simp
      split; simp
      split; simp
      simp
    unfold find_utf8_length
    rw [if_neg hv, ih (fun x hx => h x (by simp [hx])), bind_ok, List.flatMap_cons, List.length_append]
    rfl

theorem append_word_spec (nfc : List Nat → Option (List Nat)) (junk : Nat) (cs : List Nat) (h : ∀ v ∈ cs, v < 0x110000) :
    append_word nfc junk cs = .ok (nfc ((cs.flatMap encode_char).takeWhile (· ≠ 0))) := by
  unfold append_word
  rw [utf8_length cs h, bind_ok]
  have := copy_spec cs [] (List.replicate ((cs.flatMap encode_char).length + 1) junk) (by simp)
  rw [List.length_nil, List.nil_append] at this
  rw [this, bind_ok, pure_eq]
  congr 2
  unfold Text.cstr
  rw [List.nil_append]
  generalize cs.flatMap encode_char = bs
  induction bs with
  | nil => rfl
  | cons x bs ih =>
    rw [List.cons_append, List.takeWhile_cons, List.takeWhile_cons, ih]

theorem word_start (U : Unicode) (v : Nat) : is_word_start U v = wordCats.contains (U.cat v) := by
  unfold is_word_start wordCats
  cases U.cat v <;> rfl

/-- The first segment, including Extend and Format characters at the start of the text. -/
theorem wordsLoop_spec (U : Unicode) (nfc : List Nat → Option (List Nat)) (junk : Nat) : ∀ (n : Nat) (gs : List Group), gs.length = n →
    ∀ (fuel : Nat) (e : List Nat), gs.length ≤ fuel → WF prop gs → AllExt prop e → gs ≠ [] → (∀ v ∈ e ++ flat gs, v < 0x110000) →
    wordsLoop U prop nfc junk fuel (e ++ flat gs) = .ok (wordsOf U nfc (prepend e (segs prop sot gs))) := by
  intro n
  induction n using Nat.strongRecOn with
  | _ n ih =>
    intro gs hn fuel e hf hg he h0 hv
    obtain ⟨w, q1⟩ := find_next_spec h0 hg he
    obtain ⟨k, hk⟩ : ∃ k, k = segLen prop sot gs := ⟨_, rfl⟩
    have hk1 := segLen_pos (prop := prop) h0 sot
    rw [segs_first gs sot h0, wordsLoop.eq_def]
    rw [← hk] at q1 hk1 ⊢
    simp only
    rw [q1, bind_ok]
    have hlen : (e ++ flat gs).length - (flat (gs.drop k)).length = (e ++ flat (gs.take k)).length := by
      rw [← flat_take_drop k gs]; simp; omega
    have htake : (e ++ flat gs).take ((e ++ flat gs).length - (flat (gs.drop k)).length) = e ++ flat (gs.take k) := by
      have e1 : e ++ flat gs = (e ++ flat (gs.take k)) ++ flat (gs.drop k) := by
        rw [List.append_assoc, flat_take_drop]
      rw [hlen]
      generalize (e ++ flat (gs.take k)) = X at e1
      rw [e1, List.take_left]
    have hseg : ∀ v ∈ e ++ flat (gs.take k), v < 0x110000 := by
      intro v hv'
      apply hv
      rw [← flat_take_drop k gs, ← List.append_assoc]
      exact List.mem_append_left _ hv'
    obtain ⟨v, rest, hvr, hvr'⟩ : ∃ v rest, e ++ flat gs = v :: rest ∧ ∃ rest', e ++ flat (gs.take k) = v :: rest' := by
      cases e with
      | nil =>
        cases gs with
        | nil => exact absurd rfl h0
        | cons g gs =>
          obtain ⟨k', rfl⟩ : ∃ k', k = k' + 1 := ⟨k - 1, by omega⟩
          refine ⟨g.1, _, by rw [flat_cons]; rfl, ?_⟩
          rw [List.take_succ_cons, flat_cons]
          exact ⟨_, rfl⟩
      | cons x e => exact ⟨x, _, rfl, _, rfl⟩
    cases fuel with
    | zero =>
      cases gs with
      | nil => exact absurd rfl h0
      | cons g gs => simp at hf
    | succ fuel =>
    have hnext : wordsLoop U prop nfc junk fuel (flat (gs.drop k)) = .ok (wordsOf U nfc (segs prop sot (gs.drop k))) := by
      by_cases hd : gs.drop k = []
      · rw [hd, wordsLoop.eq_def]
        simp only
        rw [show flat [] = [] from rfl, show find_next_boundary prop [] = .ok [] from rfl, bind_ok]
        rfl
      · have := ih (gs.drop k).length (by rw [List.length_drop]; have := List.length_pos_iff.2 h0; omega) _ rfl fuel [] (by rw [List.length_drop]; omega)
          (drop_WF hg) (by simp [AllExt]) hd (by
            intro v hv'
            apply hv
            rw [← flat_take_drop k gs]
            simp only [List.nil_append] at hv'
            simp [hv'])
        rw [List.nil_append] at this
        rw [this]
        have hp : ∀ l : List (List Nat), l ≠ [] → prepend [] l = l := by
          intro l hl
          cases l with
          | nil => exact absurd rfl hl
          | cons s ss => rfl
        rw [hp]
        rw [segs_first _ _ hd]
        simp
    rw [hvr] at htake ⊢
    simp only
    rw [htake, hnext]
    obtain ⟨rest', hvr'⟩ := hvr'
    rw [show prepend e (flat (gs.take k) :: segs prop sot (gs.drop k)) = (e ++ flat (gs.take k)) :: segs prop sot (gs.drop k) from rfl]
    unfold wordsOf
    rw [List.filter_cons]
    have hh : (e ++ flat (gs.take k)).head?.any (fun v => wordCats.contains (U.cat v)) = is_word_start U v := by
      rw [hvr', word_start]; rfl
    rw [hh]
    split
    · rw [append_word_spec nfc junk _ hseg]
      rfl
    · rfl

/-! ## Cuts -/

theorem prepend_flatten (p : List Nat) (l : List (List Nat)) : (prepend p l).flatten = p ++ l.flatten := by
  cases l <;> simp [prepend]

theorem cut_cons {p : List Nat} (hp : p ≠ []) {l : List (List Nat)} {before after : List Nat} (hb : before ≠ []) :
    Cut (p :: l) before after ↔ (before = p ∧ after = l.flatten) ∨ ∃ b', before = p ++ b' ∧ b' ≠ [] ∧ Cut l b' after := by
  constructor
  · rintro ⟨s1, s2, h1, rfl, rfl⟩
    cases s1 with
    | nil => exact absurd rfl hb
    | cons s s1 =>
      rw [List.cons_append, List.cons.injEq] at h1
      obtain ⟨rfl, rfl⟩ := h1
      by_cases h : s1.flatten = []
      · left
        rw [List.flatten_cons, h, List.flatten_append, h]
        simp
      · exact .inr ⟨s1.flatten, rfl, h, s1, s2, rfl, rfl, rfl⟩
  · rintro (⟨rfl, rfl⟩ | ⟨b', rfl, _, s1, s2, rfl, rfl, rfl⟩)
    · exact ⟨[before], l, rfl, by simp, rfl⟩
    · exact ⟨p :: s1, s2, rfl, rfl, rfl⟩

theorem cut_prepend {p : List Nat} {l : List (List Nat)} (hl : ∃ s ss, l = s :: ss ∧ s ≠ []) {before after : List Nat} (hb : before ≠ []) :
    Cut (prepend p l) before after ↔ ∃ b', before = p ++ b' ∧ b' ≠ [] ∧ Cut l b' after := by
  obtain ⟨s, ss, rfl, hs⟩ := hl
  rw [show prepend p (s :: ss) = (p ++ s) :: ss from rfl]
  constructor
  · rintro ⟨s1, s2, h1, rfl, rfl⟩
    cases s1 with
    | nil => exact absurd rfl hb
    | cons t s1 =>
      rw [List.cons_append, List.cons.injEq] at h1
      obtain ⟨rfl, rfl⟩ := h1
      exact ⟨s ++ s1.flatten, by simp, by simp [hs], s :: s1, s2, rfl, rfl, rfl⟩
  · rintro ⟨b', rfl, hb', s1, s2, h1, rfl, rfl⟩
    cases s1 with
    | nil => exact absurd rfl hb'
    | cons t s1 =>
      rw [List.cons_append, List.cons.injEq] at h1
      obtain ⟨rfl, rfl⟩ := h1
      exact ⟨(p ++ s) :: s1, s2, rfl, by simp, rfl⟩

theorem grp_ne (g : Group) : grp g ≠ [] := by simp [grp]

theorem segs_nonempty : ∀ (gs : List Group) (b : WB), ∀ s ∈ segs prop b gs, s ≠ [] := by
  intro gs
  induction gs with
  | nil => intro b s h; simp [segs] at h
  | cons g gs ih =>
    intro b s h
    unfold segs at h
    split at h
    · cases hq : segs prop (prop g.1) gs with
      | nil => rw [hq] at h; simp [prepend] at h; rw [h]; exact grp_ne g
      | cons t ts =>
        rw [hq] at h
        simp only [prepend, List.mem_cons] at h
        rcases h with h | h
        · rw [h]; simp [grp]
        · exact ih _ s (by rw [hq]; simp [h])
    · rcases List.mem_cons.1 h with h | h
      · rw [h]; exact grp_ne g
      · exact ih _ s h

theorem segs_flatten : ∀ (gs : List Group) (b : WB), (segs prop b gs).flatten = flat gs := by
  intro gs
  induction gs with
  | nil => intro b; rfl
  | cons g gs ih =>
    intro b
    unfold segs
    split
    · rw [prepend_flatten, ih]; rfl
    · rw [List.flatten_cons, ih]; rfl

theorem segs_head {gs : List Group} (h : gs ≠ []) (b : WB) : ∃ s ss, segs prop b gs = s :: ss ∧ s ≠ [] := by
  refine ⟨_, _, segs_first gs b h, ?_⟩
  exact segs_nonempty (prop := prop) gs b _ (by rw [segs_first gs b h]; simp)

/-- The properties of the base characters. -/
def bases (prop : Nat → WB) (s : List Nat) : List WB := (s.map prop).filter (fun p => !isExt p)

theorem bases_append (s t : List Nat) : bases prop (s ++ t) = bases prop s ++ bases prop t := by
  unfold bases; rw [List.map_append, List.filter_append]

theorem bases_ext {e : List Nat} (he : AllExt prop e) : bases prop e = [] := by
  unfold bases
  rw [List.filter_eq_nil_iff]
  intro p hp
  obtain ⟨x, hx, rfl⟩ := List.mem_map.1 hp
  have := he x hx
  unfold E at this
  simp [this]

theorem bases_grp {g : Group} (h1 : E prop g.1 = false) (h2 : AllExt prop g.2) : bases prop (grp g) = [prop g.1] := by
  have : grp g = [g.1] ++ g.2 := rfl
  rw [this, bases_append, bases_ext h2]
  unfold bases
  unfold E at h1
  simp [h1]

theorem bases_flat {gs : List Group} (h : WF prop gs) : bases prop (flat gs) = props prop gs := by
  induction gs with
  | nil => rfl
  | cons g gs ih =>
    have : flat (g :: gs) = grp g ++ flat gs := rfl
    rw [this, bases_append, bases_grp (h g (by simp)).1 (h g (by simp)).2, ih (tail_WF h)]
    rfl

/-- Cuts are where the rules for the whole text demand a boundary; `L` are the base characters to the left. -/
theorem segs_cut : ∀ (gs : List Group) (b : WB) (L : List WB), WF prop gs →
    (b = L.headD sot ∨ b = sot ∧ (L = [] ∨ boundary L (props prop gs) = true)) →
    ∀ before after, before ++ after = flat gs → before ≠ [] → after ≠ [] →
    (Cut (segs prop b gs) before after ↔
      (!(isExt ((after.map prop).headD Other)) && boundary ((bases prop before).reverse ++ L) (bases prop after)) = true) := by
  intro gs
  induction gs with
  | nil =>
    intro b L _ _ before after h hb _
    have : before = [] := by
      have := congrArg List.length h
      simp [flat] at this
      exact this.1
    exact absurd this hb
  | cons g gs ih =>
    intro b L hg hL before after h hb ha
    have hg1 := hg g (by simp)
    have hgs := tail_WF hg
    have hflat : flat (g :: gs) = grp g ++ flat gs := rfl
    rw [hflat] at h
    have atEnd : before = grp g → after = flat gs → (Cut (segs prop b (g :: gs)) before after ↔
        (!(isExt ((after.map prop).headD Other)) && boundary ((bases prop before).reverse ++ L) (bases prop after)) = true) := by
      intro hb1 ha1
      rw [ha1] at ha ⊢
      rw [hb1, bases_grp hg1.1 hg1.2, bases_flat hgs]
      cases gs with
      | nil => exact absurd rfl ha
      | cons g' gs =>
        have hn := (hgs g' (by simp)).1
        have e1 : ((flat (g' :: gs)).map prop).headD Other = prop g'.1 := rfl
        unfold E at hn
        rw [e1, hn]
        have hdec := decide_eq b (prop g.1) (prop g'.1) L (props prop gs) (by
          rcases hL with hL | ⟨hL1, hL2⟩
          · exact .inl hL
          · refine .inr ⟨hL1, ?_⟩
            rcases hL2 with hL2 | hL2
            · exact .inl hL2
            · exact .inr hL2)
        have e2 : props prop (g' :: gs) = prop g'.1 :: props prop gs := rfl
        unfold segs
        rw [e2, List.headD_cons, List.tail_cons, hdec]
        cases hB : boundary (prop g.1 :: L) (prop g'.1 :: props prop gs) with
        | false =>
          simp only [Bool.not_false, if_true]
          rw [cut_prepend (segs_head (by simp) _) (grp_ne g)]
          simp only [List.reverse_singleton, List.singleton_append, hB, Bool.not_false, Bool.true_and]
          constructor
          · rintro ⟨b', h1, h2, _⟩
            have := congrArg List.length h1
            simp at this
            exact absurd this h2
          · intro h; cases h
        | true =>
          rw [if_neg (by simp), cut_cons (grp_ne g) (grp_ne g)]
          simp only [List.reverse_singleton, List.singleton_append, hB, Bool.not_false, Bool.true_and]
          constructor
          · intro _; trivial
          · intro _; exact .inl ⟨trivial, (segs_flatten _ _).symm⟩
    -- where the position lies
    rcases List.append_eq_append_iff.1 h with ⟨c, hc1, hc2⟩ | ⟨c, hc1, hc2⟩
    · -- grp g = before ++ c
      by_cases hc : c = []
      · subst hc
        exact atEnd (by rw [hc1, List.append_nil]) (by rw [hc2, List.nil_append])
      · -- inside the group
        have hx : ∃ x c', c = x :: c' := by
          cases c with
          | nil => exact absurd rfl hc
          | cons x c' => exact ⟨x, c', rfl⟩
        obtain ⟨x, c', rfl⟩ := hx
        have hxe : E prop x = true := by
          cases before with
          | nil => exact absurd rfl hb
          | cons y before =>
            unfold grp at hc1
            rw [List.cons_append, List.cons.injEq] at hc1
            exact hg1.2 x (by rw [hc1.2]; simp)
        have e1 : (after.map prop).headD Other = prop x := by rw [hc2]; rfl
        unfold E at hxe
        rw [e1, hxe]
        simp only [Bool.not_true, Bool.false_and]
        have hlen : before.length < (grp g).length := by rw [hc1]; simp
        have hno : ¬ Cut (segs prop b (g :: gs)) before after := by
          unfold segs
          split
          · rename_i hcon
            cases gs with
            | nil =>
              rw [show (props prop []).headD eot = eot from rfl, continues_eot] at hcon
              cases hcon
            | cons g' gs =>
              rw [cut_prepend (segs_head (by simp) _) hb]
              rintro ⟨b', h1, h2, _⟩
              rw [h1] at hlen
              simp at hlen
              omega
          · rw [cut_cons (grp_ne g) hb]
            rintro (⟨h1, _⟩ | ⟨b', h1, _, _⟩)
            · rw [h1] at hlen; omega
            · rw [h1] at hlen; simp at hlen; omega
        simp [hno]
    · -- before = grp g ++ c
      by_cases hc : c = []
      · subst hc
        exact atEnd (by rw [hc1, List.append_nil]) (by rw [hc2, List.nil_append])
      · -- in a later group
        subst hc1
        rw [bases_append, bases_grp hg1.1 hg1.2, List.reverse_append, List.reverse_singleton, List.append_assoc, List.singleton_append]
        cases gs with
        | nil =>
          rw [show flat [] = [] from rfl] at hc2
          have := congrArg List.length hc2
          simp at this
          exact absurd (List.eq_nil_of_length_eq_zero (by omega)) hc
        | cons g' gs =>
          have hdec := decide_eq b (prop g.1) (prop g'.1) L (props prop gs) (by
            rcases hL with hL | ⟨hL1, hL2⟩
            · exact .inl hL
            · refine .inr ⟨hL1, ?_⟩
              rcases hL2 with hL2 | hL2
              · exact .inl hL2
              · exact .inr hL2)
          have e2 : props prop (g' :: gs) = prop g'.1 :: props prop gs := rfl
          unfold segs
          rw [e2, List.headD_cons, List.tail_cons, hdec]
          have hinj : ∀ b', grp g ++ c = grp g ++ b' ↔ c = b' := fun b' => List.append_right_inj _
          cases hB : boundary (prop g.1 :: L) (prop g'.1 :: props prop gs) with
          | false =>
            simp only [Bool.not_false, if_true]
            rw [cut_prepend (segs_head (by simp) _) hb,
              ← ih (prop g.1) (prop g.1 :: L) hgs (.inl rfl) c after hc2.symm hc ha]
            constructor
            · rintro ⟨b', h1, _, h2⟩
              rw [(hinj b').1 h1]; exact h2
            · intro h; exact ⟨c, rfl, hc, h⟩
          | true =>
            rw [if_neg (by simp), cut_cons (grp_ne g) hb,
              ← ih sot (prop g.1 :: L) hgs (.inr ⟨rfl, .inr hB⟩) c after hc2.symm hc ha]
            constructor
            · rintro (⟨h1, _⟩ | ⟨b', h1, _, h2⟩)
              · have := congrArg List.length h1
                simp at this
                exact absurd this hc
              · rw [(hinj b').1 h1]; exact h2
            · intro h; exact .inr ⟨c, rfl, hc, h⟩

/-- The segments of a text with leading Extend and Format characters `e`. -/
theorem segs_cutAt {e : List Nat} {gs : List Group} (he : AllExt prop e) (hg : WF prop gs) (h0 : gs ≠ []) :
    CutAt (SkipBreak prop) (e ++ flat gs) (prepend e (segs prop sot gs)) := by
  obtain ⟨s, ss, hs, hs'⟩ := segs_head (prop := prop) h0 sot
  refine ⟨by rw [prepend_flatten, segs_flatten], ?_, ?_⟩
  · intro t ht
    rw [hs] at ht
    simp only [prepend, List.mem_cons] at ht
    rcases ht with ht | ht
    · rw [ht]; simp [hs']
    · exact segs_nonempty gs sot t (by rw [hs]; simp [ht])
  · intro before after h hb ha
    rw [cut_prepend ⟨s, ss, hs, hs'⟩ hb]
    unfold SkipBreak
    rcases List.append_eq_append_iff.1 h with ⟨c, hc1, hc2⟩ | ⟨c, hc1, hc2⟩
    · -- e = before ++ c
      have hbe : AllExt prop before := fun x hx => he x (by rw [hc1]; simp [hx])
      have := bases_ext hbe
      unfold bases at this
      rw [this, List.reverse_nil]
      simp only [boundary, Bool.and_false]
      constructor
      · rintro ⟨b', h1, h2, _⟩
        have := congrArg List.length h1
        have h3 := congrArg List.length hc1
        have h4 := List.length_pos_iff.2 h2
        simp at this h3
        omega
      · intro h; cases h
    · subst hc1
      by_cases hc : c = []
      · subst hc
        have := bases_ext he
        unfold bases at this
        rw [List.append_nil, this, List.reverse_nil]
        simp only [boundary, Bool.and_false]
        constructor
        · rintro ⟨b', h1, h2, _⟩
          have := congrArg List.length h1
          simp at this
          exact absurd this h2
        · intro h; cases h
      · have := segs_cut gs sot [] hg (.inr ⟨rfl, .inl rfl⟩) c after hc2.symm hc ha
        rw [List.append_nil] at this
        have e1 := bases_append (prop := prop) e c
        rw [bases_ext he, List.nil_append] at e1
        unfold bases at e1 this
        rw [e1, ← this]
        constructor
        · rintro ⟨b', h1, _, h2⟩
          rw [List.append_right_inj] at h1
          rw [h1]; exact h2
        · intro h; exact ⟨c, rfl, hc, h⟩

end

end Ocr.Word
