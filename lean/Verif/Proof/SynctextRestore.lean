import Verif.Proof.Synctext

/-!
# Restoring the texts from a printout of synctext
-/

namespace Ocr.Synctext
open Text Sync Res

/-- No braces. -/
def Braceless (l : List Nat) : Prop := 123 ∉ l ∧ 125 ∉ l

theorem Braceless.append {a b : List Nat} (ha : Braceless a) (hb : Braceless b) : Braceless (a ++ b) := by
  unfold Braceless at *
  simp only [List.mem_append]
  tauto

/-- Text before a brace and text inside braces. -/
def flat (Q : List (List Nat × List Nat)) : List Nat := Q.flatMap (fun q => q.1 ++ 123 :: (q.2 ++ [125]))

theorem flat_append (a b : List (List Nat × List Nat)) : flat (a ++ b) = flat a ++ flat b := List.flatMap_append

def Clean (Q : List (List Nat × List Nat)) : Prop := ∀ q ∈ Q, Braceless q.1 ∧ Braceless q.2

theorem Clean.append {a b : List (List Nat × List Nat)} (ha : Clean a) (hb : Clean b) : Clean (a ++ b) := by
  intro q hq
  rcases List.mem_append.1 hq with h | h
  · exact ha q h
  · exact hb q h

theorem not_brace {l : List Nat} (h : Braceless l) : ∀ x ∈ l, (decide (x = 123) || decide (x = 125)) = false := by
  intro x hx
  have h1 : x ≠ 123 := by rintro rfl; exact h.1 hx
  have h2 : x ≠ 125 := by rintro rfl; exact h.2 hx
  simp [h1, h2]

theorem split_flat {last : List Nat} (hl : Braceless last) : ∀ (Q : List (List Nat × List Nat)), Clean Q →
    (flat Q ++ last).splitOnP (fun b => b = 123 || b = 125) = Q.flatMap (fun q => [q.1, q.2]) ++ [last] := by
  intro Q
  induction Q with
  | nil =>
    intro _
    show last.splitOnP _ = _
    rw [List.splitOnP_eq_singleton (not_brace hl)]
    rfl
  | cons q Q ih =>
    intro hQ
    have hq := hQ q (by simp)
    have e : flat (q :: Q) ++ last = q.1 ++ 123 :: (q.2 ++ 125 :: (flat Q ++ last)) := by
      unfold flat; simp
    rw [e, List.splitOnP_append_cons_of_forall_mem (not_brace hq.1) 123 (by decide),
      List.splitOnP_append_cons_of_forall_mem (not_brace hq.2) 125 (by decide), ih (fun q h => hQ q (by simp [h]))]
    simp

theorem even_part (last : List Nat) : ∀ (Q : List (List Nat × List Nat)) (i : Nat),
    (Q.flatMap (fun q => [q.1, q.2]) ++ [last]).getD (2 * i) [] = (Q.map Prod.fst ++ [last]).getD i [] := by
  intro Q
  induction Q with
  | nil => intro i; cases i <;> simp [Nat.mul_succ]
  | cons q Q ih =>
    intro i
    cases i with
    | zero => simp
    | succ i =>
      have := ih i
      simp only [List.flatMap_cons, List.map_cons, List.cons_append, Nat.mul_succ, List.getD_cons_succ, List.nil_append]
      exact this

theorem odd_part (last : List Nat) : ∀ (Q : List (List Nat × List Nat)) (i : Nat),
    (Q.flatMap (fun q => [q.1, q.2]) ++ [last]).getD (2 * i + 1) [] = (Q.map Prod.snd).getD i [] := by
  intro Q
  induction Q with
  | nil => intro i; simp
  | cons q Q ih =>
    intro i
    cases i with
    | zero => simp
    | succ i =>
      have := ih i
      simp only [List.flatMap_cons, List.map_cons, List.cons_append, Nat.mul_succ, List.getD_cons_succ, List.nil_append]
      exact this

theorem parts_length (last : List Nat) (Q : List (List Nat × List Nat)) :
    (Q.flatMap (fun q => [q.1, q.2]) ++ [last]).length / 2 = Q.length := by
  have : (Q.flatMap (fun q => [q.1, q.2])).length = 2 * Q.length := by
    induction Q with
    | nil => rfl
    | cons q Q ih => simp only [List.flatMap_cons, List.length_append, List.length_cons, List.length_nil, ih]; omega
  simp only [List.length_append, this, List.length_cons, List.length_nil]
  omega

/-- The overview. -/
theorem overview_flat : ∀ (ns : List (List Nat × List Nat)) (pre : List Nat), Braceless pre → Clean ns →
    ∃ q l, Clean q ∧ Braceless l ∧ q.length = ns.length ∧ q.map Prod.fst ++ [l] = pre :: ns.map Prod.snd ∧
      pre ++ ns.flatMap (fun n => ascii "{" ++ n.1 ++ ascii "}" ++ n.2) = flat q ++ l := by
  intro ns
  induction ns with
  | nil => intro pre hp _; exact ⟨[], pre, by simp [Clean], hp, rfl, rfl, by simp [flat]⟩
  | cons n ns ih =>
    intro pre hp hn
    obtain ⟨q, l, h1, h2, h3, h4, h5⟩ := ih n.2 (hn n (by simp)).2 (fun x h => hn x (by simp [h]))
    refine ⟨(pre, n.1) :: q, l, ?_, h2, by simp [h3], by simp [h4], ?_⟩
    · intro x hx
      rcases List.mem_cons.1 hx with rfl | hx
      · exact ⟨hp, (hn n (by simp)).1⟩
      · exact h1 x hx
    · have e1 : ascii "{" = [123] := by decide
      have e2 : ascii "}" = [125] := by decide
      rw [List.flatMap_cons]
      have e3 : flat ((pre, n.1) :: q) ++ l = pre ++ 123 :: (n.1 ++ [125]) ++ (flat q ++ l) := by unfold flat; simp
      rw [e3, ← h5, e1, e2]
      simp

theorem shift {α β : Type} (x : List β) (f : α → List β) : ∀ (l : List α),
    x ++ l.flatMap (fun a => f a ++ x) = l.flatMap (fun a => x ++ f a) ++ x := by
  intro l
  induction l with
  | nil => simp
  | cons a l ih =>
    rw [List.flatMap_cons, List.flatMap_cons, List.append_assoc, List.append_assoc, ih]
    simp

/-- Reading constant-length blocks. -/
theorem blocks {α β : Type} (f : α → List β) (d : β) (L : Nat) : ∀ (l : List α), (∀ a ∈ l, (f a).length = L) → ∀ (i : Nat) (h : i < l.length) (r : Nat), r < L →
    (l.flatMap f).getD (i * L + r) d = (f l[i]).getD r d := by
  intro l
  induction l with
  | nil => intro _ i h; simp at h
  | cons a l ih =>
    intro hl i h r hr
    rw [List.flatMap_cons]
    have ha := hl a (by simp)
    cases i with
    | zero =>
      rw [Nat.zero_mul, Nat.zero_add, List.getD_eq_getElem?_getD, List.getElem?_append_left (by omega), ← List.getD_eq_getElem?_getD]
      rfl
    | succ i =>
      rw [List.getD_eq_getElem?_getD, List.getElem?_append_right (by rw [ha, Nat.succ_mul]; omega), ← List.getD_eq_getElem?_getD, ha,
        show (i + 1) * L + r - L = i * L + r by rw [Nat.succ_mul]; omega]
      exact ih (fun a h => hl a (by simp [h])) i (by simpa using h) r hr

theorem blocks_length {α β : Type} (f : α → List β) (L : Nat) : ∀ (l : List α), (∀ a ∈ l, (f a).length = L) →
    (l.flatMap f).length = l.length * L := by
  intro l
  induction l with
  | nil => intro _; simp
  | cons a l ih =>
    intro hl
    rw [List.flatMap_cons, List.length_append, hl a (by simp), ih (fun a h => hl a (by simp [h])), List.length_cons, Nat.succ_mul]
    omega

/-! ## Indentation -/

theorem unindent_append {w : Nat} {a : List Nat} (h : 10 ∉ a) (b : List Nat) : unindent w 0 (a ++ b) = a ++ unindent w 0 b := by
  induction a with
  | nil => rfl
  | cons x a ih =>
    have : x ≠ 10 := by rintro rfl; simp at h
    rw [List.cons_append, unindent, if_neg this, ih (by intro h'; exact h (by simp [h']))]
    rfl

theorem unindent_skip {w : Nat} (b : List Nat) : ∀ (k : Nat), unindent w k (List.replicate k 32 ++ b) = unindent w 0 b := by
  intro k
  induction k with
  | zero => rfl
  | succ k ih => rw [List.replicate_succ, List.cons_append, unindent, ih]

theorem drawn_no10 {U : Unicode} (F : UnicodeFacts U) {v : Nat} (h : v ≠ 10) : 10 ∉ drawn U v := by
  intro hm
  rcases (drawn_bytes F v 10 hm).2 with h' | h' | h' | h' | h'
  · exact h h'.symm
  · omega
  · omega
  · omega
  · unfold HexDig at h'; omega

theorem unindent_text {U : Unicode} (F : UnicodeFacts U) (w : Nat) (cs : List Nat) :
    unindent w 0 (cs.flatMap (fun v => drawn U v ++ if v = 10 then List.replicate w 32 else [])) = cs.flatMap (drawn U) := by
  induction cs with
  | nil => rfl
  | cons v cs ih =>
    rw [List.flatMap_cons, List.flatMap_cons, List.append_assoc]
    by_cases h : v = 10
    · subst h
      have e : drawn U 10 = [10] := rfl
      rw [e, if_pos rfl, List.singleton_append, unindent, if_pos rfl, unindent_skip, ih]
      rfl
    · rw [unindent_append (drawn_no10 F h), if_neg h, List.nil_append, ih]

/-! ## The printout -/

theorem drawn_braceless {U : Unicode} (F : UnicodeFacts U) {v : Nat} (h1 : v ≠ 123) (h2 : v ≠ 125) : Braceless (drawn U v) := by
  constructor
  · intro hm
    rcases (drawn_bytes F v _ hm).2 with h' | h' | h' | h' | h'
    · exact h1 h'.symm
    · omega
    · omega
    · omega
    · unfold HexDig at h'; omega
  · intro hm
    rcases (drawn_bytes F v _ hm).2 with h' | h' | h' | h' | h'
    · exact h2 h'.symm
    · omega
    · omega
    · omega
    · unfold HexDig at h'; omega

theorem decDigits_braceless (v : Nat) : Braceless (decDigits v) := by
  have : ∀ b ∈ decDigits v, 48 ≤ b ∧ b < 58 := by
    induction v using Nat.strongRecOn with
    | _ v ih =>
      rw [decDigits]
      split
      · intro b hb; simp at hb; omega
      · intro b hb
        rcases List.mem_append.1 hb with hb | hb
        · exact ih (v / 10) (by omega) b hb
        · simp at hb; omega
  constructor
  · intro h; have := this _ h; omega
  · intro h; have := this _ h; omega

theorem replicate_braceless (k : Nat) : Braceless (List.replicate k 32) := by
  constructor <;> intro h <;> have := List.eq_of_mem_replicate h <;> omega

theorem flatMap_braceless {α : Type} {f : α → List Nat} {l : List α} (h : ∀ a ∈ l, Braceless (f a)) : Braceless (l.flatMap f) := by
  constructor
  · intro hm
    obtain ⟨a, ha, hb⟩ := List.mem_flatMap.1 hm
    exact (h a ha).1 hb
  · intro hm
    obtain ⟨a, ha, hb⟩ := List.mem_flatMap.1 hm
    exact (h a ha).2 hb

/-- A document without braces, with one version for each of `n` names. -/
structure Tidy (D : Document) (names : List (List Nat)) : Prop where
  width : ∀ x ∈ D.notes, x.1.length = names.length
  names : ∀ f ∈ names, Braceless f
  head  : ∀ c ∈ D.head, c.value ≠ 123 ∧ c.value ≠ 125
  notes : ∀ x ∈ D.notes, (∀ v ∈ x.1, ∀ c ∈ v, c.value ≠ 123 ∧ c.value ≠ 125) ∧ ∀ c ∈ x.2, c.value ≠ 123 ∧ c.value ≠ 125

/-- The text of a version as it is printed. -/
def body (w : Ch → List Nat) (m : Nat) (cs : List Ch) : List Nat :=
  cs.flatMap (fun c => w c ++ if c.value = 10 then List.replicate (m + 2) 32 else [])

/-- The list of differences. -/
def pairs (w : Ch → List Nat) (m : Nat) (names : List (List Nat)) (n : (List (List Ch) × List Ch) × Nat) : List (List Nat × List Nat) :=
  (10 :: rule, decDigits n.2) :: (names.zip n.1.1).map (fun x => (10 :: (x.1 ++ List.replicate (m - x.1.length) 32 ++ [32]), body w m x.2))

theorem print_flat (D : Document) (w : Ch → List Nat) (names : List (List Nat)) :
    D.print w names = rule ++ [10] ++ D.head.flatMap w ++
      ((D.notes.zipIdx 1).map (fun n => (decDigits n.2, n.1.2.flatMap w))).flatMap (fun n => ascii "{" ++ n.1 ++ ascii "}" ++ n.2) ++
      flat ((D.notes.zipIdx 1).flatMap (pairs w ((names.map List.length).foldr max 0) names)) ++ (10 :: rule) := by
  unfold Document.print Document.overview
  simp only
  generalize (names.map List.length).foldr max 0 = m
  have hv : ∀ vs : List (List Ch), 10 :: (List.zipWith (version w m) names vs).flatten =
      flat ((names.zip vs).map (fun x => (10 :: (x.1 ++ List.replicate (m - x.1.length) 32 ++ [32]), body w m x.2))) ++ [10] := by
    intro vs
    have h := shift [10] (fun x : List Nat × List Ch => x.1 ++ List.replicate (m - x.1.length) 32 ++ [32] ++ 123 :: (body w m x.2 ++ [125])) (names.zip vs)
    have e1 : (List.zipWith (version w m) names vs).flatten =
        (names.zip vs).flatMap (fun x => x.1 ++ List.replicate (m - x.1.length) 32 ++ [32] ++ 123 :: (body w m x.2 ++ [125]) ++ [10]) := by
      rw [← List.map_uncurry_zip_eq_zipWith, ← List.flatMap_def]
      refine congrArg (fun f => List.flatMap f _) ?_
      funext x
      have e2 : ascii " {" = [32, 123] := by decide
      have e3 : ascii "}\n" = [125, 10] := by decide
      show version w m x.1 x.2 = _
      unfold version body
      rw [e2, e3]
      simp
    rw [e1]
    refine h.trans ?_
    unfold flat
    rw [List.flatMap_map]
    simp
  have h := shift [10] (fun n : (List (List Ch) × List Ch) × Nat => rule ++ ascii "{" ++ decDigits n.2 ++ ascii "}" ++
    flat ((names.zip n.1.1).map (fun x => (10 :: (x.1 ++ List.replicate (m - x.1.length) 32 ++ [32]), body w m x.2)))) (D.notes.zipIdx 1)
  have e4 : (D.notes.zipIdx 1).flatMap (fun n => rule ++ ascii "{" ++ decDigits n.2 ++ ascii "}\n" ++
      (List.zipWith (version w m) names n.1.1).flatten) =
      (D.notes.zipIdx 1).flatMap (fun n => rule ++ ascii "{" ++ decDigits n.2 ++ ascii "}" ++
        flat ((names.zip n.1.1).map (fun x => (10 :: (x.1 ++ List.replicate (m - x.1.length) 32 ++ [32]), body w m x.2))) ++ [10]) := by
    refine congrArg (fun f => List.flatMap f _) ?_
    funext n
    have e : ascii "}\n" = ascii "}" ++ [10] := by decide
    rw [e]
    simp only [List.append_assoc, List.singleton_append]
    rw [hv]
    simp only [List.append_assoc]
  have e5 : flat ((D.notes.zipIdx 1).flatMap (pairs w m names)) = (D.notes.zipIdx 1).flatMap (fun n => [10] ++ (rule ++ ascii "{" ++ decDigits n.2 ++ ascii "}" ++
    flat ((names.zip n.1.1).map (fun x => (10 :: (x.1 ++ List.replicate (m - x.1.length) 32 ++ [32]), body w m x.2))))) := by
    unfold flat
    rw [List.flatMap_assoc]
    refine congrArg (fun f => List.flatMap f _) ?_
    funext n
    unfold pairs
    rw [List.flatMap_cons]
    have e6 : ascii "{" = [123] := by decide
    have e7 : ascii "}" = [125] := by decide
    rw [e6, e7]
    simp
  rw [e4, e5]
  have h2 : ∀ a b c : List Nat, a ++ [10] ++ b ++ c = a ++ ([10] ++ b) ++ c := by intros; simp
  rw [h2, h, List.flatMap_map]
  simp

theorem getD_left {α : Type} {a b : List α} {i : Nat} {d : α} (h : i < a.length) : (a ++ b).getD i d = a.getD i d := by
  rw [List.getD_eq_getElem?_getD, List.getElem?_append_left h, ← List.getD_eq_getElem?_getD]

theorem getD_right {α : Type} {a b : List α} {i : Nat} {d : α} : (a ++ b).getD (a.length + i) d = b.getD i d := by
  rw [List.getD_eq_getElem?_getD, List.getElem?_append_right (by omega), ← List.getD_eq_getElem?_getD]
  congr 1; omega

theorem range_flatMap {α β : Type} (l : List α) (f : α → List β) (g : Nat → List β) (h : ∀ i (hi : i < l.length), g i = f l[i]) :
    (List.range l.length).flatMap g = l.flatMap f := by
  have : (List.range l.length).map g = l.map f := by
    refine List.ext_getElem (by simp) ?_
    intro i h1 h2
    simp at h1
    simp [h i h1]
  rw [List.flatMap_def, this, ← List.flatMap_def]

theorem rule_braceless : Braceless rule := by unfold Braceless; decide
theorem rule_length : rule.length = 80 := by decide

theorem cut {a b c : List Nat} (ha : a.length = 81) (hc : c.length = 81) : ((a ++ b ++ c).drop 81).take ((a ++ b ++ c).length - 162) = b := by
  rw [List.append_assoc, List.drop_append_of_le_length (by omega), List.drop_of_length_le (by omega), List.nil_append]
  rw [List.take_append_of_le_length (by simp only [List.length_append]; omega), List.take_of_length_le (by simp only [List.length_append]; omega)]

/-- The texts can be restored from a printout without marks. -/
theorem restore_print {U : Unicode} (F : UnicodeFacts U) {D : Document} {names : List (List Nat)} (hD : Tidy D names) {t : Nat}
    (ht : t < names.length) :
    restore names.length ((names.map List.length).foldr max 0) t (D.print (shown U false) names) = (D.text t).flatMap (shown U false) := by
  have hsh : ∀ c, shown U false c = drawn U c.value := by
    intro c; unfold shown written; simp
  have hbr : ∀ cs : List Ch, (∀ c ∈ cs, c.value ≠ 123 ∧ c.value ≠ 125) → Braceless (cs.flatMap (shown U false)) := by
    intro cs h
    refine flatMap_braceless (fun c hc => ?_)
    rw [hsh]
    exact drawn_braceless F (h c hc).1 (h c hc).2
  rw [print_flat]
  generalize hm : (names.map List.length).foldr max 0 = m
  have hbody : ∀ cs : List Ch, (∀ c ∈ cs, c.value ≠ 123 ∧ c.value ≠ 125) → Braceless (body (shown U false) m cs) := by
    intro cs h
    refine flatMap_braceless (fun c hc => ?_)
    rw [hsh]
    refine (drawn_braceless F (h c hc).1 (h c hc).2).append ?_
    split
    · exact replicate_braceless _
    · simp [Braceless]
  -- the overview
  have hmem : ∀ n ∈ D.notes.zipIdx 1, n.1 ∈ D.notes := by
    intro n hn
    have := List.mem_zipIdx hn
    rw [this.2.2]
    exact List.getElem_mem _
  obtain ⟨q, l, q1, q2, q3, q4, q5⟩ := overview_flat
    ((D.notes.zipIdx 1).map (fun n => (decDigits n.2, n.1.2.flatMap (shown U false)))) (rule ++ [10] ++ D.head.flatMap (shown U false))
    ((rule_braceless.append (by simp [Braceless])).append (hbr _ hD.head)) (by
      intro x hx
      obtain ⟨n, hn, rfl⟩ := List.mem_map.1 hx
      exact ⟨decDigits_braceless _, hbr _ (hD.notes _ (hmem n hn)).2⟩)
  rw [q5]
  have q3' : q.length = D.notes.length := by rw [q3]; simp
  have q4' : q.map Prod.fst ++ [l] = (rule ++ [10] ++ D.head.flatMap (shown U false)) :: D.notes.map (fun x => x.2.flatMap (shown U false)) := by
    rw [q4, List.map_map]
    congr 1
    refine List.ext_getElem (by simp) ?_
    intro i h1 h2
    simp
  -- the list of differences
  have hP : ∀ n ∈ D.notes.zipIdx 1, (pairs (shown U false) m names n).length = names.length + 1 := by
    intro n hn
    unfold pairs
    simp [hD.width _ (hmem n hn)]
  have hC : Clean ((D.notes.zipIdx 1).flatMap (pairs (shown U false) m names)) := by
    intro x hx
    obtain ⟨n, hn, hx⟩ := List.mem_flatMap.1 hx
    unfold pairs at hx
    rcases List.mem_cons.1 hx with rfl | hx
    · refine ⟨?_, decDigits_braceless _⟩
      have : Braceless ([10] ++ rule) := Braceless.append (by simp [Braceless]) rule_braceless
      exact this
    · obtain ⟨y, hy, rfl⟩ := List.mem_map.1 hx
      have hy' := List.of_mem_zip hy
      refine ⟨?_, hbody _ ((hD.notes _ (hmem n hn)).1 _ hy'.2)⟩
      have : Braceless ([10] ++ (y.1 ++ List.replicate (m - y.1.length) 32 ++ [32])) :=
        Braceless.append (by simp [Braceless]) (((hD.names _ hy'.1).append (replicate_braceless _)).append (by simp [Braceless]))
      exact this
  have hlen := blocks_length _ _ _ hP
  have hblk := blocks (pairs (shown U false) m names) ([], []) (names.length + 1) _ hP
  rw [List.length_zipIdx] at hlen
  have hX : (10 :: rule).length = 81 := by rw [List.length_cons, rule_length]
  have hXb : Braceless (10 :: rule) := Braceless.append (a := [10]) (by simp [Braceless]) rule_braceless
  have hR : (rule ++ [10]).length = 81 := by rw [List.length_append, rule_length]; rfl
  have htext : (D.text t).flatMap (shown U false) = D.head.flatMap (shown U false) ++
      D.notes.flatMap (fun x => (x.1.getD t []).flatMap (shown U false) ++ x.2.flatMap (shown U false)) := by
    unfold Document.text
    rw [List.flatMap_append, List.flatMap_assoc]
    simp
  rw [htext]
  generalize hE : (D.notes.zipIdx 1).flatMap (pairs (shown U false) m names) = P at *
  rcases hnil : D.notes with _ | ⟨x0, ns⟩
  · -- no differences
    rw [hnil] at q3' q4' hlen
    have : P = [] := List.length_eq_zero_iff.1 (by simpa using hlen)
    subst this
    have : q = [] := List.length_eq_zero_iff.1 (by simpa using q3')
    subst this
    simp only [List.map_nil, List.nil_append, List.cons.injEq, and_true] at q4'
    unfold restore
    rw [show flat [] ++ l ++ flat [] ++ (10 :: rule) = flat [] ++ (l ++ (10 :: rule)) by simp [flat], split_flat (q2.append hXb) _ (by simp [Clean])]
    simp only [List.flatMap_nil, List.nil_append, List.length_singleton, List.append_nil]
    simp only [Nat.reduceDiv, Nat.zero_div, List.range_zero, List.flatMap_nil, List.append_nil, Nat.mul_zero, List.getD_cons_zero]
    rw [q4', List.append_assoc (rule ++ [10]), ← List.append_assoc]
    exact cut hR hX
  · -- at least one difference
    have hk : D.notes.length = ns.length + 1 := by rw [hnil]; rfl
    obtain ⟨n0, P', hP'⟩ : ∃ n0 P', P = (10 :: rule, n0) :: P' := by
      rw [← hE, hnil, List.zipIdx_cons, List.flatMap_cons]
      unfold pairs
      exact ⟨_, _, rfl⟩
    have hout : flat q ++ l ++ flat P ++ (10 :: rule) = flat (q ++ (l ++ 10 :: rule, n0) :: P') ++ (10 :: rule) := by
      rw [hP']
      unfold flat
      simp
    have hQ : Clean (q ++ (l ++ 10 :: rule, n0) :: P') := by
      refine q1.append ?_
      intro x hx
      rcases List.mem_cons.1 hx with rfl | hx
      · exact ⟨q2.append hXb, (hC (10 :: rule, n0) (by rw [hP']; simp)).2⟩
      · exact hC x (by rw [hP']; simp [hx])
    have hQl : (q ++ (l ++ 10 :: rule, n0) :: P').length = D.notes.length * (names.length + 2) := by
      have e : P.length = P'.length + 1 := by rw [hP']; rfl
      rw [List.length_append, List.length_cons, ← e, hlen, q3', Nat.mul_add, Nat.mul_add]
      omega
    have hsnd : (q ++ (l ++ 10 :: rule, n0) :: P').map Prod.snd = q.map Prod.snd ++ P.map Prod.snd := by rw [hP']; simp
    unfold restore
    rw [hout, split_flat hXb _ hQ]
    simp only [even_part, odd_part, parts_length]
    rw [hQl, Nat.mul_div_cancel _ (by omega), hsnd]
    -- the parts inside
    have hin : ∀ i (hi : i < D.notes.length), unindent (m + 2) 0 ((q.map Prod.snd ++ P.map Prod.snd).getD (D.notes.length + i * (names.length + 1) + 1 + t) []) =
        (D.notes[i].1.getD t []).flatMap (shown U false) := by
      intro i hi
      have e1 : D.notes.length + i * (names.length + 1) + 1 + t = (q.map Prod.snd).length + (i * (names.length + 1) + (1 + t)) := by
        rw [List.length_map, q3']; omega
      rw [e1, getD_right]
      have e2 := hblk i (by simpa using hi) (1 + t) (by omega)
      have e3 : (P.map Prod.snd).getD (i * (names.length + 1) + (1 + t)) [] = (P.getD (i * (names.length + 1) + (1 + t)) ([], [])).2 := by
        rw [List.getD_eq_getElem?_getD, List.getD_eq_getElem?_getD, List.getElem?_map]
        cases P[i * (names.length + 1) + (1 + t)]? <;> rfl
      rw [e3, e2, List.getElem_zipIdx]
      unfold pairs
      rw [Nat.add_comm 1 t, List.getD_cons_succ]
      have hw : D.notes[i].1.length = names.length := hD.width _ (List.getElem_mem hi)
      have e4 : ((names.zip D.notes[i].1).map (fun x => (10 :: (x.1 ++ List.replicate (m - x.1.length) 32 ++ [32]), body (shown U false) m x.2))).getD t ([], []) =
          (10 :: (names[t] ++ List.replicate (m - names[t].length) 32 ++ [32]), body (shown U false) m (D.notes[i].1.getD t [])) := by
        simp [ht, hw]
      simp only [e4]
      have e5 : ∀ cs : List Ch, body (shown U false) m cs = (cs.map Ch.value).flatMap (fun v => drawn U v ++ if v = 10 then List.replicate (m + 2) 32 else []) := by
        intro cs
        unfold body
        rw [List.flatMap_map]
        simp only [hsh]
      rw [e5, unindent_text F, List.flatMap_map, show shown U false = fun c => drawn U c.value from funext hsh]
    -- the parts outside
    have hql : q.length = ns.length + 1 := by omega
    have hfst : ∀ i, i ≤ ns.length → ((q ++ (l ++ 10 :: rule, n0) :: P').map Prod.fst ++ [10 :: rule]).getD i [] =
        (((rule ++ [10] ++ D.head.flatMap (shown U false)) :: D.notes.map (fun x => x.2.flatMap (shown U false)))).getD i [] := by
      intro i hi
      rw [← q4', List.map_append, List.append_assoc, getD_left (by rw [List.length_map]; omega), getD_left (by rw [List.length_map]; omega)]
    have hlast : ((q ++ (l ++ 10 :: rule, n0) :: P').map Prod.fst ++ [10 :: rule]).getD (ns.length + 1) [] = l ++ 10 :: rule := by
      rw [List.map_append, List.append_assoc, show ns.length + 1 = (q.map Prod.fst).length + 0 by rw [List.length_map]; omega, getD_right]
      simp
    have hlt : ns.length < D.notes.length := by omega
    have hl : l = D.notes[ns.length].2.flatMap (shown U false) := by
      have h1 : (q.map Prod.fst ++ [l]).getD (ns.length + 1) [] = l := by
        rw [show ns.length + 1 = (q.map Prod.fst).length + 0 by rw [List.length_map]; omega, getD_right]
        rfl
      rw [q4', List.getD_cons_succ] at h1
      rw [← h1]
      simp [hlt]
    have hcons : ∀ i (hi : i < D.notes.length), (((rule ++ [10] ++ D.head.flatMap (shown U false)) ::
        D.notes.map (fun x => x.2.flatMap (shown U false)))).getD (i + 1) [] = D.notes[i].2.flatMap (shown U false) := by
      intro i hi
      rw [List.getD_cons_succ]
      simp [hi]
    have hwhole : ((q ++ (l ++ 10 :: rule, n0) :: P').map Prod.fst ++ [10 :: rule]).getD 0 [] ++ (List.range D.notes.length).flatMap (fun i =>
        unindent (m + 2) 0 ((q.map Prod.snd ++ P.map Prod.snd).getD (D.notes.length + i * (names.length + 1) + 1 + t) []) ++
          ((q ++ (l ++ 10 :: rule, n0) :: P').map Prod.fst ++ [10 :: rule]).getD (i + 1) []) =
        rule ++ [10] ++ (D.head.flatMap (shown U false) ++
          D.notes.flatMap (fun x => (x.1.getD t []).flatMap (shown U false) ++ x.2.flatMap (shown U false))) ++ (10 :: rule) := by
      rw [hfst 0 (by omega), List.getD_cons_zero]
      have e1 := range_flatMap D.notes (fun x => (x.1.getD t []).flatMap (shown U false) ++ x.2.flatMap (shown U false))
        (fun i => ((D.notes.getD i ([], [])).1.getD t []).flatMap (shown U false) ++ (D.notes.getD i ([], [])).2.flatMap (shown U false))
        (fun i hi => by simp [hi])
      rw [← e1, hk, List.range_succ, List.flatMap_append, List.flatMap_append, List.flatMap_singleton, List.flatMap_singleton, ← hk]
      have e2 : (List.range ns.length).flatMap (fun i =>
          unindent (m + 2) 0 ((q.map Prod.snd ++ P.map Prod.snd).getD (D.notes.length + i * (names.length + 1) + 1 + t) []) ++
            ((q ++ (l ++ 10 :: rule, n0) :: P').map Prod.fst ++ [10 :: rule]).getD (i + 1) []) =
          (List.range ns.length).flatMap (fun i => ((D.notes.getD i ([], [])).1.getD t []).flatMap (shown U false) ++
            (D.notes.getD i ([], [])).2.flatMap (shown U false)) := by
        refine List.flatMap_congr (fun i hi => ?_)
        have hi' := List.mem_range.1 hi
        rw [hin i (by omega), hfst (i + 1) (by omega), hcons i (by omega)]
        simp [show i < D.notes.length by omega]
      have hlast' : ((q ++ (l ++ 10 :: rule, n0) :: P').map Prod.fst ++ [10 :: rule]).getD D.notes.length [] = l ++ 10 :: rule := by
        rw [hk]; exact hlast
      rw [e2, hin ns.length hlt, hlast', hl]
      simp [hlt]
    rw [hwhole]
    have := cut (b := D.head.flatMap (shown U false) ++
          D.notes.flatMap (fun x => (x.1.getD t []).flatMap (shown U false) ++ x.2.flatMap (shown U false))) hR hX
    rw [this, hnil]

theorem docOf_tidy {texts : List (List Ch)} {names : List (List Nat)} (h0 : 0 < texts.length) (hn : names.length = texts.length)
    (hb : ∀ f ∈ names, Braceless f) (ht : ∀ t ∈ texts, ∀ c ∈ t, c.value ≠ 123 ∧ c.value ≠ 125) :
    ∀ (l : List Sync), (∀ s ∈ l, Sound texts s) → Tidy (docOf texts l) names := by
  intro l
  induction l with
  | nil => intro _; exact ⟨by simp [docOf], hb, by simp [docOf], by simp [docOf]⟩
  | cons s l ih =>
    intro hl
    have ih := ih (fun x hx => hl x (by simp [hx]))
    have hs := hl s (by simp)
    rw [docOf]
    cases hm : s.mtch with
    | some q =>
      rw [if_pos (by simp)]
      refine ⟨ih.width, hb, ?_, ih.notes⟩
      intro c hc
      rcases List.mem_append.1 hc with hc | hc
      · have : c.value ∈ (common texts s).map Ch.value := List.mem_map_of_mem hc
        rw [common_values h0 hs] at this
        obtain ⟨d, hd, e⟩ := List.mem_map.1 this
        rw [← e]
        refine ht _ (List.getElem_mem h0) d ?_
        rw [getD_texts h0] at hd
        exact List.mem_of_mem_drop (List.mem_of_mem_take hd)
      · exact ih.head c hc
    | none =>
      rw [if_neg (by simp)]
      refine ⟨?_, hb, by simp, ?_⟩
      · intro x hx
        rcases List.mem_cons.1 hx with rfl | hx
        · simp [hn]
        · exact ih.width x hx
      · intro x hx
        rcases List.mem_cons.1 hx with rfl | hx
        · refine ⟨?_, ih.head⟩
          intro v hv c hc
          obtain ⟨t, htl, rfl⟩ := List.mem_map.1 hv
          have htl := List.mem_range.1 htl
          rw [getD_texts htl] at hc
          exact ht _ (List.getElem_mem htl) c (List.mem_of_mem_drop (List.mem_of_mem_take hc))
        · exact ih.notes x hx

end Ocr.Synctext
