import Verif.Model.Accrpt
import Verif.Spec.Accrpt
import Verif.Proof.Report
import Verif.Proof.Store

namespace Ocr

/-- Two computations end in the same way. -/
inductive Res.Alike {α β : Type} (R : α → β → Prop) : Res α → Res β → Prop
  | ok {a b} (h : R a b) : Alike R (.ok a) (.ok b)
  | err (s) : Alike R (.err s) (.err s)
  | ub : Alike R .ub .ub
  | fuel : Alike R .fuel .fuel

theorem Res.Alike.bind {α β γ δ : Type} {R : α → β → Prop} {S : γ → δ → Prop} {x : Res α} {y : Res β} {f : α → Res γ}
    {g : β → Res δ} (h : Res.Alike R x y) (hfg : ∀ a b, R a b → Res.Alike S (f a) (g b)) : Res.Alike S (x >>= f) (y >>= g) := by
  cases h with
  | ok h => exact hfg _ _ h
  | err s => exact .err s
  | ub => exact .ub
  | fuel => exact .fuel

theorem Res.Alike.refl {α : Type} (x : Res α) : Res.Alike Eq x x := by
  cases x
  · exact .ok rfl
  · exact .err _
  · exact .ub
  · exact .fuel

theorem Res.Alike.ok_right {α β : Type} {R : α → β → Prop} {x : Res α} {y : Res β} (h : Res.Alike R x y) {a : α} (hx : x = .ok a) :
    ∃ b, y = .ok b ∧ R a b := by
  subst hx
  cases h with
  | ok h => exact ⟨_, rfl, h⟩

end Ocr

namespace Ocr.Acc
open Text Res Charclass Report

/-- `D` is `B` with `E` added. -/
structure Plus (B E D : Accdata) : Prop where
  characters : D.characters = B.characters + E.characters
  errors     : D.errors = B.errors + E.errors
  rejects    : D.reject_characters = B.reject_characters + E.reject_characters
  suspects   : D.suspect_markers = B.suspect_markers + E.suspect_markers
  falses     : D.false_marks = B.false_marks + E.false_marks
  marked     : D.marked_ops = add_ops B.marked_ops E.marked_ops
  unmarked   : D.unmarked_ops = add_ops B.unmarked_ops E.unmarked_ops
  total      : D.total_ops = add_ops B.total_ops E.total_ops
  small      : ∀ v, D.small_class v = update_class (B.small_class v) (E.small_class v).count (E.small_class v).missed
  large      : ∀ v, D.large_class v = update_class (B.large_class v) (E.large_class v).count (E.large_class v).missed
  all        : D.total_class = update_class B.total_class E.total_class.count E.total_class.missed
  conf       : ∀ k, confErrors k D = confErrors k B + confErrors k E ∧ confMarked k D = confMarked k B + confMarked k E
  keys       : ∀ k, k ∈ D.conftable.map Conf.key ↔ k ∈ B.conftable.map Conf.key ∨ k ∈ E.conftable.map Conf.key
  nodup      : (B.conftable.map Conf.key).Nodup → (D.conftable.map Conf.key).Nodup
  nodupE     : (E.conftable.map Conf.key).Nodup

theorem update_zero (c : Accclass) : update_class c 0 0 = c := by simp [update_class]
theorem add_ops_zero (o : Accops) : add_ops o ⟨0, 0, 0, 0⟩ = o := by simp [add_ops]

theorem Plus.zero (B : Accdata) : Plus B Accdata.zero B := by
  constructor <;> simp [Accdata.zero, update_zero, add_ops_zero, confErrors, confMarked]

theorem update_update (c : Accclass) (a b x y : Int) :
    update_class (update_class c a b) x y = update_class c (a + x) (b + y) := by
  simp [update_class, Int.add_assoc]

theorem confErrors_add (D : Accdata) (key k : List Nat) (e m : Int) :
    confErrors k (add_conf D key e m) = confErrors k D + (if key = k then e else 0) := by
  unfold confErrors add_conf
  apply Store.sum_add_key
  · intro x hx; simp only [hx]; split <;> simp
  · rfl

theorem confMarked_add (D : Accdata) (key k : List Nat) (e m : Int) :
    confMarked k (add_conf D key e m) = confMarked k D + (if key = k then m else 0) := by
  unfold confMarked add_conf
  apply Store.sum_add_key
  · intro x hx; simp only [hx]; split <;> simp
  · rfl

theorem keys_add (D : Accdata) (key k : List Nat) (e m : Int) :
    k ∈ (add_conf D key e m).conftable.map Conf.key ↔ k ∈ D.conftable.map Conf.key ∨ k = key := by
  unfold add_conf
  exact Store.mem_keys_add Conf.key key (fun c : Conf => { c with errors := c.errors + e, marked := c.marked + m })
    ⟨key, e, m⟩ (fun _ => rfl) rfl D.conftable k

theorem nodup_add_conf (D : Accdata) (key : List Nat) (e m : Int) (h : (D.conftable.map Conf.key).Nodup) :
    ((add_conf D key e m).conftable.map Conf.key).Nodup := by
  unfold add_conf
  exact Store.nodup_add Conf.key key (fun c : Conf => { c with errors := c.errors + e, marked := c.marked + m })
    ⟨key, e, m⟩ (fun _ => rfl) rfl h

theorem Plus.add_conf {B E D : Accdata} (h : Plus B E D) (key : List Nat) (e m : Int) :
    Plus B (add_conf E key e m) (add_conf D key e m) where
  characters := h.characters
  errors := h.errors
  rejects := h.rejects
  suspects := h.suspects
  falses := h.falses
  marked := h.marked
  unmarked := h.unmarked
  total := h.total
  small := h.small
  large := h.large
  all := h.all
  conf := by
    intro k
    have := h.conf k
    rw [confErrors_add, confErrors_add, confMarked_add, confMarked_add, this.1, this.2]
    constructor <;> omega
  keys := by
    intro k
    rw [keys_add, keys_add, h.keys k, or_assoc]
  nodup := fun hb => nodup_add_conf _ _ _ _ (h.nodup hb)
  nodupE := nodup_add_conf _ _ _ _ h.nodupE

theorem Plus.add_class {B E D : Accdata} (h : Plus B E D) (v : Nat) (c m : Int) :
    Res.Alike (Plus B) (add_class E v c m) (add_class D v c m) := by
  unfold Acc.add_class
  apply Res.Alike.bind (Res.Alike.refl _)
  rintro i _ rfl
  split
  · refine .ok ⟨h.characters, h.errors, h.rejects, h.suspects, h.falses, h.marked, h.unmarked, h.total, ?_, ?_, ?_, h.conf, h.keys,
      h.nodup, h.nodupE⟩
    · intro w
      show (if w = v then _ else _) = _
      by_cases hw : w = v
      · simp only [if_pos hw, h.small, update_update]; rfl
      · simp only [if_neg hw, h.small]
    · intro w
      show (if w = i then _ else _) = _
      by_cases hw : w = i
      · simp only [if_pos hw, h.large, update_update]; rfl
      · simp only [if_neg hw, h.large]
    · simp only [h.all, update_update]; rfl
  · exact .ub

theorem Plus.add_head {B E D : Accdata} (h : Plus B E D) (x : Head) : Plus B (add_head E x) (add_head D x) := by
  constructor
  case characters => simp only [Acc.add_head, h.characters]; omega
  case errors => simp only [Acc.add_head, h.errors]; omega
  case rejects => simp only [Acc.add_head, h.rejects]; omega
  case suspects => simp only [Acc.add_head, h.suspects]; omega
  case falses => simp only [Acc.add_head, h.falses]; omega
  case marked => simp only [Acc.add_head, h.marked, add_ops, Int.add_assoc]
  case unmarked => simp only [Acc.add_head, h.unmarked, add_ops, Int.add_assoc]
  case total => simp only [Acc.add_head, h.total, add_ops, Int.add_assoc]
  case small => exact h.small
  case large => exact h.large
  case all => exact h.all
  case conf => exact h.conf
  case keys => exact h.keys
  case nodup => exact h.nodup
  case nodupE => exact h.nodupE

theorem readConfLoop_plus {B : Accdata} : ∀ (fuel : Nat) (file : List Nat) {E D : Accdata}, Plus B E D →
    Res.Alike (fun x y => Plus B x.1 y.1 ∧ x.2 = y.2) (readConfLoop fuel file E) (readConfLoop fuel file D) := by
  intro fuel
  induction fuel with
  | zero =>
    intro file E D h
    obtain ⟨r, hr⟩ : ∃ r, read_two file = r := ⟨_, rfl⟩
    unfold readConfLoop
    simp only [hr]
    cases r with
    | none => exact .ok ⟨h, rfl⟩
    | some p => exact .fuel
  | succ fuel ih =>
    intro file E D h
    obtain ⟨r, hr⟩ : ∃ r, read_two file = r := ⟨_, rfl⟩
    unfold readConfLoop
    simp only [hr]
    cases r with
    | none => exact .ok ⟨h, rfl⟩
    | some p =>
      obtain ⟨⟨v1, v2, line⟩, rest⟩ := p
      apply Res.Alike.bind (Res.Alike.refl _)
      rintro key _ rfl
      exact ih rest (h.add_conf key v1 v2)

theorem readClassLoop_plus {B : Accdata} : ∀ (fuel : Nat) (file : List Nat) {E D : Accdata}, Plus B E D →
    Res.Alike (Plus B) (readClassLoop fuel file E) (readClassLoop fuel file D) := by
  intro fuel
  induction fuel with
  | zero =>
    intro file E D h
    obtain ⟨r, hr⟩ : ∃ r, read_two file = r := ⟨_, rfl⟩
    unfold readClassLoop
    simp only [hr]
    cases r with
    | none => exact .ok h
    | some p => exact .fuel
  | succ fuel ih =>
    intro file E D h
    obtain ⟨r, hr⟩ : ∃ r, read_two file = r := ⟨_, rfl⟩
    unfold readClassLoop
    simp only [hr]
    cases r with
    | none => exact .ok h
    | some p =>
      obtain ⟨⟨v1, v2, line⟩, rest⟩ := p
      apply Res.Alike.bind (Res.Alike.refl _)
      rintro s _ rfl
      apply Res.Alike.bind (Res.Alike.refl _)
      rintro v _ rfl
      split
      · exact .err _
      · apply Res.Alike.bind (h.add_class v v1 v2)
        intro E' D' h'
        exact ih rest h'

/-- Reading adds the same figures whatever was there before. -/
theorem read_plus {B E D : Accdata} (h : Plus B E D) (file : List Nat) :
    Res.Alike (Plus B) (read_accrpt E file) (read_accrpt D file) := by
  unfold read_accrpt
  obtain ⟨r, hr⟩ : ∃ r, read_head file = r := ⟨_, rfl⟩
  simp only [hr]
  cases r with
  | none => exact .err _
  | some p =>
    obtain ⟨x, f⟩ := p
    apply Res.Alike.bind (Res.Alike.refl _)
    rintro f _ rfl
    have hp := h.add_head x
    apply Res.Alike.bind (R := fun x y => Plus B x.1 y.1 ∧ x.2 = y.2)
    · unfold readConfs
      split
      · obtain ⟨r, hr⟩ : ∃ r, read_line f = r := ⟨_, rfl⟩
        simp only [hr]
        cases r with
        | none => exact .ok ⟨hp, rfl⟩
        | some p => exact readConfLoop_plus _ _ hp
      · exact .ok ⟨hp, rfl⟩
    · rintro ⟨E', f'⟩ ⟨D', _⟩ ⟨hp, rfl⟩
      unfold readClasses
      split
      · obtain ⟨r, hr⟩ : ∃ r, read_line f' = r := ⟨_, rfl⟩
        simp only [hr]
        cases r with
        | none => exact .ok hp
        | some p => exact readClassLoop_plus _ _ hp
      · exact .ok hp

theorem IsSum.single {B : Accdata} (h : (B.conftable.map Conf.key).Nodup) : IsSum [B] B := by
  constructor <;> simp_all [sumOps]

theorem IsSum.step {B E D1 D : Accdata} {Es : List Accdata} (hp : Plus B E D1) (h : IsSum (D1 :: Es) D) : IsSum (B :: E :: Es) D := by
  constructor
  case characters => rw [h.characters]; simp [hp.characters]; omega
  case errors => rw [h.errors]; simp [hp.errors]; omega
  case rejects => rw [h.rejects]; simp [hp.rejects]; omega
  case suspects => rw [h.suspects]; simp [hp.suspects]; omega
  case falses => rw [h.falses]; simp [hp.falses]; omega
  case marked => rw [h.marked]; simp [hp.marked, sumOps, add_ops, Int.add_assoc]
  case unmarked => rw [h.unmarked]; simp [hp.unmarked, sumOps, add_ops, Int.add_assoc]
  case total => rw [h.total]; simp [hp.total, sumOps, add_ops, Int.add_assoc]
  case small => intro v; rw [(h.small v).1, (h.small v).2]; simp [hp.small, update_class, Int.add_assoc]
  case large => intro v; rw [(h.large v).1, (h.large v).2]; simp [hp.large, update_class, Int.add_assoc]
  case all => rw [h.all.1, h.all.2]; simp [hp.all, update_class, Int.add_assoc]
  case conf => intro k; rw [(h.conf k).1, (h.conf k).2]; simp [(hp.conf k).1, (hp.conf k).2, Int.add_assoc]
  case keys =>
    intro k; rw [h.keys k]
    have := hp.keys k
    simp only [List.mem_cons, exists_eq_or_imp, this, or_assoc]
  case nodup => exact h.nodup

theorem IsSum.of_zero {D : Accdata} {Es : List Accdata} (h : IsSum (Accdata.zero :: Es) D) : IsSum Es D := by
  constructor
  case characters => rw [h.characters]; simp [Accdata.zero]
  case errors => rw [h.errors]; simp [Accdata.zero]
  case rejects => rw [h.rejects]; simp [Accdata.zero]
  case suspects => rw [h.suspects]; simp [Accdata.zero]
  case falses => rw [h.falses]; simp [Accdata.zero]
  case marked => rw [h.marked]; simp [Accdata.zero, sumOps]
  case unmarked => rw [h.unmarked]; simp [Accdata.zero, sumOps]
  case total => rw [h.total]; simp [Accdata.zero, sumOps]
  case small => intro v; rw [(h.small v).1, (h.small v).2]; simp [Accdata.zero]
  case large => intro v; rw [(h.large v).1, (h.large v).2]; simp [Accdata.zero]
  case all => rw [h.all.1, h.all.2]; simp [Accdata.zero]
  case conf => intro k; rw [(h.conf k).1, (h.conf k).2]; simp [Accdata.zero, confErrors, confMarked]
  case keys => intro k; rw [h.keys k]; simp [Accdata.zero]
  case nodup => exact h.nodup

theorem readAll_spec {files : List (List Nat)} {Es : List Accdata}
    (h : List.Forall₂ (fun f E => read_accrpt Accdata.zero f = .ok E) files Es) :
    ∀ B : Accdata, (B.conftable.map Conf.key).Nodup → ∃ D, readAll B files = .ok D ∧ IsSum (B :: Es) D := by
  induction h with
  | nil => intro B hb; exact ⟨B, rfl, IsSum.single hb⟩
  | cons hE _ ih =>
    intro B hb
    obtain ⟨D1, h1, hp⟩ := (read_plus (Plus.zero B) _).ok_right hE
    obtain ⟨D, h2, h3⟩ := ih D1 (hp.nodup hb)
    exact ⟨D, by rw [readAll, h1]; exact h2, h3.step hp⟩

end Ocr.Acc
