import Verif.Spec.Entries
import Verif.Proof.Table

/-!
# Tables of entries refine stores
-/

namespace Ocr.Table

open Ocr.CList

variable {τ ε : Type} [DecidableEq τ]

theorem filter_congr_key {keyOf keyOf' : Addr → List Nat} {xs : List Addr} (h : ∀ a ∈ xs, keyOf a = keyOf' a) (i : Fin TABLE_SIZE) :
    xs.filter (fun e => table_index (keyOf e) = i) = xs.filter (fun e => table_index (keyOf' e) = i) := by
  apply List.filter_congr
  intro a ha
  rw [h a ha]

theorem TInv.congr {keyOf keyOf' : Addr → List Nat} {M : TMem τ} {s : Live τ} (h : TInv keyOf M s)
    (hk : ∀ t, ∀ a ∈ s t, keyOf a = keyOf' a) : TInv keyOf' M s := by
  have e : buckets keyOf' s = buckets keyOf s := by
    funext p
    exact (filter_congr_key (hk p.1) p.2).symm
  refine ⟨e ▸ h.inv, h.nodup, h.disj, h.count, ?_⟩
  intro t
  rcases h.array t with h1 | h1
  · exact .inl h1
  · refine .inr (h1.trans ?_)
    unfold Store.in_array
    simp only [filter_congr_key (hk t)]

theorem insert_congr {keyOf keyOf' : Addr → List Nat} (M : TMem τ) (t : τ) {e : Addr} (h : keyOf e = keyOf' e) :
    table_insert keyOf M t e = table_insert keyOf' M t e := by
  unfold table_insert; rw [h]

theorem modify_map (keyOf : ε → List Nat) (key : List Nat) (f : ε → ε) (val : Addr → ε) : ∀ (xs : List Addr), xs.Nodup →
    Store.modify keyOf key f (xs.map val) =
      (xs.find? (fun a => keyOf (val a) = key)).map (fun e => xs.map (fun x => if x = e then f (val e) else val x))
  | [], _ => rfl
  | a :: xs, hn => by
    have hn := List.nodup_cons.1 hn
    rw [List.map_cons, Store.modify]
    by_cases h : keyOf (val a) = key
    · rw [if_pos h, List.find?_cons_of_pos (by simpa using h)]
      simp only [Option.map_some, List.map_cons, if_true, Option.some.injEq, List.cons.injEq, true_and]
      apply List.map_congr_left
      intro x hx
      rw [if_neg (by rintro rfl; exact hn.1 hx)]
    · rw [if_neg h, List.find?_cons_of_neg (by simpa using h), modify_map keyOf key f val xs hn.2, Option.map_map]
      cases he : xs.find? (fun a => keyOf (val a) = key) with
      | none => rfl
      | some e =>
        have hm := List.mem_of_find?_eq_some he
        simp only [Option.map_some, Function.comp, List.map_cons, Option.some.injEq, List.cons.injEq, and_true]
        rw [if_neg (by rintro rfl; exact hn.1 hm)]

theorem lookup_map (keyOf : ε → List Nat) (key : List Nat) (val : Addr → ε) (xs : List Addr) :
    Store.lookup keyOf key (xs.map val) = (xs.find? (fun a => keyOf (val a) = key)).map val := by
  unfold Store.lookup
  rw [List.find?_map]; rfl

theorem in_array_map (keyOf : ε → List Nat) (val : Addr → ε) (xs : List Addr) :
    Store.in_array keyOf (xs.map val) = (Store.in_array (fun a => keyOf (val a)) xs).map val := by
  unfold Store.in_array
  rw [List.map_flatMap]
  congr 1
  funext i
  rw [List.filter_map]; rfl

structure EInv (keyOf : ε → List Nat) (H : EMem τ ε) (S : τ → List ε) (s : Live τ) (used : List Addr) : Prop where
  inv  : TInv (fun a => keyOf (H.val a)) H.tables s
  eq   : ∀ t, (s t).map H.val = S t
  used : ∀ t, ∀ a ∈ s t, a ∈ used

theorem eexec_spec {keyOf : ε → List Nat} {H : EMem τ ε} {S : τ → List ε} {s : Live τ} {used : List Addr} (h : EInv keyOf H S s used)
    (op : EOp τ ε) (hk : op.KeyOk keyOf) (hu : ∀ a ∈ op.addr, a ∉ used) (fuel : Nat) (hf : ∀ t, (s t).length ≤ fuel) :
    ∃ H' s', eexec keyOf fuel H op = .ok H' ∧ EInv keyOf H' (estep keyOf S op) s' (used ++ op.addr) ∧ ∀ t, (s' t).length ≤ (s t).length + 1 := by
  cases op with
  | add t key f new a =>
    have hl := lookup_spec h.inv t key fuel (hf t)
    have hm := modify_map keyOf key f H.val (s t) (h.inv.nodup t)
    rw [h.eq t] at hm
    simp only [eexec, hl, Res.bind_ok]
    cases he : (s t).find? (fun a => keyOf (H.val a) = key) with
    | some e =>
      rw [he] at hm
      have hmem := List.mem_of_find?_eq_some he
      refine ⟨_, s, rfl, ⟨?_, ?_, ?_⟩, fun t => by omega⟩
      · refine h.inv.congr ?_
        intro u x _
        simp only
        split
        · rename_i hx; subst hx; rw [hk.2]
        · rfl
      · intro u
        simp only [estep]
        by_cases hut : u = t
        · subst hut
          rw [if_pos rfl]
          unfold Store.add
          rw [hm]; rfl
        · rw [if_neg hut, ← h.eq u]
          apply List.map_congr_left
          intro x hx
          rw [if_neg (by rintro rfl; exact h.inv.disj u t hut x hx hmem)]
      · intro u x hx; exact List.mem_append_left _ (h.used u x hx)
    | none =>
      rw [he] at hm
      have ha : ∀ u, a ∉ s u := fun u hx => hu a (by simp [EOp.addr]) (h.used u a hx)
      have hval : ∀ u, ∀ x ∈ s u, (if x = a then new else H.val x) = H.val x := by
        intro u x hx
        rw [if_neg (by rintro rfl; exact ha u hx)]
      have hinv : TInv (fun x => keyOf (if x = a then new else H.val x)) H.tables s :=
        h.inv.congr (fun u x hx => by simp only [hval u x hx])
      obtain ⟨M', e1, e2⟩ := exec_spec hinv (.insert t a) ha fuel hf
      simp only [exec, Res.ok.injEq] at e1
      refine ⟨_, specStep s (.insert t a), rfl, ⟨?_, ?_, ?_⟩, ?_⟩
      · simp only; rw [e1]; exact e2
      · intro u
        simp only [estep, specStep]
        by_cases hut : u = t
        · subst hut
          rw [if_pos rfl, if_pos rfl]
          unfold Store.add
          rw [hm]
          simp only [Option.map_none, Option.getD_none, List.map_cons, if_true, List.cons.injEq, true_and]
          rw [← h.eq u]
          exact List.map_congr_left (hval u)
        · rw [if_neg hut, if_neg hut, ← h.eq u]
          exact List.map_congr_left (hval u)
      · intro u x hx
        simp only [specStep] at hx
        split at hx
        · rcases List.mem_cons.1 hx with rfl | hx
          · simp [EOp.addr]
          · exact List.mem_append_left _ (h.used _ x hx)
        · exact List.mem_append_left _ (h.used u x hx)
      · intro u; exact specStep_length s _ u
  | inArray t =>
    obtain ⟨M', e1, e2, _⟩ := in_array_spec h.inv t
    simp only [eexec, e1, Res.bind_ok]
    exact ⟨_, s, rfl, ⟨e2, h.eq, fun u x hx => List.mem_append_left _ (h.used u x hx)⟩, fun t => by omega⟩
  | empty t junk =>
    obtain ⟨M', xs, e1, _, e2⟩ := table_empty_spec h.inv t junk fuel hf
    simp only [eexec, e1, Res.bind_ok]
    refine ⟨_, _, rfl, ⟨e2, ?_, ?_⟩, fun u => specStep_length s _ u⟩
    · intro u
      simp only [estep, specStep]
      split
      · rfl
      · exact h.eq u
    · intro u x hx
      simp only [specStep] at hx
      split at hx
      · cases hx
      · exact List.mem_append_left _ (h.used u x hx)

theorem eexecAll_spec {keyOf : ε → List Nat} : ∀ (ops : List (EOp τ ε)) {H : EMem τ ε} {S : τ → List ε} {s : Live τ} {used : List Addr},
    EInv keyOf H S s used → (∀ op ∈ ops, op.KeyOk keyOf) → (ops.flatMap EOp.addr).Nodup → (∀ a ∈ ops.flatMap EOp.addr, a ∉ used) →
    ∀ fuel, (∀ t, (s t).length + ops.length ≤ fuel) →
    ∃ H' s', eexecAll keyOf fuel H ops = .ok H' ∧ EInv keyOf H' (ops.foldl (estep keyOf) S) s' (used ++ ops.flatMap EOp.addr) ∧
      ∀ t, (s' t).length ≤ fuel
  | [], H, S, s, used, h, _, _, _, fuel, hf => ⟨H, s, rfl, by simpa using h, fun t => by have := hf t; simp at this; omega⟩
  | op :: ops, H, S, s, used, h, hk, hn, hu, fuel, hf => by
    rw [List.flatMap_cons] at hn hu
    obtain ⟨h1, h2, h3⟩ := List.nodup_append.1 hn
    obtain ⟨H1, s1, e1, i1, l1⟩ := eexec_spec h op (hk op (by simp)) (fun a ha => hu a (List.mem_append_left _ ha)) fuel
      (fun t => by have := hf t; simp at this; omega)
    obtain ⟨H2, s2, e2, i2, l2⟩ := eexecAll_spec ops i1 (fun o ho => hk o (by simp [ho])) h2 (by
      intro a ha hm
      rcases List.mem_append.1 hm with hm | hm
      · exact hu a (List.mem_append_right _ ha) hm
      · exact h3 a hm a ha rfl) fuel (fun t => by have := hf t; have := l1 t; simp at *; omega)
    refine ⟨H2, s2, ?_, ?_, l2⟩
    · rw [eexecAll, e1, Res.bind_ok, e2]
    · rw [List.foldl_cons, List.flatMap_cons, ← List.append_assoc]; exact i2

end Ocr.Table
