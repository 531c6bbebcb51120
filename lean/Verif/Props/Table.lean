import Verif.Proof.Table
import Verif.Proof.Entries

/-!
# C02: hash tables behave like a keyed store
-/

namespace Ocr.Table

open Ocr.CList

variable {τ : Type} [DecidableEq τ]

/-- Every table is as `table_initialize` leaves it. -/
def Initialized (M : TMem τ) : Prop :=
  ∀ t, M.count t = (table_initialize M t).count t ∧ M.array t = (table_initialize M t).array t ∧
    ∀ i, M.mem.hdr (t, i) = (table_initialize M t).mem.hdr (t, i)

/-- C02.  After any legal history of calls on any number of tables sharing one heap: no call goes wrong; looking
up `key` yields the most recently inserted live entry whose key is `key` (`specAll` keeps the live entries most
recent first), or NULL; `count` is the number of live entries; and `array`, if not NULL, lists every live entry
exactly once. -/
theorem c02_tables_are_stores (keyOf : Addr → List Nat) (M : TMem τ) (hM : Initialized M)
    (ops : List (Op τ)) (hl : legalAll (fun _ => []) ops) (fuel : Nat) (hf : ops.length ≤ fuel) :
    ∃ M', execAll keyOf fuel M ops = .ok M' ∧ ∀ t,
      (∀ key, table_lookup fuel keyOf M' t key =
        .ok ((specAll (fun _ => []) ops t).find? (fun e => keyOf e = key))) ∧
      M'.count t = (specAll (fun _ => []) ops t).length ∧
      (M'.array t = none ∨
        ∃ xs : List Addr, M'.array t = some (xs.map some) ∧ xs.Perm (specAll (fun _ => []) ops t)) := by
  obtain ⟨M', e, h, hlen⟩ := execAll_spec ops (tinv_init keyOf M hM) hl fuel (fun _ => by simpa using hf)
  exact ⟨M', e, fun t => ⟨fun key => lookup_spec h t key fuel (hlen t), h.count t,
    (h.array t).imp id (fun h => ⟨_, h, in_array_perm _ _⟩)⟩⟩

/-- C02, continued: an entry inserted and not removed since is found unless a later insertion has the same key;
in particular an entry is found right after it was inserted, and an entry is found under no other key. -/
theorem c02_lookup_hits (keyOf : Addr → List Nat) (M : TMem τ) (hM : Initialized M)
    (ops : List (Op τ)) (t : τ) (e : Addr) (hl : legalAll (fun _ => []) (ops ++ [.insert t e])) (fuel : Nat)
    (hf : ops.length + 1 ≤ fuel) :
    ∃ M', execAll keyOf fuel M (ops ++ [.insert t e]) = .ok M' ∧
      table_lookup fuel keyOf M' t (keyOf e) = .ok (some e) := by
  obtain ⟨M', e1, h, hlen⟩ := execAll_spec _ (tinv_init keyOf M hM) hl fuel (fun _ => by simpa using hf)
  refine ⟨M', e1, ?_⟩
  rw [lookup_spec h t (keyOf e) fuel (hlen t)]
  have app : ∀ (ops : List (Op τ)) (s : Live τ) (op : Op τ),
      specAll s (ops ++ [op]) = specStep (specAll s ops) op := by
    intro ops
    induction ops with
    | nil => intro s op; rfl
    | cons o ops ih => intro s op; exact ih _ op
  rw [app]; simp [specStep]

/-- C02, continued: right after `table_in_array` on a nonempty table, `array` is not NULL and lists every live
entry exactly once. -/
theorem c02_in_array (keyOf : Addr → List Nat) (M : TMem τ) (hM : Initialized M)
    (ops : List (Op τ)) (t : τ) (hl : legalAll (fun _ => []) ops) (fuel : Nat)
    (hf : ops.length ≤ fuel) (hne : specAll (fun _ => []) ops t ≠ []) :
    ∃ M1 M2, execAll keyOf fuel M ops = .ok M1 ∧ table_in_array M1 t = .ok M2 ∧
      ∃ xs : List Addr, M2.array t = some (xs.map some) ∧ xs.Perm (specAll (fun _ => []) ops t) := by
  obtain ⟨M1, e1, h, hlen⟩ := execAll_spec _ (tinv_init keyOf M hM) hl fuel (fun _ => by simpa using hf)
  obtain ⟨M2, e2, _, h2⟩ := in_array_spec h t
  exact ⟨M1, M2, e1, e2, _, h2 hne, in_array_perm _ _⟩

/-- C02, continued: `table_empty` hands each live entry to the callback exactly once. -/
theorem c02_empty (keyOf : Addr → List Nat) (M : TMem τ) (hM : Initialized M)
    (ops : List (Op τ)) (t : τ) (junk : Addr → Cell) (hl : legalAll (fun _ => []) ops) (fuel : Nat)
    (hf : ops.length ≤ fuel) :
    ∃ M1 M2 xs, execAll keyOf fuel M ops = .ok M1 ∧ table_empty junk fuel M1 t = .ok (M2, xs) ∧
      xs.Perm (specAll (fun _ => []) ops t) ∧ M2.count t = 0 := by
  obtain ⟨M1, e1, h, hlen⟩ := execAll_spec _ (tinv_init keyOf M hM) hl fuel (fun _ => by simpa using hf)
  obtain ⟨M2, xs, e2, hp, h2⟩ := table_empty_spec h t junk fuel hlen
  refine ⟨M1, M2, xs, e1, e2, hp, ?_⟩
  rw [h2.count t]; simp [specStep]

/-- C02, continued: tables whose entries carry contents are stores.  For any history of the calls that the programs make (find or create
the entry for a key and change it, collect the entries, empty the table), looking up a key finds the content that the store has for it,
`count` is the size of the store, and `table_in_array` collects the contents in the order of `Store.in_array`, bucket by bucket.  This
justifies the models of the programs, which are written in terms of stores.  (Blocks returned by `NEW` are named by distinct numbers.) -/
theorem c02_store {ε : Type} (keyOf : ε → List Nat) (H : EMem τ ε) (hH : Initialized H.tables) (ops : List (EOp τ ε))
    (hk : ∀ op ∈ ops, op.KeyOk keyOf) (ha : (ops.flatMap EOp.addr).Nodup) (fuel : Nat) (hf : ops.length ≤ fuel) :
    ∃ H', eexecAll keyOf fuel H ops = .ok H' ∧ ∀ t,
      (∀ key, ∃ r, table_lookup fuel (fun a => keyOf (H'.val a)) H'.tables t key = .ok r ∧
        r.map H'.val = Store.lookup keyOf key (ops.foldl (estep keyOf) (fun _ => []) t)) ∧
      H'.tables.count t = (ops.foldl (estep keyOf) (fun _ => []) t).length ∧
      (ops.foldl (estep keyOf) (fun _ => []) t ≠ [] → ∃ (M : TMem τ) (xs : List Addr), table_in_array H'.tables t = .ok M ∧ M.array t = some (xs.map some) ∧
        xs.map H'.val = Store.in_array keyOf (ops.foldl (estep keyOf) (fun _ => []) t)) := by
  obtain ⟨H', s, e, h, hl⟩ := eexecAll_spec ops (S := fun _ => []) (s := fun _ => []) (used := [])
    ⟨tinv_init (fun a => keyOf (H.val a)) H.tables hH, fun _ => rfl, fun _ a ha => by cases ha⟩ hk ha (by simp) fuel
    (fun _ => by simpa using hf)
  refine ⟨H', e, fun t => ⟨fun key => ⟨_, lookup_spec h.inv t key fuel (hl t), ?_⟩, ?_, ?_⟩⟩
  · rw [← h.eq t, lookup_map]
  · rw [h.inv.count t, ← h.eq t, List.length_map]
  · intro hne
    obtain ⟨M, e1, _, e2⟩ := in_array_spec h.inv t
    rw [← h.eq t] at hne ⊢
    exact ⟨M, _, e1, e2 (by intro h0; rw [h0] at hne; exact hne rfl), (in_array_map keyOf H'.val (s t)).symm⟩

/-! Non-vacuity: entries 1, 2 and 3 collide ("ab", "ba", "ab" have the same bucket), entry 4 is elsewhere. -/

def exampleKey : Addr → List Nat
  | 1 => ascii "ab"
  | 2 => ascii "ba"
  | 3 => ascii "ab"
  | _ => ascii "zz"

def exampleOps : List (Op Bool) :=
  [.insert true 1, .insert true 2, .insert false 4, .inArray true, .insert true 3, .remove true 2,
   .empty false (fun _ => ⟨none, none⟩)]

example : legalAll (fun _ => []) exampleOps := by
  simp [exampleOps, legalAll, legal, specStep]
example : specAll (fun _ => []) exampleOps true = [3, 1] := by decide
example : table_index (exampleKey 1) = table_index (exampleKey 2) := by decide
example : (specAll (fun _ => []) exampleOps true).find? (fun e => exampleKey e = ascii "ab") = some 3 := by
  decide
example : Initialized (τ := Bool) ⟨⟨fun _ => ⟨none, none⟩, fun _ => ⟨none, none, none, 0⟩⟩, fun _ => none, fun _ => 0⟩ := by
  intro t
  refine ⟨by simp [table_initialize, setCount], by simp [table_initialize, setCount, setArray], ?_⟩
  intro i
  simp [table_initialize, setCount, setArray, initBuckets_hdr]

/-! Counting "ab", "zz", "ba", "ab" in one table: the entry for "ab" is found again. -/

def count1 (key : String) (a : Addr) : EOp Unit (List Nat × Nat) := .add () (ascii key) (fun e => (e.1, e.2 + 1)) (ascii key, 1) a

example : ∀ op ∈ [count1 "ab" 1, count1 "zz" 2, count1 "ba" 3, count1 "ab" 4], op.KeyOk Prod.fst := by
  simp [count1, EOp.KeyOk]
example : ([count1 "ab" 1, count1 "zz" 2, count1 "ba" 3, count1 "ab" 4].flatMap EOp.addr).Nodup := by decide
example : [count1 "ab" 1, count1 "zz" 2, count1 "ba" 3, count1 "ab" 4].foldl (estep Prod.fst) (fun _ => []) () =
    [(ascii "ba", 1), (ascii "zz", 1), (ascii "ab", 2)] := by decide
example : Store.in_array Prod.fst [(ascii "ba", 1), (ascii "zz", 1), (ascii "ab", 2)] =
    [(ascii "ba", 1), (ascii "ab", 2), (ascii "zz", 1)] := by decide +kernel

end Ocr.Table
