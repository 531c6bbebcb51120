import Verif.Model.Store
import Mathlib.Algebra.BigOperators.Group.List.Basic
import Mathlib.Data.List.FinRange

namespace Ocr.Store

variable {ε : Type} (keyOf : ε → List Nat)

theorem modify_none {key : List Nat} {f : ε → ε} : ∀ {s : List ε}, modify keyOf key f s = none ↔ ∀ e ∈ s, keyOf e ≠ key := by
  intro s
  induction s with
  | nil => simp [modify]
  | cons e s ih =>
    rw [modify]
    split
    · rename_i h; simp [h]
    · rename_i h; simp [ih, h]

theorem modify_split {key : List Nat} {f : ε → ε} : ∀ {s s' : List ε}, modify keyOf key f s = some s' →
    ∃ p e q, s = p ++ e :: q ∧ s' = p ++ f e :: q ∧ keyOf e = key ∧ ∀ x ∈ p, keyOf x ≠ key := by
  intro s
  induction s with
  | nil => intro s' h; simp [modify] at h
  | cons e s ih =>
    intro s' h
    rw [modify] at h
    split at h
    · rename_i hk
      exact ⟨[], e, s, rfl, by simpa using h.symm, hk, by simp⟩
    · rename_i hk
      simp only [Option.map_eq_some_iff] at h
      obtain ⟨s1, h1, rfl⟩ := h
      obtain ⟨p, x, q, rfl, rfl, hx, hp⟩ := ih h1
      exact ⟨e :: p, x, q, rfl, rfl, hx, by
        intro y hy
        rcases List.mem_cons.1 hy with rfl | hy
        · exact hk
        · exact hp y hy⟩

/-- The two outcomes of `add`. -/
theorem add_cases (key : List Nat) (f : ε → ε) (new : ε) (s : List ε) :
    (add keyOf key f new s = new :: s ∧ ∀ e ∈ s, keyOf e ≠ key) ∨
    (∃ p e q, s = p ++ e :: q ∧ add keyOf key f new s = p ++ f e :: q ∧ keyOf e = key ∧ ∀ x ∈ p, keyOf x ≠ key) := by
  unfold add
  cases h : modify keyOf key f s with
  | none => left; exact ⟨rfl, (modify_none keyOf).1 h⟩
  | some s' =>
    right
    obtain ⟨p, e, q, h1, h2, h3, h4⟩ := modify_split keyOf h
    exact ⟨p, e, q, h1, by simp [h2], h3, h4⟩

/-- A figure summed over all entries grows by what was added. -/
theorem sum_add (m : ε → Int) (d : Int) (key : List Nat) (f : ε → ε) (new : ε) (hf : ∀ e, m (f e) = m e + d) (hn : m new = d)
    (s : List ε) : ((add keyOf key f new s).map m).sum = (s.map m).sum + d := by
  rcases add_cases keyOf key f new s with ⟨h, _⟩ | ⟨p, e, q, rfl, h, _, _⟩
  · rw [h]; simp [hn]; omega
  · rw [h]; simp [hf]; omega

/-- The keys of a table stay distinct. -/
theorem nodup_add (key : List Nat) (f : ε → ε) (new : ε) (hf : ∀ e, keyOf (f e) = keyOf e) (hn : keyOf new = key)
    {s : List ε} (h : (s.map keyOf).Nodup) : ((add keyOf key f new s).map keyOf).Nodup := by
  rcases add_cases keyOf key f new s with ⟨h', hne⟩ | ⟨p, e, q, rfl, h', _, _⟩
  · rw [h', List.map_cons, List.nodup_cons, hn]
    refine ⟨?_, h⟩
    intro hm
    obtain ⟨e, he, hk⟩ := List.mem_map.1 hm
    exact hne e he hk
  · rw [h']; simpa [hf] using h

/-- The entries afterwards: those with other keys are unchanged. -/
theorem mem_add (key : List Nat) (f : ε → ε) (new : ε) {s : List ε} {x : ε} (h : x ∈ add keyOf key f new s) :
    x ∈ s ∨ x = new ∨ ∃ e ∈ s, keyOf e = key ∧ x = f e := by
  rcases add_cases keyOf key f new s with ⟨h', hne⟩ | ⟨p, e, q, rfl, h', hk, _⟩
  · rw [h'] at h
    rcases List.mem_cons.1 h with rfl | h
    · exact .inr (.inl rfl)
    · exact .inl h
  · rw [h'] at h
    simp only [List.mem_append, List.mem_cons] at h ⊢
    rcases h with h | rfl | h
    · exact .inl (.inl h)
    · exact .inr (.inr ⟨e, .inr (.inl rfl), hk, rfl⟩)
    · exact .inl (.inr (.inr h))

/-- Looking up a key after `add`. -/
theorem lookup_add (key : List Nat) (f : ε → ε) (new : ε) (hf : ∀ e, keyOf (f e) = keyOf e) (hn : keyOf new = key)
    (s : List ε) (k : List Nat) : lookup keyOf k (add keyOf key f new s) =
      if k = key then some ((lookup keyOf key s).elim new f) else lookup keyOf k s := by
  unfold lookup
  rcases add_cases keyOf key f new s with ⟨h', hne⟩ | ⟨p, e, q, rfl, h', hk, hp⟩
  · rw [h', List.find?_cons]
    by_cases hkk : k = key
    · subst hkk
      have : s.find? (fun e => decide (keyOf e = k)) = none := by
        rw [List.find?_eq_none]; intro e he; simpa using hne e he
      simp [hn, this]
    · simp [hn, hkk, Ne.symm hkk]
  · rw [h']
    simp only [List.find?_append, List.find?_cons]
    by_cases hkk : k = key
    · subst hkk
      have : p.find? (fun e => decide (keyOf e = k)) = none := by
        rw [List.find?_eq_none]; intro e he; simpa using hp e he
      simp [this, hf, hk]
    · have hke : keyOf e ≠ k := fun h => hkk (h ▸ hk)
      simp [hkk, hf, hke]

end Ocr.Store

namespace Ocr.Store

variable {ε : Type} (keyOf : ε → List Nat)

/-- A figure summed over all entries grows by what was added to the entry of the key. -/
theorem sum_add_key (m : ε → Int) (d : Int) (key : List Nat) (f : ε → ε) (new : ε)
    (hf : ∀ e, keyOf e = key → m (f e) = m e + d) (hn : m new = d) (s : List ε) :
    ((add keyOf key f new s).map m).sum = (s.map m).sum + d := by
  rcases add_cases keyOf key f new s with ⟨h, _⟩ | ⟨p, e, q, rfl, h, he, _⟩
  · rw [h]; simp [hn]; omega
  · rw [h]; simp [hf e he]; omega

/-- The keys of a table afterwards. -/
theorem mem_keys_add (key : List Nat) (f : ε → ε) (new : ε) (hf : ∀ e, keyOf (f e) = keyOf e) (hn : keyOf new = key)
    (s : List ε) (k : List Nat) : k ∈ (add keyOf key f new s).map keyOf ↔ k ∈ s.map keyOf ∨ k = key := by
  rcases add_cases keyOf key f new s with ⟨h, _⟩ | ⟨p, e, q, rfl, h, he, _⟩
  · rw [h, List.map_cons, List.mem_cons, hn]; exact or_comm
  · rw [h]
    simp only [List.map_append, List.map_cons, List.mem_append, List.mem_cons, hf, he]
    constructor
    · rintro (h | h | h)
      · exact .inl (.inl h)
      · exact .inr h
      · exact .inl (.inr (.inr h))
    · rintro ((h | h | h) | h)
      · exact .inl h
      · exact .inr (.inl h)
      · exact .inr (.inr h)
      · exact .inr (.inl h)

end Ocr.Store

namespace Ocr.Store

variable {ε : Type}

theorem bucket_cons {κ : Type} [DecidableEq κ] (idx : ε → κ) (e : ε) (s : List ε) : ∀ (I : List κ), I.Nodup →
    (I.flatMap (fun i => (e :: s).filter (fun x => idx x = i))).Perm
      ((if idx e ∈ I then [e] else []) ++ I.flatMap (fun i => s.filter (fun x => idx x = i))) := by
  intro I
  induction I with
  | nil => intro _; simp
  | cons i I ih =>
    intro h
    rw [List.nodup_cons] at h
    have ih := ih h.2
    rw [List.flatMap_cons, List.flatMap_cons]
    by_cases hi : idx e = i
    · subst hi
      rw [if_neg h.1] at ih
      rw [List.filter_cons_of_pos (by simp), if_pos (by simp)]
      simp only [List.cons_append, List.nil_append] at ih ⊢
      exact (ih.append_left _).cons e
    · rw [List.filter_cons_of_neg (by simpa using hi)]
      refine (ih.append_left _).trans ?_
      by_cases hm : idx e ∈ I
      · rw [if_pos hm, if_pos (by simp [hm])]
        rw [← List.append_assoc, ← List.append_assoc]
        exact List.perm_append_comm.append_right _
      · rw [if_neg hm, if_neg (by simp [hm, hi])]
        simp

theorem buckets_perm {κ : Type} [DecidableEq κ] (idx : ε → κ) (I : List κ) (hI : I.Nodup) (hm : ∀ i, i ∈ I) (s : List ε) :
    (I.flatMap (fun i => s.filter (fun x => idx x = i))).Perm s := by
  induction s with
  | nil => simp
  | cons e s ih =>
    have := bucket_cons idx e s I hI
    rw [if_pos (hm _)] at this
    exact this.trans (ih.cons e)

/-- `table_in_array` lists the entries of the table. -/
theorem in_array_perm (keyOf : ε → List Nat) (s : List ε) : (in_array keyOf s).Perm s :=
  buckets_perm (fun x => Table.table_index (keyOf x)) _ (List.nodup_finRange _) List.mem_finRange s

end Ocr.Store
