import Verif.Proof.Store
import Mathlib.Data.List.Perm.Basic

/-!
# Tables that count events

A program that calls `Store.add` for each event of a sequence ends up with one entry for each distinct name of an event.
-/

namespace Ocr.Store

variable {ε δ η : Type}

/-- `t` has one entry for each name of the events `L`. -/
def Tallied (entry : List η → δ → ε) (name : η → δ) (L : List η) (t : List ε) : Prop :=
  ∃ ds : List δ, ds.Nodup ∧ (∀ d, d ∈ ds ↔ d ∈ L.map name) ∧ t = ds.map (entry L)

theorem tallied_nil (entry : List η → δ → ε) (name : η → δ) : Tallied entry name [] [] := ⟨[], by simp⟩

theorem tallied_add {entry : List η → δ → ε} {name : η → δ} {keyOf : ε → List Nat} (L : List η) (x : η) (f : ε → ε) (new : ε)
    (hinj : ∀ d, d ∈ L.map name → keyOf (entry L d) = keyOf (entry L (name x)) → d = name x)
    (hother : ∀ d, d ∈ L.map name → d ≠ name x → entry (L ++ [x]) d = entry L d)
    (hf : f (entry L (name x)) = entry (L ++ [x]) (name x))
    (hnew : name x ∉ L.map name → new = entry (L ++ [x]) (name x))
    {t : List ε} (h : Tallied entry name L t) :
    Tallied entry name (L ++ [x]) (add keyOf (keyOf (entry L (name x))) f new t) := by
  obtain ⟨ds, hnd, hmem, rfl⟩ := h
  have hmem' : ∀ d, d ∈ (L ++ [x]).map name ↔ d ∈ ds ∨ d = name x := by
    intro d; rw [hmem]; simp
  rcases add_cases keyOf (keyOf (entry L (name x))) f new (ds.map (entry L)) with ⟨e, hne⟩ | ⟨p, y, q, e0, e, hy, hp⟩
  · rw [e]
    have hdn : name x ∉ ds := fun hd => hne _ (List.mem_map.2 ⟨_, hd, rfl⟩) rfl
    refine ⟨name x :: ds, List.nodup_cons.2 ⟨hdn, hnd⟩, ?_, ?_⟩
    · intro d
      rw [hmem', List.mem_cons]
      exact or_comm
    · rw [List.map_cons, hnew (fun h => hdn ((hmem _).2 h))]
      refine congrArg _ (List.map_congr_left ?_)
      intro d hd
      exact (hother d ((hmem d).1 hd) (fun e => hdn (e ▸ hd))).symm
  · rw [e]
    obtain ⟨p', r, rfl, hp', hr⟩ := List.map_eq_append_iff.1 e0
    obtain ⟨d, q', rfl, hd, hq'⟩ := List.map_eq_cons_iff.1 hr
    have hdx : d = name x := by
      apply hinj d ((hmem d).1 (by simp))
      rw [hd, hy]
    subst hp' hq' hd hdx
    refine ⟨p' ++ name x :: q', hnd, ?_, ?_⟩
    · intro d
      rw [hmem']
      constructor
      · exact .inl
      · rintro (h | rfl)
        · exact h
        · simp
    · rw [List.map_append, List.map_cons, hf]
      have hnd' := List.nodup_append.1 hnd
      have hnd2 := List.nodup_cons.1 hnd'.2.1
      refine congr (congrArg _ (List.map_congr_left ?_)) (congrArg _ (List.map_congr_left ?_))
      · intro d hd
        refine (hother d ((hmem d).1 (by simp [hd])) ?_).symm
        exact hnd'.2.2 d hd _ (by simp)
      · intro d hd
        refine (hother d ((hmem d).1 (by simp [hd])) ?_).symm
        rintro rfl
        exact hnd2.1 hd

/-- The order of the names does not matter. -/
theorem tallied_perm {entry : List η → δ → ε} {name : η → δ} {L : List η} {s t : List ε} (h : Tallied entry name L t)
    (hp : s.Perm t) : Tallied entry name L s := by
  obtain ⟨ds, hnd, hmem, rfl⟩ := h
  obtain ⟨ds', h1, h2⟩ : ∃ ds' : List δ, ds'.Perm ds ∧ s = ds'.map (entry L) := by
    have he := congrFun (congrFun (List.eq_map_comp_perm (entry L)) s) ds
    obtain ⟨c, h1, h2⟩ := he.mpr hp
    exact ⟨c, h2, h1⟩
  exact ⟨ds', h1.nodup_iff.2 hnd, fun d => by rw [h1.mem_iff, hmem], h2⟩

/-- Counting by name. -/
theorem sum_counts {α β : Type} [DecidableEq β] (f : α → β) (p : α → Bool) : ∀ (W : List α) (ds : List β), ds.Nodup → (∀ w ∈ W, f w ∈ ds) →
    (ds.map (fun d => W.countP (fun w => decide (f w = d) && p w))).sum = W.countP p := by
  intro W
  induction W with
  | nil => intro ds _ _; induction ds <;> simp_all
  | cons w W ih =>
    intro ds hnd hW
    have h1 := ih ds hnd (fun x hx => hW x (by simp [hx]))
    have hw := hW w (by simp)
    rw [List.countP_cons, ← h1]
    clear h1 ih hW
    induction ds with
    | nil => cases hw
    | cons d ds ih =>
      rw [List.nodup_cons] at hnd
      simp only [List.map_cons, List.sum_cons, List.countP_cons]
      by_cases hd : f w = d
      · have : ds.map (fun d => W.countP (fun w => decide (f w = d) && p w) + if (decide (f w = d) && p w) = true then 1 else 0) =
            ds.map (fun d => W.countP (fun w => decide (f w = d) && p w)) := by
          apply List.map_congr_left
          intro x hx
          have : ¬ f w = x := by rintro rfl; exact hnd.1 (hd ▸ hx)
          simp [this]
        rw [this]
        simp [hd]
        omega
      · have hw' : f w ∈ ds := by
          rcases List.mem_cons.1 hw with h | h
          · exact absurd h hd
          · exact h
        have := ih hnd.2 hw'
        simp only [List.countP_cons] at this
        rw [this]
        simp [hd]
        omega

theorem cast_sum (l : List Nat) : ((l.sum : Nat) : Int) = (l.map (Nat.cast : Nat → Int)).sum := by
  induction l with
  | nil => rfl
  | cons a l ih => simp [ih]

end Ocr.Store
