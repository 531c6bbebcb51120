import Verif.Proof.Greedy
import Verif.Proof.SyncList

/-!
# Splitting an item splits its strings
-/

namespace Ocr.Sync
open Text

theorem Narrows.start {w st more st' w'} (h : Narrows w st more st' w') :
    ∃ i, st'.take st.length = st.map (· + i) ∧ w' <+: w.drop i := by
  induction h with
  | done => exact ⟨0, by simp, by simp⟩
  | @next w st p more i j w1 st' w' hf _ ih =>
    obtain ⟨k, h1, h2⟩ := ih
    refine ⟨i + k, ?_, ?_⟩
    · have := congrArg (List.take st.length) h1
      rw [List.take_take, show min st.length (st.map (· + i) ++ [j]).length = st.length by simp] at this
      rw [this]
      simp [Nat.add_assoc, Function.comp_def]
    · obtain ⟨t, ht⟩ := hf.occurs.1
      rw [← List.drop_drop, ← ht, List.drop_append]
      exact h2.trans (List.prefix_append _ _)

/-- The starts of a match at the offsets `offs` within the substrings of an item. -/
def startsAt (sync : Sync) (offs : List Nat) : List Int :=
  List.zipWith (fun (b : Int) (o : Nat) => b + o) (sync.substr.map (·.start)) offs

theorem piece_left (c : List Nat) (s : Substr) (o : Nat) (h : (o : Int) ≤ s.length) :
    piece c ⟨s.start, s.start + o - 1, s.start + o - s.start⟩ = (piece c s).take o := by
  unfold piece
  simp only
  rw [List.take_take]
  congr 1
  omega

theorem piece_right (c : List Nat) (s : Substr) (o n : Nat) (h0 : 0 ≤ s.start) (hs : s.stop = s.start + s.length - 1)
    (h : (o : Int) + n ≤ s.length) :
    piece c ⟨s.start + o + n - 1 + 1, s.stop, s.stop - (s.start + o + n - 1)⟩ = (piece c s).drop (o + n) := by
  unfold piece
  simp only
  rw [List.drop_take, List.drop_drop]
  congr 1
  · omega
  · congr 1; omega

section
variable {texts : List (List Nat)} {sync : Sync} {offs : List Nat} {n : Nat}

theorem left_pieces (hw : sync.substr.length = texts.length) (ho : offs.length = texts.length)
    (hb : ∀ t, t < texts.length → (offs.getD t 0 : Int) ≤ (sync.sub t).length) :
    List.zipWith piece texts (leftOf sync (startsAt sync offs)).substr =
      List.zipWith (fun q s => q.take s) (List.zipWith piece texts sync.substr) offs := by
  apply List.ext_getElem
  · simp [leftOf, startsAt]
  · intro t h1 h2
    simp only [leftOf, startsAt, List.length_zipWith, List.length_map] at h1 h2
    have hs : t < sync.substr.length := by omega
    have := hb t (by omega)
    rw [show sync.sub t = sync.substr[t] by simp [Sync.sub, hs], show offs.getD t 0 = offs[t] by simp [show t < offs.length by omega]] at this
    simp only [leftOf, startsAt, List.getElem_zipWith, List.getElem_map]
    exact piece_left _ _ _ this

theorem right_pieces (hw : sync.substr.length = texts.length) (ho : offs.length = texts.length)
    (hb : ∀ t, t < texts.length → 0 ≤ (sync.sub t).start ∧ (sync.sub t).stop = (sync.sub t).start + (sync.sub t).length - 1 ∧
      (offs.getD t 0 : Int) + n ≤ (sync.sub t).length) :
    List.zipWith piece texts (rightOf sync (startsAt sync offs) n).substr =
      List.zipWith (fun q s => q.drop (s + n)) (List.zipWith piece texts sync.substr) offs := by
  apply List.ext_getElem
  · simp [rightOf, startsAt]
  · intro t h1 h2
    simp only [rightOf, startsAt, List.length_zipWith, List.length_map] at h1 h2
    have hs : t < sync.substr.length := by omega
    obtain ⟨b1, b2, b3⟩ := hb t (by omega)
    rw [show sync.sub t = sync.substr[t] by simp [Sync.sub, hs]] at b1 b2 b3
    rw [show offs.getD t 0 = offs[t] by simp [show t < offs.length by omega]] at b3
    simp only [rightOf, startsAt, List.getElem_zipWith, List.getElem_map]
    exact piece_right _ _ _ _ b1 b2 b3

end

/-- An item that is left out is empty. -/
theorem opt_empty {texts : List (List Nat)} {s : Sync} (h : opt s = []) : ∀ p ∈ List.zipWith piece texts s.substr, p = [] := by
  unfold opt at h
  split at h
  · simp at h
  · rename_i hv
    intro p hp
    obtain ⟨t, ht⟩ := List.mem_iff_getElem?.1 hp
    have hlt := (List.getElem?_eq_some_iff.1 ht).1
    simp only [List.length_zipWith] at hlt
    have hs : t < s.substr.length := by omega
    rw [List.getElem?_eq_getElem (by simpa using hlt), List.getElem_zipWith] at ht
    simp only [Option.some.injEq] at ht
    rw [← ht]
    have hz : ¬ 0 < (s.sub t).length := fun hc => hv ((valid_iff s).2 ⟨t, hs, hc⟩)
    rw [show s.sub t = s.substr[t] by simp [Sync.sub, hs]] at hz
    unfold piece
    rw [show s.substr[t].length.toNat = 0 by omega]
    simp

theorem groups_append (texts : List (List Nat)) (l l' : List Sync) : groups texts (l ++ l') = groups texts l ++ groups texts l' := by
  simp [groups]

end Ocr.Sync
