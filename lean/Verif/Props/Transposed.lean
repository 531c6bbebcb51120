import Verif.Proof.Arranged
import Verif.Props.Across

/-!
# C83: which strings transpose_sync matches, and editop in terms of strings
-/

namespace Ocr.Sync
open Text Res

/-- C83.  For any two texts, `transpose_sync` ends with the pieces that are obtained by matching, again and again, the first of the
longest strings common to unmatched pieces.  No other result is possible. -/
theorem c83_transposed (a b : List Nat) : ∃ r, transpose_sync a b = .ok r ∧
    ∀ P Q, Transposed 0 (leftover a) (leftover b) P Q ↔ P = pieces a r.items1 ∧ Q = pieces b r.items2 := by
  obtain ⟨r, e, _⟩ := transpose_spec a b
  refine ⟨r, e, fun P Q => ⟨fun h => h.unique (transpose_transposed e), ?_⟩⟩
  rintro ⟨rfl, rfl⟩
  exact transpose_transposed e

/-- C83 (lengths).  The matches are numbered in the order in which they are found.  The first is as long as any string without reject
characters that occurs in both texts; no match is longer than an earlier one. -/
theorem c83_longest (a b : List Nat) : ∃ r, transpose_sync a b = .ok r ∧
    (∀ w, w ≠ [] → w <:+: a → w <:+: b → 126 ∉ w →
      ∃ w0, (some 0, w0) ∈ pieces a r.items1 ∧ (some 0, w0) ∈ pieces b r.items2 ∧ w.length ≤ w0.length) ∧
    ∀ m m' w w', m ≤ m' → (some m, w) ∈ pieces a r.items1 → (some m', w') ∈ pieces a r.items1 → w'.length ≤ w.length := by
  obtain ⟨r, e, _⟩ := transpose_spec a b
  have h := transpose_transposed e
  refine ⟨r, e, fun w hw ha hb hr => h.first hw ha hb hr, fun m m' w w' hm h1 h2 => ?_⟩
  refine h.decreasing ?_ m m' w w' (Nat.zero_le _) hm h1 h2
  intro m w hm
  have := (mem_leftover hm).1
  simp at this

/-- C83 (equal texts).  Two equal texts without reject characters are matched as a whole. -/
theorem c83_same (a : List Nat) (ha : a ≠ []) (hr : 126 ∉ a) : ∃ r, transpose_sync a a = .ok r ∧
    pieces a r.items1 = [(some 0, a)] ∧ pieces a r.items2 = [(some 0, a)] := by
  obtain ⟨r, e, _⟩ := transpose_spec a a
  obtain ⟨h1, h2⟩ := (transpose_transposed e).unique (transposed_same ha hr)
  exact ⟨r, e, h1, h2⟩

theorem unm_rest (a : List Nat) (l : List Sync) : Edo.unm a l = rest (pieces a l) := by
  induction l with
  | nil => rfl
  | cons s l ih =>
    unfold Edo.unm rest pieces at *
    cases hm : s.mtch <;> simp [hm, ih]

theorem arranged_blocks {a b : List Nat} {r : Synclist2} (e : transpose_sync a b = .ok r) :
    arranged (pieces a r.items1) (pieces b r.items2) =
      r.items2.filterMap (fun s => s.mtch.map (fun c => ((r.cells c).toNat, (s.sub 0).length))) := by
  obtain ⟨r', e', h1, h2, hn, hp, _, _⟩ := transpose_spec a b
  rw [e] at e'
  cases e'
  have hfst : (pieces a r.items1).filterMap Prod.fst = r.items1.filterMap (·.mtch) := by
    unfold pieces
    rw [List.filterMap_map]
    rfl
  unfold arranged
  rw [hfst]
  unfold pieces
  rw [List.filterMap_map]
  apply List.filterMap_congr
  intro s hs
  simp only [Function.comp]
  cases hm : s.mtch with
  | none => rfl
  | some c =>
    have hc : c ∈ r.items1.filterMap (·.mtch) := hp.mem_iff.1 (List.mem_filterMap.2 ⟨s, hs, hm⟩)
    obtain ⟨b1, b2, b3, b4⟩ := mem_bounds h2 hs
    have hl := Edo.piece_length (a := b) (s := s.sub 0) (by omega) (by omega) (by omega)
    have hi := List.idxOf_lt_length_of_mem hc
    have := congrArg (fun l => l[(r.items1.filterMap (·.mtch)).idxOf c]?) hn.2
    simp only [List.getElem?_map, List.getElem?_range hi, List.getElem?_eq_getElem hi, Option.map_some, Option.some.injEq,
      List.getElem_idxOf hi] at this
    simp only [Option.map_some, Option.some.injEq, Prod.mk.injEq]
    exact ⟨by omega, hl⟩

end Ocr.Sync

namespace Ocr.Edo
open Text Res Sync

theorem editop_figures {a b : List Nat} {r : Synclist2} {D : Edodata} (e : transpose_sync a b = .ok r) (h : editop a b = .ok D) :
    D.total_insertions = (rest (pieces a r.items1)).countP (fun c => c ≠ 126) ∧ D.total_deletions = (rest (pieces b r.items2)).length := by
  obtain ⟨r', e', h1, h2, _⟩ := transpose_spec a b
  rw [e] at e'
  cases e'
  obtain ⟨hnodup, hperm, hpos⟩ := blocks_start e
  obtain ⟨D', ls, S, e3, rec, _⟩ := count_moves_spec
    { Edodata.zero with
      total_insertions := 0 + ((unm a r.items1).countP (fun c => c ≠ REJECT_CHARACTER) : Nat)
      total_deletions := 0 + ((unm b r.items2).length : Nat) } (blocks r.cells r.items2)
    hnodup hperm hpos
  unfold editop at h
  rw [e, bind_ok, count_insertions_spec h1 _ _ (fun _ h => h), bind_ok, count_deletions_spec h2 _ _ _ (fun _ h => h), bind_ok] at h
  have h : count_moves _ _ = _ := h
  have e3 := h.symm.trans e3
  cases e3
  rw [rec.insertions, rec.deletions, unm_rest, unm_rest]
  exact ⟨Int.zero_add _, Int.zero_add _⟩

theorem arranged_perm {a b : List Nat} {r : Synclist2} (e : transpose_sync a b = .ok r) :
    ((arranged (pieces a r.items1) (pieces b r.items2)).map Prod.fst).Nodup := by
  obtain ⟨_, hp, _⟩ := blocks_start e
  rw [arranged_blocks e, ← blocks_pair, pair_fst]
  exact hp.symm.nodup (List.nodup_range' ..)

/-- C83 (editop).  For any two texts, the second of fewer than 10^13 characters, `editop` computes the figures described by `Report`, and
these are the only figures that it describes. -/
theorem c83_editop (a b : List Nat) (hb : b.length < 10^13) (D : Edodata) : editop a b = .ok D ↔ Report a b D := by
  obtain ⟨r, D', ls, tr, e, e2, m1, m2, t, _⟩ := c76_editop a b hb
  obtain ⟨f1, f2⟩ := editop_figures e e2
  rw [← arranged_blocks e] at t
  have hrep : Report a b D' := ⟨_, _, ls, tr, transpose_transposed e, t, f1, f2, m1, m2⟩
  refine ⟨fun h => ?_, ?_⟩
  · rw [e2] at h
    cases h
    exact hrep
  · rintro ⟨P, Q, ls', tr', hT, ht, g1, g2, g3, g4⟩
    obtain ⟨rfl, rfl⟩ := hT.unique (transpose_transposed e)
    obtain ⟨rfl, rfl⟩ := t.unique (joined_perm (arranged_perm e)) ht
    rw [e2]
    congr 1
    cases D
    cases D'
    simp only at f1 f2 m1 m2 g1 g2 g3 g4
    simp only [Edodata.mk.injEq]
    exact ⟨by rw [f1, g1], by rw [f2, g2], by rw [m1, g3], funext fun i => by rw [m2, g4]⟩

end Ocr.Edo

namespace Ocr.Sync

theorem leftover_flat (u : List Nat) : (leftover u).flatMap Prod.snd = u := by
  unfold leftover
  split
  · rename_i h; simp [h]
  · simp

theorem cut_flat {P : List Piece} {p : Nat} {u : List Nat} {i n k : Nat} (h : P[p]? = some (none, u)) :
    (cut P p u i n k).flatMap Prod.snd = P.flatMap Prod.snd := by
  obtain ⟨hlt, hp⟩ := List.getElem?_eq_some_iff.1 h
  conv => rhs; rw [← List.take_append_drop p P, List.drop_eq_getElem_cons hlt, hp]
  unfold cut
  simp only [List.flatMap_append, leftover_flat, List.flatMap_cons, List.flatMap_nil, List.append_nil, List.append_assoc]
  congr 1
  rw [← List.append_assoc, ← List.append_assoc]
  congr 1
  rw [← List.drop_drop, List.append_assoc, List.take_append_drop, List.take_append_drop]

/-- The pieces make up the texts. -/
theorem Transposed.flat {k : Nat} {P Q P' Q' : List Piece} (h : Transposed k P Q P' Q') :
    P'.flatMap Prod.snd = P.flatMap Prod.snd ∧ Q'.flatMap Prod.snd = Q.flatMap Prod.snd := by
  induction h with
  | done => exact ⟨rfl, rfl⟩
  | step hb _ ih => exact ⟨ih.1.trans (cut_flat hb.first), ih.2.trans (cut_flat hb.second)⟩

theorem Transposed.nonempty {k : Nat} {P Q P' Q' : List Piece} (h : Transposed k P Q P' Q') :
    (∀ x ∈ P, x.2 ≠ []) → (∀ x ∈ Q, x.2 ≠ []) → (∀ x ∈ P', x.2 ≠ []) ∧ (∀ x ∈ Q', x.2 ≠ []) := by
  have key : ∀ {R : List Piece} {r : Nat} {t : List Nat} {l n k : Nat} {w : List Nat}, w ≠ [] → w <+: t.drop l → n = w.length →
      (∀ x ∈ R, x.2 ≠ []) → ∀ x ∈ cut R r t l n k, x.2 ≠ [] := by
    intro R r t l n k w hw hp hn hR x hx
    subst hn
    unfold cut at hx
    simp only [List.mem_append, List.mem_singleton, take_match hp] at hx
    rcases hx with (((h | h) | h) | h) | h
    · exact hR x (List.mem_of_mem_take h)
    · obtain ⟨rfl, h'⟩ := mem_leftover h; exact h'
    · rw [h]; exact hw
    · obtain ⟨rfl, h'⟩ := mem_leftover h; exact h'
    · exact hR x (List.mem_of_mem_drop h)
  induction h with
  | done => exact fun h1 h2 => ⟨h1, h2⟩
  | step hb _ ih => exact fun h1 h2 => ih (key hb.nonempty hb.occurs.1 rfl h1) (key hb.nonempty hb.occurs.2.1 rfl h2)

theorem rest_nil {P : List Piece} (hne : ∀ x ∈ P, x.2 ≠ []) (h : rest P = []) : ∀ x ∈ P, ∃ k, x.1 = some k := by
  intro x hx
  cases hm : x.1 with
  | some k => exact ⟨k, rfl⟩
  | none =>
    unfold rest at h
    rw [List.flatMap_eq_nil_iff] at h
    exact absurd (h x (by simp [hx, hm])) (hne x hx)

theorem fst_some {P : List Piece} (h : ∀ x ∈ P, ∃ k, x.1 = some k) : P.map Prod.fst = (P.filterMap Prod.fst).map some := by
  induction P with
  | nil => rfl
  | cons x P ih =>
    obtain ⟨k, hk⟩ := h x (by simp)
    simp [hk, ih (fun y hy => h y (by simp [hy]))]

theorem same_pieces : ∀ {P Q : List Piece}, P.map Prod.fst = Q.map Prod.fst → (∀ x ∈ P, ∀ y ∈ Q, x.1 = y.1 → x.2 = y.2) → P = Q := by
  intro P
  induction P with
  | nil => intro Q h _; simpa using h
  | cons x P ih =>
    intro Q h hs
    cases Q with
    | nil => simp at h
    | cons y Q =>
      simp only [List.map_cons, List.cons.injEq] at h
      rw [ih h.2 (fun x hx y hy => hs x (by simp [hx]) y (by simp [hy])), Prod.ext h.1 (hs x (by simp) y (by simp) h.1)]

theorem idx_range {l l' : List Nat} (h : l'.map (fun k => l.idxOf k + 1) = List.range' 1 l'.length) (hl : l'.length = l.length) : l' = l := by
  apply List.ext_getElem hl
  intro i h1 h2
  have := congrArg (fun t => t[i]?) h
  simp only [List.getElem?_map, List.getElem?_eq_getElem h1, Option.map_some, List.getElem?_range' h1, Option.some.injEq] at this
  have hi : l.idxOf l'[i] = i := by omega
  have := List.getElem_idxOf (x := l'[i]) (xs := l) (by omega)
  simp only [hi] at this
  exact this.symm

end Ocr.Sync

namespace Ocr.Edo
open Text Res Sync

/-- C83 (nothing to do).  For a correct text without reject characters, `editop` reports no operation exactly if the texts are equal. -/
theorem c83_zero (a b : List Nat) (hr : 126 ∉ a) : editop a b = .ok Edodata.zero ↔ a = b := by
  constructor
  · intro h
    obtain ⟨r, D, e, e2, _, _, ls, S, hm, _, _, _, _, _, hz⟩ := editop_spec a b
    rw [h] at e2
    cases e2
    obtain ⟨f1, f2⟩ := editop_figures e h
    have hT := transpose_transposed e
    have flat := hT.flat
    rw [leftover_flat, leftover_flat] at flat
    have ne := hT.nonempty (fun x hx => by obtain ⟨rfl, h'⟩ := mem_leftover hx; exact h')
      (fun x hx => by obtain ⟨rfl, h'⟩ := mem_leftover hx; exact h')
    have r1 : rest (pieces a r.items1) = [] := by
      have h0 : (rest (pieces a r.items1)).countP (fun c => c ≠ 126) = 0 := by
        have : (0 : Int) = _ := f1
        omega
      rw [List.countP_eq_zero] at h0
      apply List.eq_nil_iff_forall_not_mem.2
      intro c hc
      have h1 : c = 126 := by simpa using h0 c hc
      apply hr
      rw [← flat.1, ← h1]
      unfold rest at hc
      rw [List.mem_flatMap] at hc ⊢
      obtain ⟨x, hx, hc⟩ := hc
      exact ⟨x, (List.mem_filter.1 hx).1, hc⟩
    have r2 : rest (pieces b r.items2) = [] := by
      have : (0 : Int) = _ := f2
      exact List.length_eq_zero_iff.1 (by omega)
    have s1 := rest_nil ne.1 r1
    have s2 := rest_nil ne.2 r2
    have hls : ls = [] := by
      have : (0 : Int) = _ := hm
      exact List.length_eq_zero_iff.1 (by omega)
    have hrange := hz.1 hls
    obtain ⟨r', e', _, _, _, hp, hs, _⟩ := transpose_spec a b
    rw [e] at e'
    cases e'
    have n1 : (pieces a r.items1).filterMap Prod.fst = r.items1.filterMap (·.mtch) := by
      unfold pieces; rw [List.filterMap_map]; rfl
    have n2 : (pieces b r.items2).filterMap Prod.fst = r.items2.filterMap (·.mtch) := by
      unfold pieces; rw [List.filterMap_map]; rfl
    have hnum : ((pieces b r.items2).filterMap Prod.fst).map (fun k => ((pieces a r.items1).filterMap Prod.fst).idxOf k + 1) =
        (blocks r.cells r.items2).map (·.mtch) := by
      have := congrArg (List.map Prod.fst) ((arranged_blocks e).trans (blocks_pair r).symm)
      rw [pair_fst] at this
      refine Eq.trans ?_ this
      unfold arranged
      rw [List.map_filterMap, List.map_filterMap]
      congr 1
      funext x
      cases x.1 <;> rfl
    have hlen : (blocks r.cells r.items2).length = ((pieces b r.items2).filterMap Prod.fst).length := by
      have := congrArg List.length hnum
      simpa using this.symm
    rw [hrange, hlen] at hnum
    have hsame := idx_range hnum (by rw [n1, n2]; exact hp.length_eq)
    have hP : pieces a r.items1 = pieces b r.items2 := by
      refine same_pieces ?_ ?_
      · rw [fst_some s1, fst_some s2, hsame]
      · intro x hx y hy hxy
        obtain ⟨x', hx', m1, p1⟩ := pieces_mem (m := x.1) (u := x.2) hx
        obtain ⟨y', hy', m2, p2⟩ := pieces_mem (m := y.1) (u := y.2) hy
        obtain ⟨k, hk⟩ := s1 x hx
        rw [← p1, ← p2]
        exact hs x' hx' y' hy' (by rw [m1, hk]; simp) (by rw [m1, m2, hxy])
    rw [← flat.1, ← flat.2, hP]
  · rintro rfl
    obtain ⟨r, e, q1, q2, q3⟩ : ∃ r, transpose_sync a a = .ok r ∧ rest (pieces a r.items1) = [] ∧ rest (pieces a r.items2) = [] ∧
        (arranged (pieces a r.items1) (pieces a r.items2)).length ≤ 1 := by
      by_cases ha : a = []
      · subst ha
        obtain ⟨r, e, _⟩ := transpose_spec [] []
        obtain ⟨q1, q2⟩ := (transpose_transposed e).unique (.done (by simp [Sync.leftover]))
        exact ⟨r, e, by rw [q1]; rfl, by rw [q2]; rfl, by rw [q1, q2]; simp [Sync.leftover, arranged]⟩
      · obtain ⟨r, e, q1, q2⟩ := c83_same a ha hr
        exact ⟨r, e, by rw [q1]; rfl, by rw [q2]; rfl, by rw [q1, q2]; simp [arranged]⟩
    obtain ⟨r', D, e', e2, _, _, ls, S, hm, hml, _, _, hl, _, _⟩ := editop_spec a a
    rw [e] at e'
    cases e'
    obtain ⟨f1, f2⟩ := editop_figures e e2
    rw [q1] at f1
    rw [q2] at f2
    have hb : (blocks r.cells r.items2).length ≤ 1 := by
      have := congrArg List.length ((arranged_blocks e).trans (blocks_pair r).symm)
      rw [List.length_map] at this
      omega
    have hls : ls = [] := List.length_eq_zero_iff.1 (by omega)
    subst hls
    rw [e2]
    congr 1
    cases D
    simp only at f1 f2 hm hml
    simp only [Edodata.zero, Edodata.mk.injEq]
    exact ⟨by simpa using f1, by simpa using f2, by simpa using hm, funext fun i => by simpa using hml i⟩

end Ocr.Edo

namespace Ocr.Across
open Text Res Spec Prog AnyText Ending

variable {U : Unicode} {junk : List Nat} {fs : Fs}

/-- C83 (the programs).  For any two files: `accuracy` reports no error exactly if `editop` reports no operation at all. -/
theorem c83_programs (F : UnicodeFacts U) (pct : Int → Int → List Nat) (hp : Acc.PctFormat pct) (hj : Bytes junk)
    (hfs : ∀ name file, fs name = some file → Bytes file) (f g : List Nat) (t u : List Ch) (hf : TextFile U fs f t) (hg : TextFile U fs g u) :
    Accuracy U pct junk fs f g t.length 0 ↔
      editopMain U junk fs [ascii "editop", f, g] = .ok ⟨none, Edo.write_edorpt Edo.Edodata.zero⟩ := by
  obtain ⟨b, V, e, _⟩ := init_args table_editop (two_names [(68, .flag 0)] "editop" (by decide +kernel) hf.1 hg.1)
  have l0 := hf.2.2.2
  have l1 := hg.2.2.2
  obtain ⟨r, D, ls, S, e1, e2, hb, hv, _⟩ := Edo.c49_editop (t.map Ch.value) (u.map Ch.value) (by rw [List.length_map]; omega)
    (by rw [List.length_map]; omega)
  have run : editopMain U junk fs [ascii "editop", f, g] = .ok ⟨none, Edo.write_edorpt D⟩ := by
    unfold editopMain
    rw [show Args.initialize_ (some Args.editopOptions) true (ascii "editop" :: [f, g]) start = _ from e, bind_ok]
    simp only
    rw [if_neg (by simp), both_read hj hfs hf hg, bind_ok]
    simp only
    rw [e2, bind_ok]
    rfl
  have hr : 126 ∉ t.map Ch.value := by
    intro hm
    obtain ⟨c, hc, e⟩ := List.mem_map.1 hm
    exact (hf.2.2.1 c hc).1 e
  have hz := Edo.c83_zero (t.map Ch.value) (u.map Ch.value) hr
  obtain ⟨d, h1, h2⟩ := accuracy_run F pct hp hj hfs hf hg
  have hzero : Edo.read_edorpt Edo.Edodata.zero (Edo.write_edorpt Edo.Edodata.zero) = .ok Edo.Edodata.zero := by
    obtain ⟨_, _, _, _, _, e3, _, hv0, _⟩ := Edo.c49_editop [] [] (by simp) (by simp)
    have e4 := (Edo.c83_zero [] [] (by simp)).2 rfl
    rw [e4] at e3
    cases e3
    exact Edo.c26_round_trip _ hv0
  rw [run]
  constructor
  · intro h
    have hd : d = 0 := (accuracy_one h1 h).2
    have same := edits_zero h2.1 hd
    have := hz.2 same
    rw [e2] at this
    cases this
    rfl
  · intro h
    have hw : Edo.write_edorpt D = Edo.write_edorpt Edo.Edodata.zero := by
      injection h with h
      injection h
    have := Edo.c26_round_trip D hv
    rw [hw, hzero] at this
    cases this
    have same := hz.1 e2
    have : d = 0 := by
      have := h2.2 0 (by rw [← same]; exact edits_same hr)
      omega
    rw [this] at h1
    exact h1

/-! ## Non-vacuity -/

/-- The longest common string is " is so", then "that" is the only one; they come in the other order. -/
example : (Sync.transpose_sync (ascii "that is so.") (ascii " is so that?")).bind (fun r =>
    .ok (Sync.pieces (ascii "that is so.") r.items1, Sync.pieces (ascii " is so that?") r.items2)) =
    .ok ([(some 1, ascii "that"), (some 0, ascii " is so"), (none, ascii ".")],
      [(some 0, ascii " is so"), (none, ascii " "), (some 1, ascii "that"), (none, ascii "?")]) := by decide +kernel

/-- Of several longest common strings, the first of the first text, and its first place in the second, is taken first. -/
example : (Sync.transpose_sync (ascii "xaybxa") (ascii "bxaxaxb")).bind (fun r =>
    .ok (Sync.pieces (ascii "xaybxa") r.items1, Sync.pieces (ascii "bxaxaxb") r.items2)) =
    .ok ([(some 1, ascii "xa"), (none, ascii "y"), (some 0, ascii "bxa")],
      [(some 0, ascii "bxa"), (some 1, ascii "xa"), (none, ascii "xb")]) := by decide +kernel

/-- The matches above are the only ones possible. -/
example : ∃ P Q, Sync.Transposed 0 [(none, ascii "that is so.")] [(none, ascii " is so that?")] P Q ∧
    ∀ P' Q', Sync.Transposed 0 [(none, ascii "that is so.")] [(none, ascii " is so that?")] P' Q' → P' = P ∧ Q' = Q := by
  obtain ⟨r, _, h⟩ := Sync.c83_transposed (ascii "that is so.") (ascii " is so that?")
  exact ⟨_, _, (h _ _).2 ⟨rfl, rfl⟩, fun P' Q' => (h P' Q').1⟩

/-- One insertion, two deletions, and one move of four characters. -/
example : ∃ D, Edo.Report (ascii "that is so.") (ascii " is so that?") D ∧ D.total_insertions = 1 ∧ D.total_deletions = 2 ∧
    D.total_moves = 1 ∧ D.moves 4 = 1 := by
  obtain ⟨D, e, h⟩ : ∃ D, Edo.editop (ascii "that is so.") (ascii " is so that?") = .ok D ∧
      (D.total_insertions = 1 ∧ D.total_deletions = 2 ∧ D.total_moves = 1 ∧ D.moves 4 = 1) := by
    have h : (Edo.editop (ascii "that is so.") (ascii " is so that?")).bind
        (fun D => .ok (D.total_insertions, D.total_deletions, D.total_moves, D.moves 4)) = .ok (1, 2, 1, 1) := by decide +kernel
    cases e : Edo.editop (ascii "that is so.") (ascii " is so that?") with
    | ok D =>
      rw [e] at h
      injection h with h
      simp only [Prod.mk.injEq] at h
      exact ⟨D, rfl, h⟩
    | _ => rw [e] at h; cases h
  exact ⟨D, (Edo.c83_editop _ _ (by decide) D).1 e, h⟩

/-- "e" is "a" with a mark; "d" differs. -/
example : editopMain sampleUnicode [] pages [ascii "editop", ascii "a", ascii "e"] = .ok ⟨none, Edo.write_edorpt Edo.Edodata.zero⟩ ∧
    editopMain sampleUnicode [] pages [ascii "editop", ascii "a", ascii "d"] ≠ .ok ⟨none, Edo.write_edorpt Edo.Edodata.zero⟩ := by
  obtain ⟨e, h1, _, h2, _⟩ := c82_accuracy sampleFacts Acc.samplePct Acc.samplePct_format no_junk pages_bytes _ _ _ _ file_a file_e
  rw [h2.2 (by decide +kernel)] at h1
  obtain ⟨e', h1', _, h2', _⟩ := c82_accuracy sampleFacts Acc.samplePct Acc.samplePct_format no_junk pages_bytes _ _ _ _ file_a file_d
  refine ⟨(c83_programs sampleFacts Acc.samplePct Acc.samplePct_format no_junk pages_bytes _ _ _ _ file_a file_e).1 h1, fun h => ?_⟩
  have h0 := (c83_programs sampleFacts Acc.samplePct Acc.samplePct_format no_junk pages_bytes _ _ _ _ file_a file_d).2 h
  have ne : ¬ (plain "The cat").map Ch.value = (plain "The hat").map Ch.value := by decide +kernel
  exact ne (h2'.1 (accuracy_one h1' h0).2)

end Ocr.Across
