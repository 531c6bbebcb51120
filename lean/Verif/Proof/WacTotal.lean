import Verif.Props.Wordacc
import Verif.Props.Wacrpt

/-!
# The sum of the word figures of several pages can be reported
-/

namespace Ocr.Wac
open Text Res Report Wordacc

/-- A pair of figures up to `n`. -/
def Upto (n : Nat) (w : Wac) : Prop := 0 ≤ w.missed ∧ w.missed ≤ w.count ∧ w.count ≤ n

/-- The figures of a page are reportable and at most `n`; the figures of the words do not exceed those of all (non-)stopwords. -/
structure Bounded (n : Nat) (D : Wacdata) : Prop where
  rep      : Reportable D
  total    : Upto n D.total
  stop     : ∀ i, Upto n (D.stopword i)
  non      : ∀ i, Upto n (D.non_stopword i)
  distinct : ∀ i, Upto n (D.distinct_non_stopword i)
  phrase   : ∀ i, Upto n (D.phrase i)
  table1   : ∀ k, Upto n ⟨termCount k D.stopword_table, termMissed k D.stopword_table⟩
  table2   : ∀ k, Upto n ⟨termCount k D.non_stopword_table, termMissed k D.non_stopword_table⟩

theorem term_figures {l : List Term} (hn : (l.map Term.key).Nodup) {c : Term} (hc : c ∈ l) :
    termCount c.key l = c.count ∧ termMissed c.key l = c.missed := by
  unfold termCount termMissed
  induction l with
  | nil => simp at hc
  | cons a l ih =>
    rw [List.map_cons, List.nodup_cons] at hn
    simp only [List.map_cons, List.sum_cons]
    rcases List.mem_cons.1 hc with rfl | hm
    · have z : ∀ g : Term → Int, (l.map (fun d => if d.key = c.key then g d else 0)).sum = 0 := by
        intro g
        have : l.map (fun d => if d.key = c.key then g d else 0) = l.map (fun _ => 0) :=
          List.map_congr_left (fun d hd => if_neg (fun e : d.key = c.key => hn.1 (List.mem_map.2 ⟨d, hd, e⟩)))
        rw [this]; simp
      simp [z]
    · have : a.key ≠ c.key := fun e => hn.1 (List.mem_map.2 ⟨c, hm, e.symm⟩)
      rw [if_neg this, if_neg this]
      have := ih hn.2 hm
      omega

theorem term_absent {l : List Term} {k : List Nat} (h : k ∉ l.map Term.key) : termCount k l = 0 ∧ termMissed k l = 0 := by
  have z : ∀ g : Term → Int, (l.map (fun d => if d.key = k then g d else 0)).sum = 0 := by
    intro g
    have : l.map (fun d => if d.key = k then g d else 0) = l.map (fun _ => 0) :=
      List.map_congr_left (fun d hd => if_neg (fun e : d.key = k => h (List.mem_map.2 ⟨d, hd, e⟩)))
    rw [this]; simp
  exact ⟨z _, z _⟩

theorem exact_bounded {stop : List Nat → Bool} {ws : List (List Nat × Bool)} {D : Wacdata} (hD : Exact stop ws D) (hr : Reportable D) :
    Bounded ws.length D := by
  have z : Upto ws.length ⟨0, 0⟩ := by unfold Upto; simp only; omega
  have tf : ∀ p, Upto ws.length (tally p ws) := by
    intro p
    unfold tally Upto
    have h1 : ws.countP (fun x => p x.1 && !x.2) ≤ ws.countP (fun x => p x.1) := List.countP_mono_left (by intro y _ h; simp at h; exact h.1)
    have h2 : ws.countP (fun x => p x.1) ≤ ws.length := List.countP_le_length
    simp only
    omega
  have ent : ∀ (q : List Nat → Bool) (t : List Term), TableOf q ws t → ∀ k, Upto ws.length ⟨termCount k t, termMissed k t⟩ := by
    intro q t ht k
    by_cases hk : k ∈ t.map Term.key
    · obtain ⟨c, hc, rfl⟩ := List.mem_map.1 hk
      obtain ⟨a, b⟩ := term_figures ht.nodup hc
      have := ht.entry c hc
      have h1 : ws.countP (fun x => x.1 = c.key && !x.2) ≤ ws.countP (fun x => x.1 = c.key) := List.countP_mono_left (by intro y _ h; simp at h; simp [h.1])
      have h2 : ws.countP (fun x => x.1 = c.key) ≤ ws.length := List.countP_le_length
      unfold Upto
      simp only
      omega
    · obtain ⟨a, b⟩ := term_absent hk
      rw [a, b]; exact z
  refine ⟨hr, by rw [hD.total]; exact tf _, ?_, ?_, ?_, ?_, ent _ _ hD.table1, ent _ _ hD.table2⟩
  · intro i
    rcases Nat.eq_zero_or_pos i with rfl | hi
    · rw [hD.stop0]; exact tf _
    · rw [hD.stopL i hi]; exact tf _
  · intro i
    rcases Nat.eq_zero_or_pos i with rfl | hi
    · rw [hD.non0]; exact tf _
    · rw [hD.nonL i hi]; exact tf _
  · intro i
    obtain ⟨d0, di, d11, dl⟩ := hD.distinct (D.non_stopword_table.map Term.key) hD.table2.nodup
      (fun w => by rw [hD.table2.keys w]; simp)
    have hkl : (D.non_stopword_table.map Term.key).length ≤ ws.length := by
      have hs : (D.non_stopword_table.map Term.key) ⊆ ws.map (fun x => x.1) := fun w hw => ((hD.table2.keys w).1 hw).1
      have := (List.subperm_of_subset hD.table2.nodup hs).length_le
      rw [List.length_map (as := ws)] at this
      omega
    have tdf : ∀ lo hi, Upto ws.length (tallyDistinct lo hi (D.non_stopword_table.map Term.key) ws) := by
      intro lo hi
      unfold tallyDistinct Upto
      simp only
      have h2 := fun p => List.countP_le_length (l := D.non_stopword_table.map Term.key) (p := p)
      refine ⟨by omega, ?_, ?_⟩
      · rw [Int.ofNat_le]
        exact List.countP_mono_left (by intro y _ h; simp only [Bool.and_eq_true] at h ⊢; exact h.1)
      · have := h2 (fun w => decide (lo ≤ ws.countP (fun x => x.1 = w)) && decide (ws.countP (fun x => x.1 = w) ≤ hi))
        omega
    rcases Nat.lt_or_ge 11 i with h' | h'
    · rw [dl i h']; exact z
    · rcases Nat.eq_zero_or_pos i with rfl | hi
      · rw [d0]; exact tdf _ _
      · rcases Nat.lt_or_ge i 11 with h'' | h''
        · rw [di i hi (by omega)]; exact tdf _ _
        · have : i = 11 := by omega
          subst this
          rw [d11]; exact tdf _ _
  · intro i
    rcases Nat.eq_zero_or_pos i with rfl | hi
    · rw [hD.phrase.1]; exact z
    · rcases Nat.lt_or_ge 8 i with h' | h'
      · rw [hD.phrase.2.2 i h']; exact z
      · rw [hD.phrase.2.1 i hi h']
        unfold windows Upto
        simp only [List.length_map]
        have h2 := List.countP_le_length (l := List.range (ws.length + 1 - i)) (p := fun j => (((ws.map (fun x => x.2)).drop j).take i).any (fun r => !r))
        rw [List.length_range] at h2
        omega

/-! ## Sums -/

theorem sum_upto {g : Wacdata → Wac} (hg : ∀ n D, Bounded n D → Upto n (g D)) {ns : List Nat} {Ds : List Wacdata}
    (h : List.Forall₂ Bounded ns Ds) : Upto ns.sum (sumWac (Ds.map g)) := by
  induction h with
  | nil => unfold Upto sumWac; simp
  | cons h _ ih =>
    have := hg _ _ h
    unfold Upto sumWac at *
    simp only [List.map_cons, List.sum_cons] at *
    push_cast at ih ⊢
    omega

theorem sum_zero {g : Wacdata → Wac} {Ds : List Wacdata} (h : ∀ D ∈ Ds, g D = ⟨0, 0⟩) : sumWac (Ds.map g) = ⟨0, 0⟩ := by
  induction Ds with
  | nil => rfl
  | cons D Ds ih =>
    rw [List.map_cons, sumWac_cons, h D (by simp), ih (fun E hE => h E (by simp [hE]))]; rfl

theorem Upto.fits {n : Nat} {w : Wac} (h : Upto n w) (hn : n < 10^8) : w.Fits := by
  unfold Upto at h; unfold Wac.Fits; omega

theorem sum_nonpos {ns : List Nat} {Ds : List Wacdata} {g : Wacdata → Wac} (hg : ∀ n D, Bounded n D → Upto n (g D))
    (h : List.Forall₂ Bounded ns Ds) (h0 : (sumWac (Ds.map g)).count ≤ 0) : ∀ D ∈ Ds, (g D).count ≤ 0 := by
  induction h with
  | nil => simp
  | cons hb hrest ih =>
    have a := hg _ _ hb
    have b := sum_upto hg hrest
    unfold Upto at a b
    rw [List.map_cons, sumWac_cons] at h0
    simp only [Wac.add, increment_wac] at h0
    intro D hD
    rcases List.mem_cons.1 hD with rfl | hD
    · omega
    · exact ih (by omega) D hD

theorem table_fits {ns : List Nat} {Ds : List Wacdata} (tab : Wacdata → List Term) {t : List Term}
    (ht : TableSum (Ds.map tab) t) (hf : ∀ D ∈ Ds, TableFits (tab D))
    (hu : ∀ k, Upto ns.sum (sumWac (Ds.map (fun D => ⟨termCount k (tab D), termMissed k (tab D)⟩)))) (hl : ns.sum < 10^8) : TableFits t := by
  refine ⟨ht.nodup, ?_, ?_⟩
  · intro w hw
    obtain ⟨a, b⟩ := term_figures ht.nodup hw
    have := (hu w.key).fits hl
    rw [← a, ← b, (ht.count w.key).1, (ht.count w.key).2]
    simpa [sumWac, List.map_map, Function.comp_def] using this
  · intro w hw
    obtain ⟨u, hu', hk⟩ := (ht.keys w.key).1 (List.mem_map_of_mem hw)
    obtain ⟨D, hD, rfl⟩ := List.mem_map.1 hu'
    obtain ⟨c, hc, e⟩ := List.mem_map.1 hk
    rw [← e]; exact (hf D hD).keys c hc

theorem table_nil {Ds : List Wacdata} (tab : Wacdata → List Term) {t : List Term} (ht : TableSum (Ds.map tab) t)
    (h : ∀ D ∈ Ds, tab D = []) : t = [] := by
  cases t with
  | nil => rfl
  | cons w t =>
    obtain ⟨u, hu, hk⟩ := (ht.keys w.key).1 (by simp)
    obtain ⟨D, hD, rfl⟩ := List.mem_map.1 hu
    rw [h D hD] at hk
    simp at hk

/-- The sum of bounded figures can be reported, if the sum of the bounds is less than 10^8. -/
theorem IsSum.reportable {ns : List Nat} {Ds : List Wacdata} {D : Wacdata} (hs : IsSum Ds D) (h : List.Forall₂ Bounded ns Ds)
    (hl : ns.sum < 10^8) : Reportable D := by
  have hall : ∀ E ∈ Ds, Reportable E := by
    clear hs hl
    induction h with
    | nil => simp
    | cons h _ ih => intro E hE; rcases List.mem_cons.1 hE with rfl | hE; exacts [h.rep, ih E hE]
  constructor
  · rw [hs.total]
    have := sum_upto (g := (·.total)) (fun n E hE => hE.total) h
    unfold Upto at this
    unfold IsLong; omega
  · intro i; rw [hs.stop i]
    exact ⟨(sum_upto (fun n E hE => hE.stop i) h).fits hl, fun hi => sum_zero (fun E hE => ((hall E hE).stop i).2 hi)⟩
  · intro i; rw [hs.non i]
    exact ⟨(sum_upto (fun n E hE => hE.non i) h).fits hl, fun hi => sum_zero (fun E hE => ((hall E hE).non i).2 hi)⟩
  · intro i; rw [hs.distinct i]
    exact ⟨(sum_upto (fun n E hE => hE.distinct i) h).fits hl, fun hi => sum_zero (fun E hE => ((hall E hE).distinct i).2 hi)⟩
  · intro i; rw [hs.phrase i, hs.phrase 0, hs.total]
    refine ⟨(sum_upto (fun n E hE => hE.phrase i) h).fits hl, fun hi => sum_zero (fun E hE => ((hall E hE).phrase i).2.1 hi),
      sum_zero (fun E hE => ((hall E hE).phrase i).2.2.1), fun h0 => sum_zero (fun E hE => ((hall E hE).phrase i).2.2.2 ?_)⟩
    exact sum_nonpos (g := (·.total)) (fun n E hE => hE.total) h h0 E hE
  · exact table_fits (·.stopword_table) hs.table1 (fun E hE => (hall E hE).table1) (fun k => sum_upto (fun n E hE => hE.table1 k) h) hl
  · exact table_fits (·.non_stopword_table) hs.table2 (fun E hE => (hall E hE).table2) (fun k => sum_upto (fun n E hE => hE.table2 k) h) hl
  · rw [hs.total, hs.stop 0]
    intro h0
    refine table_nil (·.stopword_table) hs.table1 (fun E hE => (hall E hE).empty1 ?_)
    rcases h0 with h0 | h0
    · exact .inl (sum_nonpos (g := (·.total)) (fun n E hE => hE.total) h h0 E hE)
    · exact .inr (sum_nonpos (g := (·.stopword 0)) (fun n E hE => hE.stop 0) h h0 E hE)
  · rw [hs.total, hs.non 0]
    intro h0
    refine table_nil (·.non_stopword_table) hs.table2 (fun E hE => (hall E hE).empty2 ?_)
    rcases h0 with h0 | h0
    · exact .inl (sum_nonpos (g := (·.total)) (fun n E hE => hE.total) h h0 E hE)
    · exact .inr (sum_nonpos (g := (·.non_stopword 0)) (fun n E hE => hE.non 0) h h0 E hE)

/-! ## Words stored in another order -/

theorem TableSum.same {ts : List (List Term)} {t t' : List Term} (h : TableSum ts t) (hp : t.Perm t') : TableSum ts t' := by
  refine ⟨fun k => ?_, fun k => ?_, (hp.map Term.key).nodup_iff.1 h.nodup⟩
  · have a : termCount k t' = termCount k t := (hp.symm.map _).sum_eq
    have b : termMissed k t' = termMissed k t := (hp.symm.map _).sum_eq
    rw [a, b]; exact h.count k
  · rw [← h.keys k]; exact ((hp.map Term.key).mem_iff).symm

theorem IsSum.same {Es : List Wacdata} {D D' : Wacdata} (h : D.Same D') (hs : IsSum Es D) : IsSum Es D' := by
  have t1 := hs.table1.same h.2.1
  have t2 := hs.table2.same h.2.2
  rw [h.1] at t1 t2 ⊢
  exact ⟨hs.total, hs.stop, hs.non, hs.distinct, hs.phrase, t1, t2⟩

/-- Sums of the same data in other orders. -/
theorem IsSum.of_same {Ds Es : List Wacdata} (h : List.Forall₂ Wacdata.Same Ds Es) {D : Wacdata} (hs : IsSum Es D) : IsSum Ds D := by
  have mp : ∀ {α : Type} (g : Wacdata → α), (∀ D E : Wacdata, D.Same E → g D = g E) → Es.map g = Ds.map g := by
    intro α g hg
    clear hs
    induction h with
    | nil => rfl
    | cons x _ ih => rw [List.map_cons, List.map_cons, ih, hg _ _ x]
  have tb : ∀ (tab : Wacdata → List Term), (∀ D E : Wacdata, D.Same E → (tab D).Perm (tab E)) → ∀ t, TableSum (Es.map tab) t →
      TableSum (Ds.map tab) t := by
    intro tab hp t ht
    refine ⟨fun k => ?_, fun k => ?_, ht.nodup⟩
    · rw [(ht.count k).1, (ht.count k).2]
      simp only [List.map_map]
      rw [mp (termCount k ∘ tab) (fun D E e => ((hp D E e).map _).sum_eq), mp (termMissed k ∘ tab) (fun D E e => ((hp D E e).map _).sum_eq)]
      exact ⟨rfl, rfl⟩
    · rw [ht.keys k]
      have : Es.map (fun E => decide (k ∈ (tab E).map Term.key)) = Ds.map (fun E => decide (k ∈ (tab E).map Term.key)) :=
        mp _ (fun D E e => by simp only [((hp D E e).map Term.key).mem_iff])
      have m : true ∈ Es.map (fun E => decide (k ∈ (tab E).map Term.key)) ↔ true ∈ Ds.map (fun E => decide (k ∈ (tab E).map Term.key)) := by rw [this]
      simpa only [List.mem_map, decide_eq_true_eq, exists_exists_and_eq_and] using m
  exact ⟨by rw [hs.total, mp]; intro D E e; rw [e.1], fun i => by rw [hs.stop i, mp]; intro D E e; rw [e.1],
    fun i => by rw [hs.non i, mp]; intro D E e; rw [e.1], fun i => by rw [hs.distinct i, mp]; intro D E e; rw [e.1],
    fun i => by rw [hs.phrase i, mp]; intro D E e; rw [e.1], tb _ (fun D E e => e.2.1) _ hs.table1, tb _ (fun D E e => e.2.2) _ hs.table2⟩

end Ocr.Wac
