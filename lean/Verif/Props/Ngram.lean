import Verif.Spec.Options
import Verif.Proof.NgramMain
import Verif.Props.Text

/-!
# C44: ngram
-/

namespace Ocr.Ngram
open Text Res

/-- The length selected by the option `-n`. -/
def Selected (nstring : Option (List Nat)) (n : Nat) : Prop :=
  (nstring = none ∧ n = 1) ∨ (1 ≤ n ∧ n ≤ 3 ∧ nstring = some [48 + n])

/-- C44 (option).  Without option the length is 1; the values "1", "2" and "3" select these lengths; any other value is
refused. -/
theorem c44_option (signed : Bool) (nstring : Option (List Nat)) (hs : ∀ s, nstring = some s → ∀ b ∈ s, 0 < b ∧ b < 256) :
    (∀ n, Selected nstring n → get_n signed nstring = .ok n) ∧
    ((¬ ∃ n, Selected nstring n) → get_n signed nstring = .err "invalid value") := by
  constructor
  · rintro n (⟨rfl, rfl⟩ | ⟨h1, h3, rfl⟩)
    · rfl
    · have : n = 1 ∨ n = 2 ∨ n = 3 := by omega
      rcases this with rfl | rfl | rfl <;> cases signed <;> rfl
  · intro h
    cases nstring with
    | none => exact absurd ⟨1, .inl ⟨rfl, rfl⟩⟩ h
    | some s =>
      have hs := hs s rfl
      cases s with
      | nil =>
        cases signed <;> rfl
      | cons a s =>
        have ha := hs a (by simp)
        unfold get_n
        simp only
        have e0 : byteAt (a :: s) 0 = .ok a := by simp [byteAt]
        rw [e0, bind_ok]
        have hcv : ∀ (x : Int), x = Vote.charVal signed a → 49 ≤ x → x ≤ 51 → a = 49 ∨ a = 50 ∨ a = 51 := by
          intro x hx h1 h2
          unfold Vote.charVal at hx
          split at hx <;> omega
        split
        · rename_i h1
          split
          · rename_i h2
            have h2' : Vote.charVal signed a ≤ 51 := by simpa [MAX_N] using h2
            have ha' := hcv _ rfl h1 h2'
            cases s with
            | nil =>
              exfalso
              apply h
              rcases ha' with rfl | rfl | rfl
              · exact ⟨1, .inr ⟨by omega, by omega, rfl⟩⟩
              · exact ⟨2, .inr ⟨by omega, by omega, rfl⟩⟩
              · exact ⟨3, .inr ⟨by omega, by omega, rfl⟩⟩
            | cons b s =>
              have hb := hs b (by simp)
              have e1 : byteAt (a :: b :: s) 1 = .ok b := by simp [byteAt]
              rw [e1, bind_ok, if_neg (by omega)]
          · rfl
        · rfl

/-- C44.  For every list of files that can be read and every length 1 to 3, the report consists of two listings of the
n-grams of all files, each n-gram once, with the number of positions at which it occurs and the number of these occurrences
that contain a suspect character.  The totals are the number of all positions and of those with a suspect character.  The
first listing is ordered by value, the second by decreasing figures. -/
theorem c44_report (U : Unicode) (F : UnicodeFacts U) (signed : Bool) (junk : List Nat) (hj : Bytes junk)
    (nstring : Option (List Nat)) (n : Nat) (hn : Selected nstring n) (files : List (List Nat)) (hne : files ≠ [])
    (hf : ∀ f ∈ files, Bytes f) (texts : List (List Ch)) (ht : Texts U junk (Spec.pageText false) files texts)
    (hc : (texts.flatMap (windows n)).length < 2^31) :
    ∃ rows1 rows2,
      ngramMain U signed junk nstring files = .ok (
        listing rows1 (texts.flatMap (windows n)).length ((texts.flatMap (windows n)).countP (fun w => w.any Ch.suspect)) ++
        ascii "\n\n" ++
        listing rows2 (texts.flatMap (windows n)).length ((texts.flatMap (windows n)).countP (fun w => w.any Ch.suspect))) ∧
      Counted U (texts.flatMap (windows n)) rows1 ∧ rows1.Pairwise ByValue ∧
      Counted U (texts.flatMap (windows n)) rows2 ∧ rows2.Pairwise ByCount := by
  have hn' : 1 ≤ n ∧ n ≤ 3 := by
    rcases hn with ⟨_, rfl⟩ | ⟨h1, h3, _⟩
    · omega
    · exact ⟨h1, h3⟩
  have hg : get_n signed nstring = .ok n := by
    refine (c44_option signed nstring ?_).1 n hn
    intro s e b hb
    rcases hn with ⟨rfl, _⟩ | ⟨h1, h3, rfl⟩
    · cases e
    · cases e
      rw [List.mem_singleton.1 hb]; omega
  obtain ⟨t, e, hT, hW⟩ := process_spec F hj hn'.1 hn'.2 (opt := textopt) rfl ht hf [] ⟨[], 0, 0⟩
    ⟨Store.tallied_nil _ _, rfl, rfl⟩ (by intro w hw; cases hw)
  rw [List.nil_append] at hT hW
  obtain ⟨W, hWe⟩ : ∃ W, texts.flatMap (windows n) = W := ⟨_, rfl⟩
  rw [hWe] at hT hW hc ⊢
  unfold ngramMain
  rw [if_neg (by intro h; exact hne (List.length_eq_zero_iff.1 h)), hg, bind_ok, e, bind_ok]
  have ha : Store.Tallied (entry U) (List.map Ch.value) W (Store.in_array Sequence.key t.entries) :=
    Store.tallied_perm hT.entries (Store.in_array_perm _ _)
  have hca := tallied_counted F hn'.2 hW ha
  have hlen : ∀ c ∈ Store.in_array Sequence.key t.entries, c.value.length = n := by
    intro c hc
    obtain ⟨w, hw, e⟩ := (hca.occur c.value).1 (List.mem_map.2 ⟨c, hc, rfl⟩)
    rw [← e, List.length_map, (hW w hw).1]
  have hsmall : ∀ c ∈ Store.in_array Sequence.key t.entries, 0 ≤ c.count ∧ c.count < 2^31 ∧ 0 ≤ c.suspect ∧ c.suspect < 2^31 := by
    intro c hm
    rw [hca.count c hm, hca.suspect c hm]
    have h1 : occurrences W c.value ≤ W.length := List.countP_le_length
    have h2 : suspects W c.value ≤ W.length := List.countP_le_length
    omega
  obtain ⟨s1, q1, _, p1, o1⟩ := c04_ngrams_by_value n _ _ (List.Perm.refl _) hca.distinct hlen _ (Nat.le_refl _)
  have hc1 := tallied_counted F hn'.2 hW (Store.tallied_perm ha p1)
  obtain ⟨s2, q2, _, p2, o2⟩ := c04_ngrams_by_count n _ _ (List.Perm.refl _) hc1.distinct
    (fun c hc => hlen c (p1.mem_iff.1 hc)) (by
      intro x hx y hy
      have h1 := hsmall x (p1.mem_iff.1 hx)
      have h2 := hsmall y (p1.mem_iff.1 hy)
      omega) _ (Nat.le_refl _)
  have hc2 := tallied_counted F hn'.2 hW (Store.tallied_perm ha (p2.trans p1))
  refine ⟨s1, s2, ?_, hc1, o1, hc2, o2⟩
  unfold write_report
  simp only
  rw [q1, bind_ok, q2, bind_ok]
  have hl : ∀ rows, write_array rows t = listing rows W.length (W.countP (fun w => w.any Ch.suspect)) := by
    intro rows
    have he : writeEntry = fun r => fmtLong 8 r.count ++ ascii " " ++ fmtLong 8 r.suspect ++ ascii "   {" ++ r.key ++ ascii "}\n" := by
      funext r; rfl
    unfold write_array listing
    rw [hT.total, hT.suspect, he, show ascii " " = [32] from rfl]
    simp only [List.append_assoc]
  rw [hl, hl]; rfl

/-- C44 (totals).  The totals are the sums of the rows, and a text of length `L` contributes `max(0, L - n + 1)`. -/
theorem c44_totals (U : Unicode) (n : Nat) (texts : List (List Ch)) (rows : List Sequence)
    (h : Counted U (texts.flatMap (windows n)) rows) :
    (rows.map Sequence.count).sum = (texts.flatMap (windows n)).length ∧
    (rows.map Sequence.suspect).sum = (texts.flatMap (windows n)).countP (fun w => w.any Ch.suspect) ∧
    (texts.flatMap (windows n)).length = (texts.map (fun t => t.length + 1 - n)).sum := by
  have hm : ∀ w ∈ texts.flatMap (windows n), w.map Ch.value ∈ rows.map Sequence.value := fun w hw => (h.occur _).2 ⟨w, hw, rfl⟩
  refine ⟨?_, ?_, ?_⟩
  · have h1 := Store.sum_counts (List.map Ch.value) (fun _ => true) _ _ h.distinct hm
    simp only [Bool.and_true, List.countP_true] at h1
    rw [← h1, List.map_map]
    have : rows.map Sequence.count = (rows.map (fun r => occurrences (texts.flatMap (windows n)) r.value)).map (Nat.cast : Nat → Int) := by
      rw [List.map_map]
      exact List.map_congr_left (fun r hr => h.count r hr)
    rw [this]
    exact (Store.cast_sum _).symm
  · have h1 := Store.sum_counts (List.map Ch.value) (fun w => w.any Ch.suspect) _ _ h.distinct hm
    rw [← h1, List.map_map]
    have : rows.map Sequence.suspect = (rows.map (fun r => suspects (texts.flatMap (windows n)) r.value)).map (Nat.cast : Nat → Int) := by
      rw [List.map_map]
      exact List.map_congr_left (fun r hr => h.suspect r hr)
    rw [this]
    exact (Store.cast_sum _).symm
  · rw [List.length_flatMap]
    congr 1
    apply List.map_congr_left
    intro t _
    simp [windows]

/-- C44 (uniqueness).  The description determines the rows and their order. -/
theorem c44_unique (U : Unicode) (W : List (List Ch)) (r s : List Sequence) (hr : Counted U W r) (hs : Counted U W s) :
    (r.Pairwise ByValue → s.Pairwise ByValue → r = s) ∧ (r.Pairwise ByCount → s.Pairwise ByCount → r = s) := by
  have hmem : ∀ {r s : List Sequence}, Counted U W r → Counted U W s → ∀ x ∈ r, x ∈ s := by
    intro r s hr hs x hx
    have := (hs.occur x.value).2 ((hr.occur x.value).1 (List.mem_map.2 ⟨x, hx, rfl⟩))
    obtain ⟨y, hy, e⟩ := List.mem_map.1 this
    have h1 := hr.key x hx
    have h2 := hs.key y hy
    have h3 := hr.count x hx
    have h4 := hs.count y hy
    have h5 := hr.suspect x hx
    have h6 := hs.suspect y hy
    rw [e] at h2 h4 h6
    rw [h1] at h2
    have : x = y := by
      cases x; cases y
      simp only [Sequence.mk.injEq] at e h1 h2 h3 h4 h5 h6 ⊢
      exact ⟨Res.ok.inj h2, e.symm, h3.trans h4.symm, h5.trans h6.symm⟩
    rw [this]; exact hy
  have hp : r.Perm s := (List.perm_ext_iff_of_nodup (List.Nodup.of_map _ hr.distinct) (List.Nodup.of_map _ hs.distinct)).2
    (fun x => ⟨hmem hr hs x, hmem hs hr x⟩)
  constructor
  · intro h1 h2
    refine hp.eq_of_pairwise ?_ h1 h2
    intro a b _ _ hab hba
    exact absurd (List.lt_trans hab hba) (List.lt_irrefl _)
  · intro h1 h2
    refine hp.eq_of_pairwise ?_ h1 h2
    intro a b _ _ hab hba
    unfold ByCount at hab hba
    rcases hab with hab | ⟨e, hab | ⟨e', hab⟩⟩ <;> rcases hba with hba | ⟨f, hba | ⟨f', hba⟩⟩ <;> first
      | omega
      | exact absurd (List.lt_trans hab hba) (List.lt_irrefl _)

/-! Non-vacuity -/

def sampleFiles : List (List Nat) := [ascii "ab^ab", ascii "a"]
def sampleTexts : List (List Ch) := [[⟨false, 97⟩, ⟨false, 98⟩, ⟨true, 97⟩, ⟨false, 98⟩], [⟨false, 97⟩]]

theorem sample_texts : Texts sampleUnicode [0, 0, 0, 0, 0] textopt sampleFiles sampleTexts :=
  .cons (opt' := textopt) (by decide +kernel) (.cons (opt' := textopt) (by decide +kernel) .nil)

example : Selected (some (ascii "2")) 2 := .inr ⟨by omega, by omega, rfl⟩
example : ¬ ∃ n, Selected (some (ascii "4")) n := by
  rintro ⟨n, ⟨h, _⟩ | ⟨_, h, e⟩⟩
  · cases h
  · simp [ascii] at e; omega
example : (∀ f ∈ sampleFiles, Bytes f) ∧ Bytes [0, 0, 0, 0, 0] := by
  constructor <;> simp only [Bytes] <;> decide
example : sampleTexts.flatMap (windows 2) =
    [[⟨false, 97⟩, ⟨false, 98⟩], [⟨false, 98⟩, ⟨true, 97⟩], [⟨true, 97⟩, ⟨false, 98⟩]] := by decide

/-- The rows of the sample. -/
def sampleRows : List Sequence := [⟨ascii "ab", [97, 98], 2, 1⟩, ⟨ascii "ba", [98, 97], 1, 1⟩]

example : Counted sampleUnicode (sampleTexts.flatMap (windows 2)) sampleRows := by
  refine ⟨by decide, ?_, by decide +kernel, by decide, by decide⟩
  intro d
  have e : sampleTexts.flatMap (windows 2) =
    [[⟨false, 97⟩, ⟨false, 98⟩], [⟨false, 98⟩, ⟨true, 97⟩], [⟨true, 97⟩, ⟨false, 98⟩]] := by decide
  rw [e]
  simp [sampleRows, eq_comm]
  tauto
example : sampleRows.Pairwise ByValue := by
  unfold sampleRows ByValue
  decide

example : ngramMain sampleUnicode true [0, 0, 0, 0, 0] (some (ascii "2")) sampleFiles = .ok (ascii (
    "   Count  Suspect\n       2        1   {ab}\n       1        1   {ba}\n       3        2   Total\n\n\n" ++
    "   Count  Suspect\n       2        1   {ab}\n       1        1   {ba}\n       3        2   Total\n")) := by decide +kernel

end Ocr.Ngram
