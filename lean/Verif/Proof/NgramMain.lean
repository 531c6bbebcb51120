import Verif.Spec.Ngram
import Verif.Proof.Tally
import Verif.Proof.Ngram
import Verif.Proof.ReadValues
import Verif.Props.Compare

/-!
# The counts of ngram
-/

namespace Ocr.Ngram
open Text Res

/-- The values are code points. -/
def Valid (text : List Ch) : Prop := ∀ c ∈ text, c.value < 0x110000

/-- The key of an n-gram. -/
noncomputable def gkey (U : Unicode) (vs : List Nat) : List Nat := (vs.flatMap (tok U)).flatMap encode_char

theorem gkey_cons (U : Unicode) (v : Nat) (vs : List Nat) : gkey U (v :: vs) = (tok U v).flatMap encode_char ++ gkey U vs := by
  simp [gkey]

theorem gkey_inj {U} (F : UnicodeFacts U) {xs ys : List Nat} (hl : xs.length = ys.length) (h4 : xs.length ≤ 3)
    (hx : ∀ v ∈ xs, v < 0x110000) (hy : ∀ v ∈ ys, v < 0x110000) (h : gkey U xs = gkey U ys) : xs = ys := by
  have sc : ∀ zs : List Nat, (∀ v ∈ zs, v < 0x110000) → ∀ c ∈ zs.flatMap (tok U), Scalar c := by
    intro zs hz c hc
    obtain ⟨v, hv, hc⟩ := List.mem_flatMap.1 hc
    exact (tok_scalar F (hz v hv) c hc).1
  exact tok_inj F xs ys hl (by omega) (encode_flat_inj _ _ (sc xs hx) (sc ys hy) h)

theorem gramLoop_eq {U} (F : UnicodeFacts U) : ∀ (n : Nat) (c : List Ch) (key value : List Nat) (s : Bool), Valid c →
    key.length + 8 * n + 1 ≤ MAX_N * STRING_SIZE →
    gramLoop U n c key value s = .ok (if n ≤ c.length then
      some (key ++ gkey U ((c.take n).map Ch.value), value ++ (c.take n).map Ch.value, s || (c.take n).any Ch.suspect) else none) := by
  intro n
  induction n with
  | zero => intro c key value s _ _; simp [gramLoop, gkey]
  | succ n ih =>
    intro c key value s hv hk
    cases c with
    | nil => simp [gramLoop]
    | cons x c =>
      obtain ⟨h1, h2⟩ := char_to_string_plain (U := U) (hv x (by simp))
      unfold gramLoop
      rw [h1]
      simp only [bind_ok, tok_cstr F (hv x (by simp))]
      have hs : STRING_SIZE = 9 := by decide
      rw [hs] at h2
      rw [if_pos (by rw [List.length_append]; omega),
        ih _ _ _ _ (fun y hy => hv y (by simp [hy])) (by rw [List.length_append]; omega)]
      simp only [List.length_cons, Nat.add_le_add_iff_right, List.take_succ_cons, List.map_cons, gkey_cons, List.any_cons,
        List.append_assoc, List.singleton_append, Bool.or_assoc]

theorem windows_short {n : Nat} {text : List Ch} (h : text.length < n) : windows n text = [] := by
  unfold windows
  rw [show text.length + 1 - n = 0 by omega]; rfl

theorem windows_cons {n : Nat} {c : Ch} {text : List Ch} (h : n ≤ (c :: text).length) :
    windows n (c :: text) = (c :: text).take n :: windows n text := by
  unfold windows
  rw [List.length_cons] at h ⊢
  rw [show text.length + 1 + 1 - n = (text.length + 1 - n) + 1 by omega, List.range_succ_eq_map]
  simp [List.map_map, Function.comp_def]

theorem windows_length {n : Nat} {text : List Ch} : ∀ w ∈ windows n text, w.length = n ∧ ∀ c ∈ w, c ∈ text := by
  intro w hw
  obtain ⟨i, hi, rfl⟩ := List.mem_map.1 hw
  rw [List.mem_range] at hi
  refine ⟨by simp; omega, fun c hc => List.mem_of_mem_drop (List.mem_of_mem_take hc)⟩

/-- The entry of an n-gram for the windows `W`. -/
noncomputable def entry (U : Unicode) (W : List (List Ch)) (d : List Nat) : Sequence :=
  ⟨gkey U d, d, occurrences W d, suspects W d⟩

/-- The windows are n-grams of code points. -/
def Grams (n : Nat) (W : List (List Ch)) : Prop := ∀ w ∈ W, w.length = n ∧ Valid w

/-- The table for the windows `W`. -/
structure TI (U : Unicode) (W : List (List Ch)) (t : Seqtable) : Prop where
  entries : Store.Tallied (entry U) (List.map Ch.value) W t.entries
  total   : t.total_count = W.length
  suspect : t.total_suspect = W.countP (fun w => w.any Ch.suspect)

theorem add_spec {U} (F : UnicodeFacts U) {n : Nat} (hn : n ≤ 3) {W : List (List Ch)} {t : Seqtable} (h : TI U W t) (hW : Grams n W)
    {w : List Ch} (hw : w.length = n ∧ Valid w) :
    TI U (W ++ [w]) (add_sequence (gkey U (w.map Ch.value)) (w.map Ch.value) (w.any Ch.suspect) t) := by
  have hval : ∀ w : List Ch, Valid w → ∀ v ∈ w.map Ch.value, v < 0x110000 := by
    intro w hw v hv
    obtain ⟨c, hc, rfl⟩ := List.mem_map.1 hv
    exact hw c hc
  refine ⟨?_, ?_, ?_⟩
  · refine Store.tallied_add (keyOf := Sequence.key) (entry := entry U) (name := List.map Ch.value) W w _ _ ?_ ?_ ?_ ?_ h.entries
    · intro d hd he
      obtain ⟨w', hw', rfl⟩ := List.mem_map.1 hd
      exact gkey_inj F (by simp [(hW w' hw').1, hw.1]) (by simp [(hW w' hw').1]; omega) (hval _ (hW w' hw').2) (hval _ hw.2) he
    · intro d _ hd
      unfold entry occurrences suspects
      simp [Ne.symm hd]
    · unfold entry occurrences suspects
      rw [List.countP_append, List.countP_append]
      cases hs : w.any Ch.suspect <;> simp [hs]
    · intro hnot
      unfold entry occurrences suspects
      have h0 : ∀ (p : List Ch → Bool), W.countP (fun x => decide (x.map Ch.value = w.map Ch.value) && p x) = 0 := by
        intro p
        rw [List.countP_eq_zero]
        intro x hx
        have : x.map Ch.value ≠ w.map Ch.value := fun e => hnot (e ▸ List.mem_map.2 ⟨x, hx, rfl⟩)
        simp [this]
      have h1 := h0 (fun _ => true)
      simp only [Bool.and_true] at h1
      have h2 := h0 (fun x => x.any Ch.suspect)
      rw [List.countP_append, List.countP_append, h1, h2]
      cases hs : w.any Ch.suspect <;> simp [hs]
  · show t.total_count + 1 = _
    rw [h.total]; simp
  · show (if w.any Ch.suspect = true then t.total_suspect + 1 else t.total_suspect) = _
    rw [h.suspect, List.countP_append]
    cases hs : w.any Ch.suspect <;> simp [hs]

theorem startLoop_spec {U} (F : UnicodeFacts U) {n : Nat} (h1 : 1 ≤ n) (hn : n ≤ 3) : ∀ (text : List Ch) (W : List (List Ch))
    (t : Seqtable), TI U W t → Grams n W → Valid text →
    ∃ t', startLoop U n text t = .ok t' ∧ TI U (W ++ windows n text) t' ∧ Grams n (W ++ windows n text) := by
  intro text
  induction text with
  | nil =>
    intro W t h hW _
    rw [windows_short (by simp; omega), List.append_nil]
    exact ⟨t, rfl, h, hW⟩
  | cons c text ih =>
    intro W t h hW hv
    unfold startLoop
    have hs : STRING_SIZE = 9 := by decide
    rw [gramLoop_eq F n _ [] [] false hv (by simp [MAX_N, hs]; omega), bind_ok]
    by_cases hl : n ≤ (c :: text).length
    · rw [if_pos hl, windows_cons hl]
      simp only [List.nil_append, Bool.false_or]
      have hw : ((c :: text).take n).length = n ∧ Valid ((c :: text).take n) :=
        ⟨by rw [List.length_take]; omega, fun x hx => hv x (List.mem_of_mem_take hx)⟩
      have ha := add_spec F hn h hW hw
      obtain ⟨t', e, h', hW'⟩ := ih _ _ ha (by
        intro w hw'
        rcases List.mem_append.1 hw' with hw' | hw'
        · exact hW w hw'
        · rw [List.mem_singleton.1 hw']; exact hw) (fun x hx => hv x (by simp [hx]))
      rw [List.append_assoc, List.singleton_append] at h' hW'
      exact ⟨t', e, h', hW'⟩
    · rw [if_neg hl, windows_short (by omega), List.append_nil]
      exact ⟨t, rfl, h, hW⟩

theorem process_spec {U} (F : UnicodeFacts U) {junk : List Nat} (hj : Bytes junk) {n : Nat} (h1 : 1 ≤ n) (hn : n ≤ 3)
    {opt : Textopt} (ho : opt.case_insensitive = false) {files : List (List Nat)} {texts : List (List Ch)}
    (ht : Texts U junk opt files texts) (hf : ∀ f ∈ files, Bytes f) : ∀ (W : List (List Ch)) (t : Seqtable), TI U W t → Grams n W →
    ∃ t', processFiles U junk n opt files t = .ok t' ∧ TI U (W ++ texts.flatMap (windows n)) t' ∧
      Grams n (W ++ texts.flatMap (windows n)) := by
  induction ht with
  | nil => intro W t h hW; exact ⟨t, rfl, by simpa using h, by simpa using hW⟩
  | @cons opt opt' file text files texts hr _ ih =>
    intro W t h hW
    obtain ⟨hv, hc, _⟩ := read_text_values U junk file opt opt' text (hf file (by simp)) hj hr
    unfold processFiles
    rw [hr, bind_ok]
    simp only
    obtain ⟨t', e, h', hW'⟩ := startLoop_spec F h1 hn text W t h hW (by
      intro c hc
      obtain ⟨v, hs, e⟩ := hv c hc
      rw [ho] at e
      simp at e
      rw [e]
      unfold Scalar at hs; omega)
    rw [e, bind_ok]
    obtain ⟨t'', e', h'', hW''⟩ := ih (by rw [hc]; exact ho) (fun f hf' => hf f (by simp [hf'])) _ _ h' hW'
    rw [List.append_assoc] at h'' hW''
    exact ⟨t'', e', h'', hW''⟩

theorem tallied_counted {U} (F : UnicodeFacts U) {n : Nat} (hn : n ≤ 3) {W : List (List Ch)} (hW : Grams n W) {rows : List Sequence}
    (h : Store.Tallied (entry U) (List.map Ch.value) W rows) : Counted U W rows := by
  obtain ⟨ds, hnd, hmem, rfl⟩ := h
  have hval : (ds.map (entry U W)).map Sequence.value = ds := by
    rw [List.map_map]; exact List.map_id'' (fun _ => rfl) _
  refine ⟨by rw [hval]; exact hnd, ?_, ?_, ?_, ?_⟩
  · intro d
    rw [hval, hmem, List.mem_map]
  · intro r hr
    obtain ⟨d, hd, rfl⟩ := List.mem_map.1 hr
    obtain ⟨w, hw, rfl⟩ := List.mem_map.1 ((hmem d).1 hd)
    have hl := hW w hw
    have hs : STRING_SIZE = 9 := by decide
    have := keyLoop_eq F (MAX_N * STRING_SIZE) (w.map Ch.value) [] (by
      intro v hv
      obtain ⟨c, hc, rfl⟩ := List.mem_map.1 hv
      exact hl.2 c hc) (by simp [MAX_N, hs, hl.1]; omega)
    unfold ngramKey
    exact this
  · intro r hr
    obtain ⟨d, hd, rfl⟩ := List.mem_map.1 hr
    rfl
  · intro r hr
    obtain ⟨d, hd, rfl⟩ := List.mem_map.1 hr
    rfl

end Ocr.Ngram
