import Verif.Spec.Wacrpt
import Verif.Proof.Accrpt
import Verif.Props.Sort

/-! # Reading what write_wacrpt has written -/

namespace Ocr.Wac
open Text Res Report
open Ocr.Acc (strAt after_line PctFormat Plain Ends plain_fmt plain_ascii plain_sp)

variable {pct : Int → Int → List Nat}

theorem write_pct_plain (hp : PctFormat pct) (w : Wac) : Plain (write_pct pct w) := by
  unfold write_pct
  split
  · exact plain_ascii (by decide)
  · exact hp.bytes _ _

theorem write_pct_width (hp : PctFormat pct) {w : Wac} (h : w.Fits) : (write_pct pct w).length = 8 := by
  unfold write_pct
  obtain ⟨h1, h2, h3⟩ := h
  split
  · decide
  · exact hp.width _ _ (by omega) (by omega) (by omega)

theorem write_wac_plain (hp : PctFormat pct) (w : Wac) : Plain (write_wac pct w) := by
  unfold write_wac
  exact (((plain_fmt _ _).append plain_sp).append (plain_fmt _ _)).append
    ((plain_sp.append (write_pct_plain hp w)).append (plain_ascii (by decide)))

theorem write_wac_width (hp : PctFormat pct) {w : Wac} (h : w.Fits) : (write_wac pct w).length = 29 := by
  have h' := h
  obtain ⟨h1, h2, h3⟩ := h
  have w1 := fmtLong_len8 (v := w.count) (by omega) h3
  have w2 := fmtLong_len8 (v := w.missed) h1 (by omega)
  have w3 := write_pct_width hp h'
  have e3 : (ascii "   ").length = 3 := by decide
  unfold write_wac
  simp only [List.length_append, List.length_cons, List.length_nil, w1, w2, w3, e3]

theorem read_entry (hp : PctFormat pct) {w : Wac} (h : w.Fits) {s : List Nat} (hs : Plain s) (hl : s.length ≤ 68) (r : List Nat) :
    read_two (write_wac pct w ++ s ++ 10 :: r) = some ((w.count, w.missed, write_wac pct w ++ s ++ [10]), r) := by
  have hw := write_wac_width hp h
  have hline : Line (write_wac pct w ++ s) := ((write_wac_plain hp w).append hs).line (by rw [List.length_append, hw]; omega)
  have e : write_wac pct w ++ s = fmtLong 8 w.count ++ [32] ++ fmtLong 8 w.missed ++ ([32] ++ write_pct pct w ++ ascii "   " ++ s) := by
    simp [write_wac]
  rw [e] at hline ⊢
  exact read_two_eq hline (by simp [isdigit]) r

theorem at_entry (hp : PctFormat pct) {w : Wac} (h : w.Fits) (s : List Nat) : strAt (write_wac pct w ++ s ++ [10]) OFFSET = .ok (s ++ [10]) := by
  have hw := write_wac_width hp h
  unfold strAt OFFSET
  rw [if_pos (by simp only [List.length_append, hw]; omega), List.append_assoc, List.drop_left' hw]

/-! ## Tables of numbers -/

/-- One line of a table of numbers: the figures, the text after them, and where the line belongs. -/
structure Entry where
  w     : Wac
  s     : List Nat
  index : Nat
  total : Bool

structure Entry.Ok (size : Nat) (e : Entry) : Prop where
  fits  : e.w.Fits
  plain : Plain e.s
  len   : e.s.length ≤ 68
  index : lineIndex (e.s ++ [10]) = ((e.index : Int), e.total)
  lt    : e.index < size

def Entry.add (wac : Nat → Wac) (e : Entry) : Nat → Wac :=
  fun i => if i = e.index then increment_wac (wac i) e.w.count e.w.missed else wac i

theorem numbersLoop_eq (hp : PctFormat pct) {size : Nat} {tail r : List Nat} (ht : Ends tail r) : ∀ (es : List Entry)
    (fuel : Nat) (wac : Nat → Wac) (total : Int), (∀ e ∈ es, e.Ok size) → es.length ≤ fuel →
    numbersLoop size fuel (es.flatMap (fun e : Entry => write_wac pct e.w ++ e.s ++ [10]) ++ tail) wac total =
      .ok (es.foldl Entry.add wac, es.foldl (fun t e => if e.total then e.w.count else t) total, r) := by
  intro es
  induction es with
  | nil =>
    intro fuel wac total _ _
    rw [numbersLoop.eq_def]
    simp only [List.flatMap_nil, List.nil_append, List.foldl_nil]
    rw [ht.read_two.1, ht.read_two.2]
  | cons e es ih =>
    intro fuel wac total h hf
    match fuel, hf with
    | fuel + 1, hf =>
      have he := h e (by simp)
      have e1 : (e :: es).flatMap (fun e : Entry => write_wac pct e.w ++ e.s ++ [10]) ++ tail =
          write_wac pct e.w ++ e.s ++ 10 :: (es.flatMap (fun e : Entry => write_wac pct e.w ++ e.s ++ [10]) ++ tail) := by simp
      rw [numbersLoop.eq_def, e1]
      simp only
      rw [read_entry hp he.fits he.plain he.len]
      simp only
      rw [at_entry hp he.fits, bind_ok, he.index]
      simp only [incrementAt]
      rw [if_pos ⟨by omega, by have := he.lt; omega⟩, bind_ok,
        ih fuel _ _ (fun x hx => h x (by simp [hx])) (by simpa using hf)]
      rfl

/-- The lines for the elements `l` of an array. -/
def numEntries (f : Nat → Wac) (l : List Nat) : List Entry :=
  l.flatMap (fun i => if (f i).count > 0 then [⟨f i, ascii "    " ++ fmtLong 2 i, i, false⟩] else [])

theorem foldl_nums (f : Nat → Wac) (j : Nat) : ∀ (l : List Nat) (wac : Nat → Wac), l.Nodup →
    (numEntries f l).foldl Entry.add wac j =
      if j ∈ l ∧ (f j).count > 0 then increment_wac (wac j) (f j).count (f j).missed else wac j := by
  intro l
  induction l with
  | nil => intro wac _; simp [numEntries]
  | cons i l ih =>
    intro wac hn
    rw [List.nodup_cons] at hn
    have e : numEntries f (i :: l) = (if (f i).count > 0 then [⟨f i, ascii "    " ++ fmtLong 2 i, i, false⟩] else []) ++ numEntries f l := rfl
    rw [e, List.foldl_append, ih _ hn.2]
    by_cases hj : j = i
    · subst hj
      by_cases hc : (f j).count > 0
      · simp [hn.1, hc, Entry.add]
      · simp [hc]
    · by_cases hc : (f i).count > 0
      · simp only [if_pos hc, List.foldl_cons, List.foldl_nil, Entry.add, List.mem_cons, hj, false_or, if_false]
      · simp only [if_neg hc, List.foldl_nil, List.mem_cons, hj, false_or]

theorem foldl_nums_total (f : Nat → Wac) (l : List Nat) (t : Int) :
    (numEntries f l).foldl (fun t e => if e.total then e.w.count else t) t = t := by
  induction l with
  | nil => rfl
  | cons i l ih =>
    have e : numEntries f (i :: l) = (if (f i).count > 0 then [⟨f i, ascii "    " ++ fmtLong 2 i, i, false⟩] else []) ++ numEntries f l := rfl
    rw [e, List.foldl_append]
    split
    · exact ih
    · exact ih

def excessEntries (f : Nat → Wac) (limit : Nat) (excess : Bool) : List Entry :=
  if excess ∧ (f (limit + 1)).count > 0 then [⟨f (limit + 1), ascii "   >" ++ fmtLong 2 limit, MAX_OCCURRENCES + 1, false⟩] else []

def totalEntries (f : Nat → Wac) (total : Bool) : List Entry :=
  if total then [⟨f 0, ascii " Total", 0, true⟩] else []

def entries (f : Nat → Wac) (limit : Nat) (excess total : Bool) : List Entry :=
  numEntries f (List.range' 1 limit) ++ excessEntries f limit excess ++ totalEntries f total

/-- A table of numbers without the empty line in front. -/
def body (pct : Int → Int → List Nat) (f : Nat → Wac) (limit : Nat) (title : String) (excess total : Bool) : List Nat :=
  ascii title ++ [10] ++ write_heading ++ ascii (if excess then "Occurs" else "Length") ++ [10] ++
    (entries f limit excess total).flatMap (fun e : Entry => write_wac pct e.w ++ e.s ++ [10])

theorem write_numbers_eq (f : Nat → Wac) (limit : Nat) (title : String) (excess total : Bool) :
    write_numbers pct f limit title excess total = 10 :: body pct f limit title excess total := by
  have h1 : (List.range' 1 limit).flatMap (fun i : Nat =>
      if (f i).count > 0 then write_wac pct (f i) ++ ascii "    " ++ fmtLong 2 i ++ [10] else []) =
      (numEntries f (List.range' 1 limit)).flatMap (fun e : Entry => write_wac pct e.w ++ e.s ++ [10]) := by
    unfold numEntries
    rw [List.flatMap_assoc]
    congr 1
    funext i
    split <;> simp
  have h2 : (if excess ∧ (f (limit + 1)).count > 0 then
      write_wac pct (f (limit + 1)) ++ ascii "   >" ++ fmtLong 2 limit ++ [10] else []) =
      (excessEntries f limit excess).flatMap (fun e : Entry => write_wac pct e.w ++ e.s ++ [10]) := by
    unfold excessEntries
    split <;> simp
  have h3 : (if total then write_wac pct (f 0) ++ TOTAL else []) =
      (totalEntries f total).flatMap (fun e : Entry => write_wac pct e.w ++ e.s ++ [10]) := by
    unfold totalEntries
    have : TOTAL = ascii " Total" ++ [10] := by decide
    split <;> simp [this]
  unfold write_numbers body entries
  rw [h1, h2, h3]
  simp

theorem lineIndex_num {i : Nat} (hi : 1 ≤ i) : lineIndex (ascii "    " ++ fmtLong 2 i ++ [10]) = ((i : Int), false) := by
  have e : ascii "    " = List.replicate 4 32 := by decide
  have h := scan_fmt 4 2 (i : Int) [10] (by simp [isdigit])
  have ha : atoi (ascii "    " ++ fmtLong 2 i ++ [10]) = i := by unfold atoi; rw [e, h]; rfl
  unfold lineIndex
  rw [ha, if_neg (by omega)]

theorem lineIndex_excess (s : List Nat) : lineIndex (ascii "   >" ++ s) = ((MAX_OCCURRENCES : Int) + 1, false) := by
  have e : ascii "   >" = [32, 32, 32, 62] := by decide
  have e2 : TOTAL = 32 :: 84 :: ascii "otal\n" := by decide
  unfold lineIndex
  have ha : atoi (ascii "   >" ++ s) = 0 := by
    rw [e]
    unfold atoi scanLong
    simp [isspace, scanSign, isdigit]
  rw [ha, if_pos rfl, if_neg]
  rw [e, e2]; simp

theorem lineIndex_total : lineIndex (ascii " Total" ++ [10]) = (0, true) := by decide

theorem fmtLong2_len {i : Nat} (h : i < 10 ^ 60) : (fmtLong 2 (i : Int)).length ≤ 60 := by
  have := decDigits_len 59 i h
  have e : fmtInt (i : Int) = decDigits i := by unfold fmtInt; rw [if_neg (by omega)]; simp
  unfold fmtLong; rw [List.length_append, List.length_replicate, e]; omega

theorem entries_ok {f : Nat → Wac} {limit size : Nat} {excess total : Bool} (hf : ∀ i, (f i).Fits) (hl : limit < size)
    (hl2 : limit ≤ 50) (hx : excess → limit = MAX_OCCURRENCES ∧ limit + 1 < size) :
    ∀ e ∈ entries f limit excess total, e.Ok size := by
  intro e he
  unfold entries at he
  have e4 : (ascii "    ").length = 4 := by decide
  have e5 : (ascii "   >").length = 4 := by decide
  have e6 : (ascii " Total").length = 6 := by decide
  have hlen : ∀ {i : Nat}, i ≤ 50 → (fmtLong 2 (i : Int)).length ≤ 60 := fun h => fmtLong2_len (by omega)
  rcases List.mem_append.1 he with he | he
  · rcases List.mem_append.1 he with he | he
    · unfold numEntries at he
      obtain ⟨i, hi, he⟩ := List.mem_flatMap.1 he
      rw [List.mem_range'_1] at hi
      split at he
      · simp only [List.mem_singleton] at he
        subst he
        refine ⟨hf i, (plain_ascii (by decide)).append (plain_fmt _ _), ?_, ?_, by simp only; omega⟩
        · simp only [List.length_append, e4]
          have := hlen (i := i) (by omega); omega
        · exact lineIndex_num hi.1
      · simp at he
    · unfold excessEntries at he
      split at he
      · rename_i hc
        obtain ⟨h1, h2⟩ := hx hc.1
        simp only [List.mem_singleton] at he
        subst he
        refine ⟨hf _, (plain_ascii (by decide)).append (plain_fmt _ _), ?_, ?_, by simp only; omega⟩
        · simp only [List.length_append, e5]
          have := hlen (i := limit) (by omega); omega
        · simp only [List.append_assoc]; exact lineIndex_excess _
      · simp at he
  · unfold totalEntries at he
    split at he
    · simp only [List.mem_singleton] at he
      subst he
      exact ⟨hf 0, plain_ascii (by decide), by simp only [e6]; omega, lineIndex_total, by simp only; omega⟩
    · simp at he

theorem two_lines_eq {l m : List Nat} (hl : Line l) (hm : Line m) (r : List Nat) : two_lines (l ++ 10 :: (m ++ 10 :: r)) = (true, r) := by
  unfold two_lines
  rw [read_line_eq hl]
  simp only
  rw [read_line_eq hm]

theorem fits_zero {w : Wac} (h : w.Fits) (hc : ¬ w.count > 0) : w = ⟨0, 0⟩ := by
  obtain ⟨h1, h2, _⟩ := h
  have a : w.count = 0 := by omega
  have b : w.missed = 0 := by omega
  cases w; simp_all

/-- A table of numbers is read back. -/
theorem read_numbers_eq (hp : PctFormat pct) {f : Nat → Wac} {limit size : Nat} {title : String} {excess total : Bool} {tail r : List Nat}
    (ht : Ends tail r) (hti : Plain (ascii title)) (htl : (ascii title).length ≤ 97) (hf : ∀ i, (f i).Fits) (hl : limit < size)
    (hl2 : limit ≤ 50) (hx : excess → limit = MAX_OCCURRENCES ∧ limit + 1 < size)
    (hz : ∀ i, (if excess then limit + 1 else limit) < i → f i = ⟨0, 0⟩) (h0 : total = false → f 0 = ⟨0, 0⟩) :
    read_numbers size (body pct f limit title excess total ++ tail) (fun _ => ⟨0, 0⟩) =
      .ok (f, (if total then (f 0).count else 0), r) := by
  have hhead : Line (write_heading ++ ascii (if excess then "Occurs" else "Length")) := by
    constructor <;> cases excess <;> decide
  have e : body pct f limit title excess total ++ tail =
      ascii title ++ 10 :: ((write_heading ++ ascii (if excess then "Occurs" else "Length")) ++ 10 ::
        ((entries f limit excess total).flatMap (fun e : Entry => write_wac pct e.w ++ e.s ++ [10]) ++ tail)) := by
    simp [body]
  have hlen : (entries f limit excess total).length ≤
      ((entries f limit excess total).flatMap (fun e : Entry => write_wac pct e.w ++ e.s ++ [10]) ++ tail).length := by
    rw [List.length_append]
    generalize entries f limit excess total = es
    induction es with
    | nil => simp
    | cons a l ih => rw [List.flatMap_cons, List.length_append, List.length_cons]; simp at ih ⊢; omega
  unfold read_numbers
  rw [e, two_lines_eq (hti.line htl) hhead]
  simp only [if_true]
  rw [numbersLoop_eq hp ht _ _ _ _ (entries_ok hf hl hl2 hx) hlen]
  have hnd : (List.range' 1 limit).Nodup := List.nodup_range'
  have ht1 : (entries f limit excess total).foldl (fun t e => if e.total then e.w.count else t) (0 : Int) =
      if total then (f 0).count else 0 := by
    unfold entries
    rw [List.foldl_append, List.foldl_append, foldl_nums_total]
    have : (excessEntries f limit excess).foldl (fun t e => if e.total then e.w.count else t) (0 : Int) = 0 := by
      unfold excessEntries; split <;> rfl
    rw [this]
    unfold totalEntries
    split <;> rfl
  have ht2 : (entries f limit excess total).foldl Entry.add (fun _ => ⟨0, 0⟩) = f := by
    funext j
    have hw : ∀ w : Wac, increment_wac ⟨0, 0⟩ w.count w.missed = w := by intro w; simp [increment_wac]
    unfold entries
    rw [List.foldl_append, List.foldl_append]
    obtain ⟨g, hg⟩ : ∃ g, g = (numEntries f (List.range' 1 limit)).foldl Entry.add (fun _ => ⟨0, 0⟩) := ⟨_, rfl⟩
    have hgj : ∀ j, g j = if 1 ≤ j ∧ j ≤ limit then f j else ⟨0, 0⟩ := by
      intro j
      rw [hg, foldl_nums f j _ _ hnd]
      have hm := List.mem_range'_1 (m := j) (s := 1) (n := limit)
      by_cases hj : 1 ≤ j ∧ j ≤ limit
      · rw [if_pos hj]
        by_cases hc : (f j).count > 0
        · rw [if_pos ⟨hm.2 (by omega), hc⟩, hw]
        · rw [if_neg (by simp only [hc, and_false, not_false_iff]), fits_zero (hf j) hc]
      · rw [if_neg (fun h => hj (by have := hm.1 h.1; omega)), if_neg hj]
    rw [← hg]
    obtain ⟨g2, hg2⟩ : ∃ g2, g2 = (excessEntries f limit excess).foldl Entry.add g := ⟨_, rfl⟩
    have hg2j : ∀ j, g2 j = if j = 0 then ⟨0, 0⟩ else f j := by
      intro j
      rw [hg2]
      unfold excessEntries
      by_cases hc : excess ∧ (f (limit + 1)).count > 0
      · rw [if_pos hc]
        simp only [List.foldl_cons, List.foldl_nil, Entry.add]
        obtain ⟨h1, h2⟩ := hx hc.1
        rw [if_pos hc.1] at hz
        by_cases hj : j = MAX_OCCURRENCES + 1
        · rw [if_pos hj, hgj, if_neg (by omega), if_neg (by omega), hw, hj, h1]
        · rw [if_neg hj, hgj]
          by_cases hj0 : j = 0
          · subst hj0; simp
          · rw [if_neg hj0]
            by_cases hjl : j ≤ limit
            · rw [if_pos ⟨by omega, hjl⟩]
            · rw [if_neg (by omega), hz j (by omega)]
      · rw [if_neg hc]
        simp only [List.foldl_nil]
        rw [hgj]
        by_cases hj0 : j = 0
        · subst hj0; simp
        · rw [if_neg hj0]
          by_cases hjl : j ≤ limit
          · rw [if_pos ⟨by omega, hjl⟩]
          · rw [if_neg (by omega)]
            by_cases hex : excess = true
            · rw [if_pos hex] at hz
              by_cases hjj : j = limit + 1
              · subst hjj
                exact (fits_zero (hf _) (fun h => hc ⟨hex, h⟩)).symm
              · rw [hz j (by omega)]
            · rw [if_neg hex] at hz
              rw [hz j (by omega)]
    rw [← hg2]
    unfold totalEntries
    by_cases htt : total = true
    · rw [if_pos htt]
      simp only [List.foldl_cons, List.foldl_nil, Entry.add]
      by_cases hj : j = 0
      · subst hj; rw [if_pos rfl, hg2j, if_pos rfl, hw]
      · rw [if_neg hj, hg2j, if_neg hj]
    · rw [if_neg htt]
      simp only [List.foldl_nil]
      rw [hg2j]
      by_cases hj : j = 0
      · subst hj; rw [if_pos rfl, h0 (by simpa using htt)]
      · rw [if_neg hj]
  rw [ht1, ht2]

/-! ## Tables of words -/

def termLine (pct : Int → Int → List Nat) (t : Term) : List Nat := write_wac pct ⟨t.count, t.missed⟩ ++ t.key ++ [10]

theorem termsLoop_eq (hp : PctFormat pct) {tail r : List Nat} (ht : Ends tail r) : ∀ (ts : List Term) (fuel : Nat) (table : List Term),
    (∀ t ∈ ts, (⟨t.count, t.missed⟩ : Wac).Fits) → (∀ t ∈ ts, 10 ∉ t.key ∧ 0 ∉ t.key ∧ t.key.length ≤ 68) →
    (ts.map Term.key).Nodup → (∀ t ∈ ts, ∀ d ∈ table, d.key ≠ t.key) → ts.length ≤ fuel →
    termsLoop fuel (ts.flatMap (termLine pct) ++ tail) table = .ok (ts.reverse ++ table, r) := by
  intro ts
  induction ts with
  | nil =>
    intro fuel table _ _ _ _ _
    rw [termsLoop.eq_def]
    simp only [List.flatMap_nil, List.nil_append, List.reverse_nil]
    rw [ht.read_two.1, ht.read_two.2]
  | cons t ts ih =>
    intro fuel table h1 h2 h3 h4 hf
    match fuel, hf with
    | fuel + 1, hf =>
      have hw := write_wac_width hp (h1 t (by simp))
      obtain ⟨k1, k2, k3⟩ := h2 t (by simp)
      have hpl : Plain t.key := fun b hb => ⟨fun e => k1 (e ▸ hb), fun e => k2 (e ▸ hb)⟩
      have e1 : (t :: ts).flatMap (termLine pct) ++ tail =
          write_wac pct ⟨t.count, t.missed⟩ ++ t.key ++ 10 :: (ts.flatMap (termLine pct) ++ tail) := by simp [termLine]
      rw [termsLoop.eq_def, e1]
      simp only
      rw [read_entry hp (h1 t (by simp)) hpl k3]
      simp only
      rw [if_pos (by unfold OFFSET; simp only [List.length_append, hw]; omega)]
      have hk : (write_wac pct ⟨t.count, t.missed⟩ ++ t.key ++ [10]).dropLast.drop OFFSET = t.key := by
        rw [List.dropLast_concat, OFFSET, List.drop_left' hw]
      rw [hk]
      have hadd : add_term table t.key t.count t.missed = t :: table := by
        unfold add_term Store.add
        rw [(Store.modify_none Term.key).2 (fun d hd => h4 t (by simp) d hd)]
        rfl
      rw [List.map_cons, List.nodup_cons] at h3
      rw [hadd, ih fuel (t :: table) (fun x hx => h1 x (by simp [hx])) (fun x hx => h2 x (by simp [hx])) h3.2 ?_ (by simpa using hf)]
      · simp
      · intro x hx d hd
        rcases List.mem_cons.1 hd with rfl | hd
        · intro e; exact h3.1 (e ▸ List.mem_map_of_mem hx)
        · exact h4 x (by simp [hx]) d hd

/-- A table of words without the empty line in front. -/
def termBody (pct : Int → Int → List Nat) (ts : List Term) (title : String) : List Nat :=
  ascii title ++ [10] ++ write_heading ++ [10] ++ ts.flatMap (termLine pct)

theorem write_terms_eq (table : List Term) (title : String) : ∃ ts, ts.Perm table ∧
    write_terms pct table title = .ok (10 :: termBody pct ts title) := by
  have p := Store.in_array_perm Term.key table
  unfold write_terms
  obtain ⟨a, ha⟩ : ∃ a, Store.in_array Term.key table = a := ⟨_, rfl⟩
  rw [ha] at p
  simp only [ha]
  obtain ⟨s, hs, q⟩ := Sort.c03_sort_permutes compare_term a a.length (Nat.le_refl _)
  refine ⟨s, q.trans p, ?_⟩
  rw [hs, bind_ok]
  unfold termBody
  have : termLine pct = fun t => write_wac pct ⟨t.count, t.missed⟩ ++ t.key ++ [10] := rfl
  rw [this]
  simp

theorem read_terms_eq (hp : PctFormat pct) {tail r : List Nat} (ht : Ends tail r) {ts table : List Term} {title : String}
    (hti : Plain (ascii title)) (htl : (ascii title).length ≤ 97) (hq : ts.Perm table) (h : TableFits table) :
    read_terms (termBody pct ts title ++ tail) [] = .ok (ts.reverse, r) := by
  have hhead : Line write_heading := by constructor <;> decide
  have e : termBody pct ts title ++ tail = ascii title ++ 10 :: (write_heading ++ 10 :: (ts.flatMap (termLine pct) ++ tail)) := by
    simp [termBody]
  have hlen : ts.length ≤ (ts.flatMap (termLine pct) ++ tail).length := by
    rw [List.length_append]
    clear hq e
    induction ts with
    | nil => simp
    | cons a l ih => 
      rw [List.flatMap_cons, List.length_append, List.length_cons]
      have : 1 ≤ (termLine pct a).length := by unfold termLine; simp; omega
      omega
  unfold read_terms
  rw [e, two_lines_eq (hti.line htl) hhead]
  simp only [if_true]
  rw [termsLoop_eq hp ht _ _ _ (fun t ht => h.fits t (hq.mem_iff.1 ht)) (fun t ht => h.keys t (hq.mem_iff.1 ht))
    ((hq.map _).nodup_iff.2 h.nodup) (by simp) hlen]
  simp

/-! ## The whole report -/

theorem read_head_eq (hp : PctFormat pct) (D : Wacdata) (h : IsLong D.total.count ∧ IsLong D.total.missed) (r : List Nat) :
    read_head (TITLE ++ DIVIDER ++ write_value D.total.count "Words" ++ write_value D.total.missed "Misrecognized" ++
      write_pct pct D.total ++ ascii "%  Accuracy\n" ++ 10 :: r) = some ((D.total.count, D.total.missed), r) := by
  have eT : TITLE = TITLE.dropLast ++ [10] := by decide
  have eD : DIVIDER = DIVIDER.dropLast ++ [10] := by decide
  have lT : Line TITLE.dropLast := by constructor <;> decide
  have lD : Line DIVIDER.dropLast := by constructor <;> decide
  have eA : ascii "%  Accuracy\n" = ascii "%  Accuracy" ++ [10] := by decide
  have hpl : (write_pct pct D.total).length ≤ 40 := by
    unfold write_pct
    split
    · decide
    · exact hp.len _ _
  have lA : Line (write_pct pct D.total ++ ascii "%  Accuracy") := by
    apply Plain.line
    · exact (write_pct_plain hp _).append (plain_ascii (by decide))
    · have : (ascii "%  Accuracy").length = 11 := by decide
      rw [List.length_append]; omega
  have e : TITLE ++ DIVIDER ++ write_value D.total.count "Words" ++ write_value D.total.missed "Misrecognized" ++
      write_pct pct D.total ++ ascii "%  Accuracy\n" ++ 10 :: r =
      TITLE ++ DIVIDER ++ (write_value D.total.count "Words" ++ (write_value D.total.missed "Misrecognized" ++
      ((write_pct pct D.total ++ ascii "%  Accuracy") ++ 10 :: (10 :: r)))) := by
    rw [eA]; simp
  unfold read_head
  have ht := read_title_eq lT lD (write_value D.total.count "Words" ++ (write_value D.total.missed "Misrecognized" ++
      ((write_pct pct D.total ++ ascii "%  Accuracy") ++ 10 :: (10 :: r))))
  rw [← eT, ← eD] at ht
  rw [e, ht]
  simp only [Option.bind_eq_bind, Option.bind_some]
  rw [read_value_eq h.1 (by constructor <;> decide) (by decide)]
  simp only [Option.bind_some]
  rw [read_value_eq h.2 (by constructor <;> decide) (by decide)]
  simp only [Option.bind_some]
  rw [skip_lines_eq lA]
  have := skip_lines_eq (l := []) ⟨by simp, by simp, by simp⟩ 0 r
  simp only [List.nil_append] at this
  rw [this]
  rfl

theorem round_trip (hp : PctFormat pct) {D : Wacdata} (h : Reportable D) :
    ∃ file E, write_wacrpt pct D = .ok file ∧ read_wacrpt Wacdata.zero file = .ok E ∧ D.Same E := by
  obtain ⟨ts1, p1, w1⟩ := write_terms_eq (pct := pct) D.stopword_table "Stopwords"
  obtain ⟨ts2, p2, w2⟩ := write_terms_eq (pct := pct) D.non_stopword_table "Non-stopwords"
  have top : ∀ rest, write_top pct D ++ rest = TITLE ++ DIVIDER ++ write_value D.total.count "Words" ++
      write_value D.total.missed "Misrecognized" ++ write_pct pct D.total ++ ascii "%  Accuracy\n" ++ 10 ::
      (body pct D.stopword MAX_WORDLENGTH "Stopwords" false true ++ (10 :: (body pct D.non_stopword MAX_WORDLENGTH "Non-stopwords" false true ++
      (10 :: (body pct D.distinct_non_stopword MAX_OCCURRENCES "Distinct Non-stopwords" true true ++ rest))))) := by
    intro rest
    simp [write_top, write_numbers_eq]
  have n1 : ∀ {tail r}, Ends tail r → read_numbers (MAX_WORDLENGTH + 1) (body pct D.stopword MAX_WORDLENGTH "Stopwords" false true ++ tail)
      (fun _ => ⟨0, 0⟩) = .ok (D.stopword, (D.stopword 0).count, r) := fun ht =>
    read_numbers_eq hp ht (plain_ascii (by decide)) (by decide) (fun i => (h.stop i).1) (by decide) (by decide) (by simp)
      (fun i hi => (h.stop i).2 (by simpa [MAX_WORDLENGTH] using hi)) (by simp)
  have n2 : ∀ {tail r}, Ends tail r → read_numbers (MAX_WORDLENGTH + 1) (body pct D.non_stopword MAX_WORDLENGTH "Non-stopwords" false true ++ tail)
      (fun _ => ⟨0, 0⟩) = .ok (D.non_stopword, (D.non_stopword 0).count, r) := fun ht =>
    read_numbers_eq hp ht (plain_ascii (by decide)) (by decide) (fun i => (h.non i).1) (by decide) (by decide) (by simp)
      (fun i hi => (h.non i).2 (by simpa [MAX_WORDLENGTH] using hi)) (by simp)
  have n3 : ∀ {tail r}, Ends tail r → read_numbers (MAX_OCCURRENCES + 2)
      (body pct D.distinct_non_stopword MAX_OCCURRENCES "Distinct Non-stopwords" true true ++ tail)
      (fun _ => ⟨0, 0⟩) = .ok (D.distinct_non_stopword, (D.distinct_non_stopword 0).count, r) := fun ht =>
    read_numbers_eq hp ht (plain_ascii (by decide)) (by decide) (fun i => (h.distinct i).1) (by decide) (by decide)
      (fun _ => ⟨rfl, by decide⟩) (fun i hi => (h.distinct i).2 (by simpa [MAX_OCCURRENCES] using hi)) (by simp)
  have n4 : ∀ {tail r}, Ends tail r → read_numbers (MAX_PHRASELENGTH + 1) (body pct D.phrase MAX_PHRASELENGTH "Phrases" false false ++ tail)
      (fun _ => ⟨0, 0⟩) = .ok (D.phrase, 0, r) := fun ht =>
    read_numbers_eq hp ht (plain_ascii (by decide)) (by decide) (fun i => (h.phrase i).1) (by decide) (by decide) (by simp)
      (fun i hi => (h.phrase i).2.1 (by simpa [MAX_PHRASELENGTH] using hi)) (fun _ => (h.phrase 0).2.2.1)
  have t1 : ∀ {tail r}, Ends tail r → read_terms (termBody pct ts1 "Stopwords" ++ tail) [] = .ok (ts1.reverse, r) := fun ht =>
    read_terms_eq hp ht (plain_ascii (by decide)) (by decide) p1 h.table1
  have t2 : ∀ {tail r}, Ends tail r → read_terms (termBody pct ts2 "Non-stopwords" ++ tail) [] = .ok (ts2.reverse, r) := fun ht =>
    read_terms_eq hp ht (plain_ascii (by decide)) (by decide) p2 h.table2
  have hinc : increment_wac ⟨0, 0⟩ D.total.count D.total.missed = D.total := by simp [increment_wac]
  unfold write_wacrpt
  by_cases hT : D.total.count > 0
  · rw [if_pos hT]
    -- the part after the phrases
    obtain ⟨x2, hx2⟩ : ∃ x2, x2 = if (D.non_stopword 0).count > 0 then 10 :: termBody pct ts2 "Non-stopwords" else [] := ⟨_, rfl⟩
    obtain ⟨x1, hx1⟩ : ∃ x1, x1 = if (D.stopword 0).count > 0 then 10 :: termBody pct ts1 "Stopwords" else [] := ⟨_, rfl⟩
    have e1 : (if (D.stopword 0).count > 0 then write_terms pct D.stopword_table "Stopwords" else pure []) = .ok x1 := by
      rw [hx1]; split
      · exact w1
      · rfl
    have e2 : (if (D.non_stopword 0).count > 0 then write_terms pct D.non_stopword_table "Non-stopwords" else pure []) = .ok x2 := by
      rw [hx2]; split
      · exact w2
      · rfl
    obtain ⟨E, hE⟩ : ∃ E : Wacdata, E = { D with
      stopword_table := if (D.stopword 0).count > 0 then ts1.reverse else [],
      non_stopword_table := if (D.non_stopword 0).count > 0 then ts2.reverse else [] } := ⟨_, rfl⟩
    refine ⟨_, E, by rw [e1, bind_ok, e2, bind_ok]; rfl, ?_, ?_⟩
    · have ef : write_top pct D ++ write_numbers pct D.phrase MAX_PHRASELENGTH "Phrases" false false ++ x1 ++ x2 =
          write_top pct D ++ (10 :: (body pct D.phrase MAX_PHRASELENGTH "Phrases" false false ++ (x1 ++ x2))) := by
        simp [write_numbers_eq]
      rw [ef, top]
      unfold read_wacrpt
      rw [read_head_eq hp D h.total]
      simp only [Wacdata.zero]
      rw [n1 (.inl rfl), bind_ok]
      simp only
      rw [n2 (.inl rfl), bind_ok]
      simp only
      rw [n3 (.inl rfl), bind_ok]
      simp only
      rw [if_pos hT]
      by_cases hS : (D.stopword 0).count > 0
      · rw [if_pos hS] at hx1
        rw [hx1, List.cons_append, n4 (.inl rfl), bind_ok]
        simp only
        rw [if_pos ⟨hT, hS⟩]
        by_cases hN : (D.non_stopword 0).count > 0
        · rw [if_pos hN] at hx2
          rw [hx2, t1 (.inl rfl), bind_ok]
          simp only
          have := t2 (tail := []) (r := []) (.inr ⟨rfl, rfl⟩)
          rw [List.append_nil] at this
          rw [if_pos ⟨hT, hN⟩, this, bind_ok, hE, if_pos hS, if_pos hN, hinc]
          rfl
        · rw [if_neg hN] at hx2
          rw [hx2, t1 (.inr ⟨rfl, rfl⟩), bind_ok]
          simp only
          rw [if_neg (fun hc => hN hc.2), pure_eq, bind_ok, hE, if_pos hS, if_neg hN, hinc]
          rfl
      · rw [if_neg hS] at hx1
        rw [hx1, List.nil_append]
        by_cases hN : (D.non_stopword 0).count > 0
        · rw [if_pos hN] at hx2
          rw [hx2, n4 (.inl rfl), bind_ok]
          simp only
          have := t2 (tail := []) (r := []) (.inr ⟨rfl, rfl⟩)
          rw [List.append_nil] at this
          rw [if_neg (fun hc => hS hc.2), pure_eq, bind_ok]
          simp only
          rw [if_pos ⟨hT, hN⟩, this, bind_ok, hE, if_neg hS, if_pos hN, hinc]
          rfl
        · rw [if_neg hN] at hx2
          rw [hx2, n4 (.inr ⟨rfl, rfl⟩), bind_ok]
          simp only
          rw [if_neg (fun hc => hS hc.2), pure_eq, bind_ok]
          simp only
          rw [if_neg (fun hc => hN hc.2), pure_eq, bind_ok, hE, if_neg hS, if_neg hN, hinc]
          rfl
    · rw [hE]
      refine ⟨rfl, ?_, ?_⟩
      · simp only
        split
        · exact p1.symm.trans (List.reverse_perm _).symm
        · rw [h.empty1 (.inr (by omega))]
      · simp only
        split
        · exact p2.symm.trans (List.reverse_perm _).symm
        · rw [h.empty2 (.inr (by omega))]
  · rw [if_neg hT]
    refine ⟨_, D, rfl, ?_, ⟨rfl, .refl _, .refl _⟩⟩
    have := top []
    rw [List.append_nil, List.append_nil] at this
    rw [this]
    unfold read_wacrpt
    rw [read_head_eq hp D h.total]
    simp only [Wacdata.zero]
    rw [n1 (.inl rfl), bind_ok]
    simp only
    rw [n2 (.inl rfl), bind_ok]
    simp only
    have n3' := n3 (tail := []) (r := []) (.inr ⟨rfl, rfl⟩)
    rw [List.append_nil] at n3'
    rw [n3', bind_ok]
    simp only
    rw [if_neg hT, pure_eq, bind_ok]
    simp only
    rw [if_neg (fun hc => hT hc.1), pure_eq, bind_ok]
    simp only
    rw [if_neg (fun hc => hT hc.1), pure_eq, bind_ok, hinc]
    have e1 := h.empty1 (.inl (by omega))
    have e2 := h.empty2 (.inl (by omega))
    have e3 : (fun _ : Nat => (⟨0, 0⟩ : Wac)) = D.phrase := by
      funext i; exact ((h.phrase i).2.2.2 (by omega)).symm
    rw [← e1, e3]
    cases D
    simp_all

end Ocr.Wac
