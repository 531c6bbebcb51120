import Verif.Proof.TextHeapRun
import Verif.Props.Wordfreq
import Verif.Props.Stopword
import Verif.Props.Ngram

/-!
# C92: texts, word lists and the keys of tables in memory

`nfc` stands for the function of the library utf8proc; the hypothesis about it is that it returns a string if it is given one (no null
character inside).
-/

namespace Ocr.TextHeap
open Text Res CList

variable {prop : Nat → Word.WB} {nfc : List Nat → Option (List Nat)}

/-- **C92.**  Whatever is done with a text, a word list and a table of terms - files are read, words are found, the words are added to
the table, the lists are emptied, in any order - the outcome in memory is that on sequences: nothing is used after it has been freed,
nothing is freed twice, and the arrays have room.  At the end exactly the characters of the text, the words, their strings and the keys
of the table are allocated, each in a place of its own. -/
theorem c92_any_use (U : Unicode) (hn : ∀ s t, 0 ∉ s → nfc s = some t → 0 ∉ t) (junk : List Nat) (junk' : Nat) (opt : Textopt) (ops : List Op) :
    Agree (fun x s => (∃ as bs, Holds x.1 as bs s.text s.words (x.2.2.map (·.key))) ∧ x.2.1 = s.opt ∧
        IsTable x.1 Term.key (fun t => (t.count, t.missed)) x.2.2 s.terms)
      (run U prop nfc junk junk' ops (THeap.start, opt, [])) (plan U prop nfc junk junk' ops ⟨[], [], opt, []⟩) := by
  refine (run_sim U hn junk junk' ops _ ⟨[], [], opt, []⟩ ⟨[], _, [], _, [], TR.start, SR.start, rfl, rfl, Ents.nil⟩).agree ?_
  rintro x s ⟨as, cv, bs, wv, keys, r, q, ht, ho, he⟩
  refine ⟨⟨as, bs, ?_⟩, ho, isTable he q.named⟩
  rw [← ht, ents_keys he]
  exact holds r q

/-- **C92.**  Reading a further file into a text leaves the characters the text has where they are, and appends to them. -/
theorem c92_read (U : Unicode) (hn : ∀ s t, 0 ∉ s → nfc s = some t → 0 ∉ t) (junk : List Nat) (junk' : Nat) (opt : Textopt) (ops : List Op)
    {x : THeap × Textopt × List (Entry (Int × Int))} (hx : run U prop nfc junk junk' ops (THeap.start, opt, []) = .ok x)
    {file : List Nat} {opt₁ opt₂ : Textopt} {h : THeap} (hr : read_text U junk file opt₁ x.1 = .ok (h, opt₂)) {as : List Addr}
    (hs : Shows x.1.links true as) :
    ∃ new, Shows h.links true (as ++ new) ∧ (∀ a ∈ as, h.char a = x.1.char a) ∧ h.word = x.1.word ∧ h.str = x.1.str := by
  have sim := run_sim (prop := prop) U hn junk junk' ops (THeap.start, opt, []) ⟨[], [], opt, []⟩
    ⟨[], _, [], _, [], TR.start, SR.start, rfl, rfl, Ents.nil⟩
  rw [hx] at sim
  generalize plan U prop nfc junk junk' ops ⟨[], [], opt, []⟩ = y at sim
  cases sim with
  | @ok _ s hh =>
    obtain ⟨as', cv, bs, wv, keys, r, q, ht, ho, he⟩ := hh
    obtain rfl : as = as' := walk_unique hs.forward (r.inv.rep true).shows.forward
    have sim := read_text_sim U junk file opt₁ s.text r ht
    rw [hr] at sim
    generalize Text.read_text U junk s.text file opt₁ = y at sim
    cases sim with
    | ok hh =>
      obtain ⟨ns, cv', r', s', hc, _⟩ := hh
      simp only at r' s'
      refine ⟨ns, (r'.inv.rep true).shows, ?_, ?_, s'.1⟩
      · intro a ha
        simp [r.char, r'.char, ha, hc a ha]
      · funext b
        simp only [r.word, r'.word]

/-- **C92.**  `wordfreq` has the same result with its memory as without.  At the end nothing is allocated but the keys of the table of
terms, which are all different strings in different places. -/
theorem c92_wordfreq (U : Unicode) (hn : ∀ s t, 0 ∉ s → nfc s = some t → 0 ∉ t) (junk : List Nat) (junk' : Nat) (opt : Textopt)
    (files : List (List Nat)) :
    Agree (fun x ts => Holds x.1 [] [] [] [] (x.2.map (·.key)) ∧ IsTable x.1 Term.key (fun t => (t.count, t.missed)) x.2 ts)
      (wordfreqFiles U prop nfc junk junk' opt files [] THeap.start) (Wordfreq.processFiles U prop nfc junk junk' opt files []) := by
  refine (wordfreq_sim U hn junk junk' files opt _ _ _ [] [] [] TR.start SR.start Ents.nil).agree ?_
  rintro x ts ⟨cv, wv, keys, r, q, he⟩
  refine ⟨?_, isTable he q.named⟩
  rw [ents_keys he]
  exact holds r q

/-- **C92.**  `ngram` has the same table with its memory as without.  At the end the characters of the last file and the keys of the
table are allocated, and nothing else; in particular the characters of the other files have been freed, and no key is an array in which
the keys were put together. -/
theorem c92_ngram (U : Unicode) (junk : List Nat) (n : Nat) (opt : Textopt) (files : List (List Nat)) (t : Ngram.Seqtable)
    (ht : t.entries = []) :
    Agree (fun x t => (∃ as text, Holds x.1 as [] text [] (x.2.map (·.key)) ∧
          ∀ fs file, files = fs ++ [file] → ∃ opt₁ opt₂, Text.read_text U junk [] file opt₁ = .ok (text, opt₂)) ∧
        IsTable x.1 Sequence.key (fun s => (⟨s.value, s.count, s.suspect⟩ : Gram)) x.2 t.entries)
      (ngramFiles U junk n opt files [] THeap.start) (Ngram.processFiles U junk n opt files t) := by
  refine (ngram_sim U junk n files opt _ _ _ [] t [] TR.start SR.start (by rw [ht]; exact Ents.nil)).agree ?_
  rintro x t ⟨as, cv, keys, r, q, he, hl⟩
  refine ⟨⟨as, _, ?_, hl⟩, isTable he q.named⟩
  rw [ents_keys he]
  exact holds r q

/-- **C92.**  `init_stopwords` has the same result with its memory as without.  The text has been freed; the words have not, and
the key of every entry of the table is the string of a word of the list (which is why the list must be kept). -/
theorem c92_stopword (U : Unicode) (hn : ∀ s t, 0 ∉ s → nfc s = some t → 0 ∉ t) (junk : List Nat) (junk' : Nat) (file : List Nat) :
    Agree (fun x S => (∃ bs words, Holds x.1 [] bs [] words [] ∧ ∀ e ∈ x.2.1, e.key ∈ stringsOf x.1 bs) ∧
        IsTable x.1 id (fun _ => ()) x.2.1 S.table ∧ S.warnings = x.2.2)
      (init_stopwords U prop nfc junk junk' file THeap.start)
      (Stopword.init_stopwords U prop nfc junk junk' (some file) Stopword.State.start) := by
  refine (stopword_sim U hn junk junk' file TR.start SR.start).agree ?_
  rintro x S ⟨cv, bs, wv, words, r, q, hk, hw⟩
  have hh := holds r q
  refine ⟨⟨bs, words, hh, ?_⟩, ?_, hw⟩
  · intro e he
    obtain ⟨t, _, ht⟩ := forall₂_left hk he
    have := hh.onlyStrings e.key (by simp [ht.1])
    simpa using this
  · unfold IsTable
    exact hk.imp fun e t ht => ⟨ht.1, rfl⟩

/-! ## Non-vacuity -/

def sampleOps : List Op := [.read (ascii "b  a b"), .findWords, .addWords, .emptyText, .read (ascii "c"), .findWords, .addWords, .emptyWords]

/-- What can be counted of a state: the addresses up to 20 at which something is allocated. -/
def sampleCount (h : THeap) : List Addr × List Addr × List Addr :=
  ((List.range 20).filter fun a => (h.char a).isSome, (List.range 20).filter fun a => (h.word a).isSome,
    (List.range 20).filter fun a => (h.str a).isSome)

example : ∀ s t : List Nat, 0 ∉ s → some s = some t → 0 ∉ t := by rintro s t h ⟨⟩; exact h

/-- The allocated addresses and the table at the end. -/
def sampleEnd {α : Type} (x : Res (THeap × List (Entry α))) : Res ((List Addr × List Addr × List Addr) × List (Addr × α)) := do
  let (h, es) ← x
  return (sampleCount h, es.map fun e => (e.key, e.data))

example : sampleEnd (do
    let (h, _, es) ← run sampleUnicode Word.wbProp some [0, 0, 0, 0, 0] 0 sampleOps (THeap.start, Wordfreq.textopt, [])
    return (h, es)) = .ok (([9], [], [6, 7, 10]), [(10, 1, 0), (7, 2, 0), (6, 4, 0)]) := by decide +kernel
example : sampleEnd (wordfreqFiles sampleUnicode Word.wbProp some [0, 0, 0, 0, 0] 0 Wordfreq.textopt [ascii "b  a b", ascii "c"] []
    THeap.start) = .ok (([], [], [6, 7, 10]), [(10, 1, 0), (7, 1, 0), (6, 2, 0)]) := by decide +kernel
example : sampleEnd (ngramFiles sampleUnicode [0, 0, 0, 0, 0] 2 Ngram.textopt [ascii "ab^ab", ascii "ba"] [] THeap.start) =
    .ok (([4, 5], [], [0, 1]), [(1, ⟨[98, 97], 2, 1⟩), (0, ⟨[97, 98], 2, 1⟩)]) := by decide +kernel
example : sampleEnd (do
    let (h, es, _) ← init_stopwords sampleUnicode Word.wbProp some [0, 0, 0, 0, 0] 0 (ascii "The and THE") THeap.start
    return (h, es)) = .ok (([], [11, 12, 13], [1, 3, 5]), [(3, ()), (1, ())]) := by decide +kernel

end Ocr.TextHeap
