import Verif.Model.Wacrpt
import Verif.Model.Sync

/-!
# Model of wordacc.c

The words of the two texts (the result of `find_words`, see `Ocr.Word`) are lists of byte strings.  An `Id *` is named by
the key of the entry of `idtable`, a `Symbol *` by its position in `symbol[0]` or `symbol[1]`.  Whether a word is a
stopword is a parameter.
-/

namespace Ocr.Wordacc
open Wac Sync

/-- wordacc.c:43-45 `Id`. -/
structure Id where
  key    : List Nat
  found0 : Bool
  found1 : Bool

/-- wordacc.c:105-113: the word is looked up, entered if necessary, and marked as found in text `i`. -/
def mark_found (i : Nat) (idtable : List Id) (word : List Nat) : List Id :=
  Store.add Id.key word (fun d => if i = 0 then { d with found0 := true } else { d with found1 := true })
    ⟨word, decide (i = 0), decide (i ≠ 0)⟩ idtable

/-- wordacc.c:84: `symbol[index][i].id->found[1 - index]`. -/
def found_other (idtable : List Id) (index : Nat) (word : List Nat) : Bool :=
  match Store.lookup Id.key word idtable with
  | some d => if index = 0 then d.found1 else d.found0
  | none => false

/-- wordacc.c:78-89 `setup_array`: the words found in the other text, each with its position in `symbol[index]`. -/
def setup_array (idtable : List Id) (index : Nat) (words : List (List Nat)) : List (Nat × List Nat) :=
  ((List.range words.length).zip words).filter (fun x => found_other idtable index x.2)

/-- wordacc.c:57. -/
def MAX_F : Nat := 65535

/-- wordacc.c:92-123 `setup` after the words have been found: the arrays `a` and `b`. -/
def setup (words0 words1 : List (List Nat)) : Res (List (Nat × List Nat) × List (Nat × List Nat)) := do
  let idtable := words1.foldl (mark_found 1) (words0.foldl (mark_found 0) [])
  let a := setup_array idtable 0 words0
  if a.length > MAX_F then .err "text stream is too long"
  else return (a, setup_array idtable 1 words1)

/-- wordacc.c:65-68 `Path`. -/
structure Path where
  p : Int
  f : List Nat

/-- wordacc.c:126-149 `initial_f`: the result, and the value assigned to `*prev_k` if any. -/
def initial_f (k : Int) : Option Path → Res (Int × Option Int)
  | none => .ok (0, none)
  | some prev => do
    let (result, prev_k) ← (if k > -prev.p then do
        let x ← rdI prev.f ((k - 1 + prev.p) / 2)
        pure ((x : Int), some (k - 1))
      else pure (0, none))
    if k < prev.p then
      let x ← rdI prev.f ((k + 1 + prev.p) / 2)
      let value : Int := x + 1
      if value ≥ result then return (value, some (k + 1)) else return (result, prev_k)
    else return (result, prev_k)

/-- wordacc.c:159-163, the loop of `compute_f`. -/
def extend (a b : List (Nat × List Nat)) : (fuel : Nat) → (i j : Int) → Res Int
  | fuel, i, j =>
    if i < a.length ∧ j < b.length then do
      let x ← rdI a i
      let y ← rdI b j
      if x.2 = y.2 then
        match fuel with
        | 0 => .fuel
        | fuel + 1 => extend a b fuel (i + 1) (j + 1)
      else return i
    else return i

/-- The variables `min_k`, `max_k` (wordacc.c:60) and the path being computed. -/
structure State where
  min_k : Int
  max_k : Int
  f     : List Nat

/-- wordacc.c:152-169 `compute_f`; an `F` has 16 bits. -/
def compute_f (a b : List (Nat × List Nat)) (prev : Option Path) (p k : Int) (S : State) : Res State := do
  let (i0, _) ← initial_f k prev
  let i ← extend a b a.length i0 (i0 + k)
  let j := i + k
  let min_k := if i = a.length then k + 1 else S.min_k
  let max_k := if j = b.length then k - 1 else S.max_k
  let x := (k + p) / 2
  if 0 ≤ x ∧ x.toNat < S.f.length then return ⟨min_k, max_k, S.f.set x.toNat (i % 65536).toNat⟩
  else .ub

/-- wordacc.c:183-189: the loop over `k`, `k + 2`, ... for `cells` more cells of path `p`. -/
def pathLoop (a b : List (Nat × List Nat)) (prev : Option Path) (p : Int) : (cells : Nat) → (k : Int) → State → Res State
  | 0, _, S => .ok S
  | cells + 1, k, S => do
    let S ← (if k ≥ S.min_k ∧ k ≤ S.max_k then compute_f a b prev p k S else pure S)
    pathLoop a b prev p cells (k + 2) S

/-- wordacc.c:177-190, the loop of `compute_pathlist`; the paths are kept last first, the next one has number `p`. -/
def pathsLoop (a b : List (Nat × List Nat)) : (fuel : Nat) → (p : Nat) → (min_k max_k : Int) → List Path → Res (List Path)
  | fuel, p, min_k, max_k, paths =>
    if min_k ≤ (b.length : Int) - a.length then
      match fuel with
      | 0 => .fuel
      | fuel + 1 => do
        let S ← pathLoop a b paths.head? p (p + 1) (-p) ⟨min_k, max_k, List.replicate (p + 1) 0⟩
        pathsLoop a b fuel (p + 1) S.min_k S.max_k (⟨p, S.f⟩ :: paths)
    else .ok paths

/-- wordacc.c:172-192 `compute_pathlist`: the paths, last first. -/
def compute_pathlist (a b : List (Nat × List Nat)) : Res (List Path) :=
  pathsLoop a b (a.length + b.length + 1) 0 (-a.length) b.length []

/-- wordacc.c:204-205: `while (f > start) a[--f]->recognized = True;`. -/
def markLoop (a : List (Nat × List Nat)) (start : Int) : (f : Nat) → (recognized : Nat → Bool) → Res (Nat → Bool)
  | 0, recognized => if (0 : Int) > start then .ub else .ok recognized
  | f + 1, recognized =>
    if ((f + 1 : Nat) : Int) > start then do
      let x ← rd a f
      markLoop a start f (fun i => if i = x.1 then true else recognized i)
    else .ok recognized

/-- wordacc.c:200-207, the loop of `obtain_matches` for the paths not yet visited, last first.  `k` is `none` if it has
not been assigned a value. -/
def matchLoop (a : List (Nat × List Nat)) : (k : Option Int) → List Path → (recognized : Nat → Bool) → Res (Nat → Bool)
  | _, [], recognized => .ok recognized
  | none, _ :: _, _ => .ub
  | some k, path :: paths, recognized => do
    let f ← rdI path.f ((k + path.p) / 2)
    let (start, prev_k) ← initial_f k paths.head?
    let recognized ← markLoop a start f recognized
    matchLoop a prev_k paths recognized

/-- wordacc.c:195-208 `obtain_matches`: which of the words of the correct text are recognized. -/
def obtain_matches (a b : List (Nat × List Nat)) (paths : List Path) : Res (Nat → Bool) :=
  matchLoop a (some ((b.length : Int) - a.length)) paths (fun _ => false)

/-- wordacc.c:211-231 `process_terms`, the loop over the array of the table; `occurs` is `none` for NULL.  The results are
`wacdata.total`, `length` and `occurs`. -/
def termsLoop : List Term → Wac → (Nat → Wac) → Option (Nat → Wac) → Res (Wac × (Nat → Wac) × Option (Nat → Wac))
  | [], total, length, occurs => .ok (total, length, occurs)
  | t :: ts, total, length, occurs => do
    let total := increment_wac total t.count t.missed
    let length ← incrementAt (MAX_WORDLENGTH + 1) length 0 t.count t.missed
    let length ← incrementAt (MAX_WORDLENGTH + 1) length t.key.length t.count t.missed
    let occurs ← (match occurs with
      | none => pure none
      | some occurs => do
        let x : Int := if t.count = t.missed then 1 else 0
        let occurs ← incrementAt (MAX_OCCURRENCES + 2) occurs 0 1 x
        let occurs ← incrementAt (MAX_OCCURRENCES + 2) occurs (min t.count (MAX_OCCURRENCES + 1)) 1 x
        pure (some occurs))
    termsLoop ts total length occurs

/-- wordacc.c:241-245: the loop over `j` of `process_phrases` for the words `rec` from word `i + j` on. -/
def phraseLoop : (rec : List Bool) → (j : Nat) → (recognized : Bool) → (Nat → Wac) → Res (Nat → Wac)
  | [], _, _, phrase => .ok phrase
  | r :: rs, j, recognized, phrase =>
    if j < MAX_PHRASELENGTH then do
      let recognized := recognized && r
      let phrase ← incrementAt (MAX_PHRASELENGTH + 1) phrase (j + 1) 1 (if recognized then 0 else 1)
      phraseLoop rs (j + 1) recognized phrase
    else .ok phrase

/-- wordacc.c:234-247 `process_phrases` for the words from word `i` on. -/
def process_phrases : (rec : List Bool) → (Nat → Wac) → Res (Nat → Wac)
  | [], phrase => .ok phrase
  | r :: rs, phrase => do
    let phrase ← phraseLoop (r :: rs) 0 true phrase
    process_phrases rs phrase

/-- wordacc.c:253-256: every word is entered in one of the two tables. -/
def addWords (stop : List Nat → Bool) : List (List Nat × Bool) → List Term → List Term → List Term × List Term
  | [], t1, t2 => (t1, t2)
  | (w, r) :: ws, t1, t2 =>
    if stop w then addWords stop ws (add_term t1 w 1 (if r then 0 else 1)) t2
    else addWords stop ws t1 (add_term t2 w 1 (if r then 0 else 1))

/-- wordacc.c:250-261 `determine_wacdata` for the words of the correct text, each with the flag `recognized`. -/
def determine_wacdata (stop : List Nat → Bool) (words : List (List Nat × Bool)) : Res Wacdata := do
  let (t1, t2) := addWords stop words [] []
  let (total, length1, _) ← termsLoop (Store.in_array Term.key t1) ⟨0, 0⟩ (fun _ => ⟨0, 0⟩) none
  let (total, length2, occurs) ← termsLoop (Store.in_array Term.key t2) total (fun _ => ⟨0, 0⟩) (some fun _ => ⟨0, 0⟩)
  let phrase ← process_phrases (words.map Prod.snd) (fun _ => ⟨0, 0⟩)
  return ⟨total, length1, length2, occurs.getD (fun _ => ⟨0, 0⟩), phrase, t1, t2⟩

/-- The flags set by wordacc.c:275-277 (`setup` to `obtain_matches`), one for each word of the correct text. -/
def recognize (words0 words1 : List (List Nat)) : Res (List Bool) := do
  let (a, b) ← setup words0 words1
  let paths ← compute_pathlist a b
  let recognized ← obtain_matches a b paths
  return (List.range words0.length).map recognized

/-- wordacc.c:264-278: the figures for the words of two texts. -/
def wordacc (stop : List Nat → Bool) (words0 words1 : List (List Nat)) : Res Wacdata := do
  let flags ← recognize words0 words1
  determine_wacdata stop (words0.zip flags)

end Ocr.Wordacc
