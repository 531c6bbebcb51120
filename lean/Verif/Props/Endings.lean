import Verif.Proof.Endings
import Verif.Props.Pipelines

/-!
# C71: how the programs that read reports end, whatever the files

For every command line and all files: output, a message, or undefined behaviour, with the exact conditions.
-/

namespace Ocr.Ending
open Text Res Prog AnyReport Spec

/-- One more report read by itself. -/
def costStep (Ds : List Edo.Edodata) (file : List Nat) : Res (List Edo.Edodata) := do
  let D ← Edo.read_edorpt Edo.Edodata.zero file
  .ok (Ds ++ [D])

/-- The first report less the second. -/
def costOf : List Edo.Edodata → Edo.Edodata
  | D :: D2 :: _ => Edo.decrement_edodata D D2
  | D :: _ => D
  | [] => Edo.Edodata.zero

section
variable (fs : Fs) (hfs : ∀ name file, fs name = some file → Bytes file) (prog : List Nat) (args : List (List Nat))
  (hprog : prog.length ≤ 32768) (hargs : args.length < 32768) (hnul : ∀ a ∈ args, 0 ∉ a)
include hprog hargs hnul

/-- C71 (editopsum).  There is output exactly if two or more files are named and all can be opened and read; the program goes astray
exactly if the first file that is not read has a move length outside of 0-100; in all other cases there is a message. -/
theorem c71_editopsum : EndsAs (editopsumProgram fs (prog :: args))
    (∃ names ss, CommandLine [] prog args names ss ∧ ¬ names.length < 2 ∧ ∃ os, AllRead fs ReadsEditop names os)
    (∃ names ss, CommandLine [] prog args names ss ∧ ¬ names.length < 2 ∧ Astray fs ReadsEditop BadEditop names) := by
  refine line_ends hprog hargs hnul (main := fun names => if names.length < 2 then .err "not enough input files" else do
    let D ← forFiles fs Edo.read_edorpt names Edo.Edodata.zero
    return ⟨none, Edo.write_edorpt D⟩) rfl (fun names => EndsAs.guard _ ?_)
  exact (forFiles_ends (P := fun _ => True) (J := fun _ _ => True) (fun f o _ => editop_x f o) (fun _ _ _ => trivial)
    (fun os a f o _ _ h => by obtain ⟨E, e⟩ := editop_reads a f h; exact ⟨E, e, trivial⟩)
    (fun os a f _ _ h => editop_bad a f h) (fun os a f _ _ h1 h2 => editop_else a f h1 h2) names [] _ trivial).total
    (fun f o _ => editop_x f o) (fun _ _ _ => trivial) (fun _ _ _ _ _ => rfl) (fun os a _ => ⟨_, rfl⟩)

omit hprog hargs hnul in
/-- editopcost, told as a loop over its one or two files. -/
theorem cost_run (names : List (List Nat)) : (if names.length < 1 ∨ names.length > 2 then .err "invalid number of files" else do
      let name0 ← rd names 0
      let file0 ← open_file fs name0
      let D ← Edo.read_edorpt Edo.Edodata.zero file0
      let D ← (if names.length = 2 then do
          let name1 ← rd names 1
          let file1 ← open_file fs name1
          let D2 ← Edo.read_edorpt Edo.Edodata.zero file1
          pure (Edo.decrement_edodata D D2)
        else pure D)
      return ⟨none, Edo.write_results D⟩ : Res Output) =
    if names.length < 1 ∨ names.length > 2 then .err "invalid number of files" else
      forFiles fs costStep names [] >>= fun Ds => .ok ⟨none, Edo.write_results (costOf Ds)⟩ := by
  match names with
  | [] => rfl
  | [n0] =>
    rw [if_neg (by simp), if_neg (by simp)]
    simp only [rd, List.length_cons, List.length_nil, List.getElem?_cons_zero, bind_ok, forFiles, costStep]
    cases open_file fs n0 with
    | ok f0 =>
      simp only [bind_ok]
      cases Edo.read_edorpt Edo.Edodata.zero f0 <;> rfl
    | err | ub | fuel => rfl
  | [n0, n1] =>
    rw [if_neg (by simp), if_neg (by simp)]
    simp only [rd, List.length_cons, List.length_nil, List.getElem?_cons_zero, List.getElem?_cons_succ, bind_ok, forFiles, costStep]
    cases open_file fs n0 with
    | ok f0 =>
      simp only [bind_ok]
      cases Edo.read_edorpt Edo.Edodata.zero f0 with
      | ok D =>
        simp only [bind_ok]
        rw [if_pos (by trivial)]
        cases open_file fs n1 with
        | ok f1 =>
          simp only [bind_ok]
          cases Edo.read_edorpt Edo.Edodata.zero f1 <;> rfl
        | err | ub | fuel => rfl
      | err | ub | fuel => rfl
    | err | ub | fuel => rfl
  | _ :: _ :: _ :: _ => rw [if_pos (by simp), if_pos (by simp)]

/-- C71 (editopcost).  The same for one or two reports. -/
theorem c71_editopcost : EndsAs (editopcostProgram fs (prog :: args))
    (∃ names ss, CommandLine [] prog args names ss ∧ ¬ (names.length < 1 ∨ names.length > 2) ∧ ∃ os, AllRead fs ReadsEditop names os)
    (∃ names ss, CommandLine [] prog args names ss ∧ ¬ (names.length < 1 ∨ names.length > 2) ∧ Astray fs ReadsEditop BadEditop names) := by
  refine line_ends hprog hargs hnul (main := fun names => if names.length < 1 ∨ names.length > 2 then .err "invalid number of files" else do
      let name0 ← rd names 0
      let file0 ← open_file fs name0
      let D ← Edo.read_edorpt Edo.Edodata.zero file0
      let D ← (if names.length = 2 then do
          let name1 ← rd names 1
          let file1 ← open_file fs name1
          let D2 ← Edo.read_edorpt Edo.Edodata.zero file1
          pure (Edo.decrement_edodata D D2)
        else pure D)
      return ⟨none, Edo.write_results D⟩) rfl (fun names => ?_)
  rw [cost_run]
  refine EndsAs.guard _ ?_
  exact (forFiles_ends (P := fun _ => True) (J := fun _ _ => True) (fun f o _ => editop_x f o) (fun _ _ _ => trivial)
    (fun os a f o _ _ h => by obtain ⟨E, e⟩ := editop_reads Edo.Edodata.zero f h; unfold costStep; rw [e]; exact ⟨_, rfl, trivial⟩)
    (fun os a f _ _ h => by unfold costStep; rw [editop_bad _ f h]; rfl)
    (fun os a f _ _ h1 h2 => by obtain ⟨msg, e⟩ := editop_else Edo.Edodata.zero f h1 h2; unfold costStep; rw [e]; exact ⟨msg, rfl⟩) names [] _ trivial).total
    (fun f o _ => editop_x f o) (fun _ _ _ => trivial) (fun _ _ _ _ _ => rfl) (fun os a _ => ⟨_, rfl⟩)

/-- C71 (wordaccsum).  The program goes astray exactly if the first file that is not read has a row that is too short or about something
outside of its array. -/
theorem c71_wordaccsum (pct : Int → Int → List Nat) : EndsAs (wordaccsumProgram pct fs (prog :: args))
    (∃ names ss, CommandLine [] prog args names ss ∧ ¬ names.length < 2 ∧ ∃ os, AllRead fs ReadsWordacc names os)
    (∃ names ss, CommandLine [] prog args names ss ∧ ¬ names.length < 2 ∧ Astray fs ReadsWordacc BadWordacc names) := by
  refine line_ends hprog hargs hnul (main := fun names => if names.length < 2 then .err "not enough input files" else do
    let D ← forFiles fs Wac.read_wacrpt names Wac.Wacdata.zero
    let bytes ← Wac.write_wacrpt pct D
    return ⟨none, bytes⟩) rfl (fun names => EndsAs.guard _ ?_)
  exact (forFiles_ends (P := fun _ => True) (J := fun _ _ => True) (fun f o _ => wordacc_x f o) (fun _ _ _ => trivial)
    (fun os a f o _ _ h => by obtain ⟨E, e, _⟩ := wordacc_reads a f o h; exact ⟨E, e, trivial⟩)
    (fun os a f _ _ h => wordacc_bad a f h) (fun os a f _ _ h1 h2 => wordacc_else a f h1 h2) names [] _ trivial).total
    (fun f o _ => wordacc_x f o) (fun _ _ _ => trivial) wordacc_u (fun os a _ => by
      obtain ⟨bytes, e⟩ := write_wacrpt_total pct a
      rw [e]; exact ⟨_, rfl⟩)

/-- C71 (wordaccdist).  The same; in addition a file with an accuracy of 101 percent or more leads astray. -/
theorem c71_wordaccdist (pct : Int → Int → List Nat) : EndsAs (wordaccdistProgram pct fs (prog :: args))
    (∃ names ss, CommandLine [] prog args names ss ∧ ∃ os, AllRead fs (fun f o => ReadsWordacc f o ∧ ¬ Over o) names os)
    (∃ names ss, CommandLine [] prog args names ss ∧ Astray fs (fun f o => ReadsWordacc f o ∧ ¬ Over o)
      (fun f => BadWordacc f ∨ ∃ o, ReadsWordacc f o ∧ Over o) names) := by
  refine line_ends hprog hargs hnul (main := fun names => do
    let (_, dist) ← forFiles fs wordaccdistFile names (Wac.Wacdata.zero, Dist.Dist.zero)
    return ⟨none, Dist.write_dist pct dist⟩) rfl (fun names => ?_)
  have hx : ∀ f o, True → (ReadsWordacc f o ∧ ¬ Over o) → ¬ (BadWordacc f ∨ ∃ o, ReadsWordacc f o ∧ Over o) := by
    rintro f o - ⟨h1, h2⟩ (h3 | ⟨o', h3, h4⟩)
    · exact wordacc_x f o h1 h3
    · rw [wordacc_u f o o' h1 h3] at h2; exact h2 h4
  refine (forFiles_ends (P := fun _ => True) (J := fun _ _ => True) hx (fun _ _ _ => trivial) ?_ ?_ ?_ names [] _ trivial).total
    hx (fun _ _ _ => trivial) (fun f o o' h h' => wordacc_u f o o' h.1 h'.1) (fun os a _ => ⟨_, rfl⟩)
  · rintro os a f o - - ⟨h1, h2⟩
    obtain ⟨E, e, ht⟩ := wordacc_reads a.1 f o h1
    unfold wordaccdistFile
    simp only [e, bind_ok, ht]
    rw [show a.1.total.count + o.1 - a.1.total.count = o.1 by omega, show a.1.total.missed + o.2 - a.1.total.missed = o.2 by omega]
    obtain ⟨d, e⟩ := (update_ends a.2 o.1 o.2).2 h2
    rw [e]; exact ⟨_, rfl, trivial⟩
  · rintro os a f - - (h | ⟨o, h1, h2⟩)
    · unfold wordaccdistFile; simp only [wordacc_bad _ f h]; rfl
    · obtain ⟨E, e, ht⟩ := wordacc_reads a.1 f o h1
      unfold wordaccdistFile
      simp only [e, bind_ok, ht]
      rw [show a.1.total.count + o.1 - a.1.total.count = o.1 by omega, show a.1.total.missed + o.2 - a.1.total.missed = o.2 by omega,
        (update_ends a.2 o.1 o.2).1 h2]
      rfl
  · intro os a f _ _ h1 h2
    obtain ⟨msg, e⟩ := wordacc_else a.1 f (by
      rintro ⟨o, h⟩
      by_cases ho : Over o
      · exact h2 (.inr ⟨o, h, ho⟩)
      · exact h1 ⟨o, h, ho⟩) (fun h => h2 (.inl h))
    unfold wordaccdistFile
    simp only [e]; exact ⟨msg, rfl⟩

/-- C71 (wordaccci).  After the reading, there is a message if fewer than two files have a positive number of words; otherwise something is
divided by zero exactly if the total, or what is left of it without one of the files, is zero. -/
theorem c71_wordaccci (pct : Int → Int → List Nat) (fmt : ℝ → List Nat) : EndsAs (wordaccciProgram pct fmt fs (prog :: args))
    (∃ names ss, CommandLine [] prog args names ss ∧ ¬ names.length < 2 ∧ ∃ os, AllRead fs ReadsWordacc names os ∧ Two os ∧ ¬ Nothing os)
    (∃ names ss, CommandLine [] prog args names ss ∧ ¬ names.length < 2 ∧ (Astray fs ReadsWordacc BadWordacc names ∨
      ∃ os, AllRead fs ReadsWordacc names os ∧ Two os ∧ Nothing os)) := by
  refine line_ends hprog hargs hnul (main := fun names => if names.length < 2 then .err "not enough input files" else do
    let (D, l) ← forFiles fs wordaccciFile names (Wac.Wacdata.zero, Ci.Obslist.empty)
    let bytes ← Ci.write_results pct fmt (ascii "Words") (ascii "Misrecognized") l D.total.count D.total.missed
    return ⟨none, bytes⟩) rfl (fun names => EndsAs.guard _ ?_)
  refine (forFiles_ends (P := fun _ => True) (J := fun os a => a.2 = Ci.appended os ∧ a.1.total.count = (os.map Prod.fst).sum)
    (fun f o _ => wordacc_x f o) (fun _ _ _ => trivial) ?_ ?_ ?_ names [] _ ⟨rfl, rfl⟩).then
    (fun f o _ => wordacc_x f o) (fun _ _ _ => trivial) wordacc_u (fun os a h => ?_)
  · rintro os ⟨D, l⟩ f o ⟨h1, h2⟩ - h
    obtain ⟨E, e, ht⟩ := wordacc_reads D f o h
    unfold wordaccciFile
    simp only at h1 h2
    simp only [e, bind_ok, ht]
    rw [show D.total.count + o.1 - D.total.count = o.1 by omega, show D.total.missed + o.2 - D.total.missed = o.2 by omega]
    refine ⟨_, rfl, ?_, ?_⟩
    · rw [h1, Ci.appended_append]
    · simp [ht, h2]
  · intro os a f _ _ h
    unfold wordaccciFile; simp only [wordacc_bad _ f h]; rfl
  · intro os a f _ _ h1 h2
    obtain ⟨msg, e⟩ := wordacc_else a.1 f h1 h2
    unfold wordaccciFile
    simp only [e]; exact ⟨msg, rfl⟩
  · obtain ⟨D, l⟩ := a
    obtain ⟨h1, h2⟩ := h
    simp only at h1 h2
    subst h1
    exact (results_ends pct fmt (ascii "Words") (ascii "Misrecognized") os D.total.count D.total.missed h2).map _

include hfs

/-- C71 (accsum).  The program goes astray exactly if the first file that is not read has a confusion that is too short, or a row for a
character outside of the table before any row that is refused. -/
theorem c71_accsum (U : Unicode) (F : UnicodeFacts U) (pct : Int → Int → List Nat) : EndsAs (accsumProgram U pct fs (prog :: args))
    (∃ names ss, CommandLine [] prog args names ss ∧ ¬ names.length < 2 ∧ ∃ os, AllRead fs ReadsAccuracy names os)
    (∃ names ss, CommandLine [] prog args names ss ∧ ¬ names.length < 2 ∧ Astray fs ReadsAccuracy BadAccuracy names) := by
  refine line_ends hprog hargs hnul (main := fun names => if names.length < 2 then .err "not enough input files" else do
    let D ← forFiles fs Acc.read_accrpt names Acc.Accdata.zero
    let bytes ← Acc.write_accrpt U pct D
    return ⟨none, bytes⟩) rfl (fun names => EndsAs.guard _ ?_)
  exact (forFiles_ends (P := Bytes) (J := fun _ D => Acc.Known D) (fun f o h => accuracy_x f o h) hfs
    (fun os a f o hJ hb h => by
      obtain ⟨p, vs, E, e, _⟩ := accuracy_reads a f hb o h
      exact ⟨E, e, Acc.read_known e hJ⟩)
    (fun os a f _ hb h => accuracy_bad a f hb h) (fun os a f _ hb h1 h2 => accuracy_else a f hb h1 h2) names [] _ (fun _ _ => rfl)).total
    (fun f o h => accuracy_x f o h) hfs accuracy_u (fun os a hJ => by
      obtain ⟨bytes, e⟩   := Acc.write_accrpt_total F pct hJ
      rw [e]; exact ⟨_, rfl⟩)

/-- C71 (accdist).  The same; in addition a file with an accuracy of 101 percent or more leads astray. -/
theorem c71_accdist (pct : Int → Int → List Nat) : EndsAs (accdistProgram pct fs (prog :: args))
    (∃ names ss, CommandLine [] prog args names ss ∧ ∃ os, AllRead fs (fun f o => ReadsAccuracy f o ∧ ¬ Over o) names os)
    (∃ names ss, CommandLine [] prog args names ss ∧ Astray fs (fun f o => ReadsAccuracy f o ∧ ¬ Over o)
      (fun f => BadAccuracy f ∨ ∃ o, ReadsAccuracy f o ∧ Over o) names) := by
  refine line_ends hprog hargs hnul (main := fun names => do
    let (_, dist) ← forFiles fs accdistFile names (Acc.Accdata.zero, Dist.Dist.zero)
    return ⟨none, Dist.write_dist pct dist⟩) rfl (fun names => ?_)
  have hx : ∀ f o, Bytes f → (ReadsAccuracy f o ∧ ¬ Over o) → ¬ (BadAccuracy f ∨ ∃ o, ReadsAccuracy f o ∧ Over o) := by
    rintro f o hb ⟨h1, h2⟩ (h3 | ⟨o', h3, h4⟩)
    · exact accuracy_x f o hb h1 h3
    · rw [accuracy_u f o o' h1 h3] at h2; exact h2 h4
  refine (forFiles_ends (P := Bytes) (J := fun _ _ => True) hx hfs ?_ ?_ ?_ names [] _ trivial).total
    hx hfs (fun f o o' h h' => accuracy_u f o o' h.1 h'.1) (fun os a _ => ⟨_, rfl⟩)
  · rintro os a f o - hb ⟨h1, h2⟩
    obtain ⟨p, vs, E, e, hA, hc, hm⟩ := accuracy_reads a.1 f hb o h1
    unfold accdistFile
    simp only [e, bind_ok, hA.characters, hA.errors, hc, hm]
    rw [show a.1.characters + o.1 - a.1.characters = o.1 by omega, show a.1.errors + o.2 - a.1.errors = o.2 by omega]
    obtain ⟨d, e⟩ := (update_ends a.2 o.1 o.2).2 h2
    rw [e]; exact ⟨_, rfl, trivial⟩
  · rintro os a f - hb (h | ⟨o, h1, h2⟩)
    · unfold accdistFile; simp only [accuracy_bad _ f hb h]; rfl
    · obtain ⟨p, vs, E, e, hA, hc, hm⟩ := accuracy_reads a.1 f hb o h1
      unfold accdistFile
      simp only [e, bind_ok, hA.characters, hA.errors, hc, hm]
      rw [show a.1.characters + o.1 - a.1.characters = o.1 by omega, show a.1.errors + o.2 - a.1.errors = o.2 by omega,
        (update_ends a.2 o.1 o.2).1 h2]
      rfl
  · intro os a f _ hb h1 h2
    obtain ⟨msg, e⟩ := accuracy_else a.1 f hb (by
      rintro ⟨o, h⟩
      by_cases ho : Over o
      · exact h2 (.inr ⟨o, h, ho⟩)
      · exact h1 ⟨o, h, ho⟩) (fun h => h2 (.inl h))
    unfold accdistFile
    simp only [e]; exact ⟨msg, rfl⟩

/-- C71 (accci).  After the reading, there is a message if fewer than two files have a positive number of characters; otherwise something is
divided by zero exactly if the total, or what is left of it without one of the files, is zero. -/
theorem c71_accci (pct : Int → Int → List Nat) (fmt : ℝ → List Nat) : EndsAs (accciProgram pct fmt fs (prog :: args))
    (∃ names ss, CommandLine [] prog args names ss ∧ ¬ names.length < 2 ∧ ∃ os, AllRead fs ReadsAccuracy names os ∧ Two os ∧ ¬ Nothing os)
    (∃ names ss, CommandLine [] prog args names ss ∧ ¬ names.length < 2 ∧ (Astray fs ReadsAccuracy BadAccuracy names ∨
      ∃ os, AllRead fs ReadsAccuracy names os ∧ Two os ∧ Nothing os)) := by
  refine line_ends hprog hargs hnul (main := fun names => if names.length < 2 then .err "not enough input files" else do
    let (D, l) ← forFiles fs accciFile names (Acc.Accdata.zero, Ci.Obslist.empty)
    let bytes ← Ci.write_results pct fmt (ascii "Characters") (ascii "Errors") l D.characters D.errors
    return ⟨none, bytes⟩) rfl (fun names => EndsAs.guard _ ?_)
  refine (forFiles_ends (P := Bytes) (J := fun os a => a.2 = Ci.appended os ∧ a.1.characters = (os.map Prod.fst).sum)
    (fun f o h => accuracy_x f o h) hfs ?_ ?_ ?_ names [] _ ⟨rfl, rfl⟩).then
    (fun f o h => accuracy_x f o h) hfs accuracy_u (fun os a h => ?_)
  · rintro os ⟨D, l⟩ f o ⟨h1, h2⟩ hb h
    obtain ⟨p, vs, E, e, hA, hc, hm⟩ := accuracy_reads D f hb o h
    unfold accciFile
    simp only at h1 h2
    simp only [e, bind_ok, hA.characters, hA.errors, hc, hm]
    rw [show D.characters + o.1 - D.characters = o.1 by omega, show D.errors + o.2 - D.errors = o.2 by omega]
    refine ⟨_, rfl, ?_, ?_⟩
    · rw [h1, Ci.appended_append]
    · simp [hA.characters, hc, h2]
  · intro os a f _ hb h
    unfold accciFile; simp only [accuracy_bad _ f hb h]; rfl
  · intro os a f _ hb h1 h2
    obtain ⟨msg, e⟩ := accuracy_else a.1 f hb h1 h2
    unfold accciFile
    simp only [e]; exact ⟨msg, rfl⟩
  · obtain ⟨D, l⟩ := a
    obtain ⟨h1, h2⟩ := h
    simp only at h1 h2
    subst h1
    exact (results_ends pct fmt (ascii "Characters") (ascii "Errors") os D.characters D.errors h2).map _

end

/-! ## Non-vacuity -/

/-- Three files, by the names x, y and z. -/
def threeFiles (a b c : List Nat) : Fs := fun n =>
  if n = ascii "x" then some a else if n = ascii "y" then some b else if n = ascii "z" then some c else none

theorem three_bytes {a b c : List Nat} (ha : Bytes a) (hb : Bytes b) (hc : Bytes c) :
    ∀ name file, threeFiles a b c name = some file → Bytes file := by
  intro name file h
  unfold threeFiles at h
  split at h
  · have := Option.some.inj h; subst this; exact ha
  · split at h
    · have := Option.some.inj h; subst this; exact hb
    · split at h
      · have := Option.some.inj h; subst this; exact hc
      · cases h

theorem three_line (prog : String) (hp : (ascii prog).length ≤ 32768) :
    CommandLine [] (ascii prog) [ascii "x", ascii "y", ascii "z"] [ascii "x", ascii "y", ascii "z"] [] :=
  ⟨hp, by decide +kernel, by decide +kernel, by simp,
    .operand (by rintro ⟨c, r, e⟩; simp [ascii] at e) (.operand (by rintro ⟨c, r, e⟩; simp [ascii] at e)
      (.operand (by rintro ⟨c, r, e⟩; simp [ascii] at e) .nil)), by simp [Args.Once]⟩

theorem file_y (a b c : List Nat) : threeFiles a b c (ascii "y") = some b := by
  unfold threeFiles; rw [if_neg (by decide +kernel), if_pos rfl]

theorem file_z (a b c : List Nat) : threeFiles a b c (ascii "z") = some c := by
  unfold threeFiles; rw [if_neg (by decide +kernel), if_neg (by decide +kernel), if_pos rfl]

theorem reads_three {β : Type} {R : List Nat → β → Prop} {a b c : List Nat} {o p q : β} (ha : R a o) (hb : R b p) (hc : R c q) :
    AllRead (threeFiles a b c) R [ascii "x", ascii "y", ascii "z"] [o, p, q] :=
  .cons ⟨a, rfl, ha⟩ (.cons ⟨b, file_y a b c, hb⟩ (.cons ⟨c, file_z a b c, hc⟩ .nil))

theorem reads_two {β : Type} {R : List Nat → β → Prop} {a b c : List Nat} {o p : β} (ha : R a o) (hb : R b p) :
    AllRead (threeFiles a b c) R [ascii "x", ascii "y"] [o, p] := .cons ⟨a, rfl, ha⟩ (.cons ⟨b, file_y a b c, hb⟩ .nil)

theorem astray_second {β : Type} {R : List Nat → β → Prop} {B : List Nat → Prop} {a b c : List Nat} {o : β} (ha : R a o) (hb : B b) :
    Astray (threeFiles a b c) R B [ascii "x", ascii "y"] :=
  ⟨[ascii "x"], ascii "y", [], b, [o], rfl, .cons ⟨a, rfl, ha⟩ .nil, file_y a b c, hb⟩

def longEditop : List Nat := oddEditop ++ ascii "\n1 101\n"

theorem reads_odd : ReadsEditop oddEditop () :=
  ⟨3, -1, 2, [⟨1, 7, ascii "1 7\n"⟩, ⟨4, 100, ascii " 4   100 x\n"⟩, ⟨1, 7, ascii "1 7"⟩], by decide +kernel, by decide⟩

theorem bad_long : BadEditop longEditop :=
  ⟨3, -1, 2, [⟨1, 7, ascii "1 7\n"⟩, ⟨4, 100, ascii " 4   100 x\n"⟩, ⟨1, 7, ascii "1 7\n"⟩, ⟨1, 101, ascii "1 101\n"⟩],
    by decide +kernel, by decide⟩

/-- Two odd reports are added up and compared; a move of 101 characters in the second one leads both programs astray. -/
example : (∃ out, editopsumProgram (threeFiles oddEditop oddEditop []) [ascii "editopsum", ascii "x", ascii "y"] = .ok out) ∧
    editopsumProgram (threeFiles oddEditop longEditop []) [ascii "editopsum", ascii "x", ascii "y"] = .ub ∧
    (∃ out, editopcostProgram (threeFiles oddEditop oddEditop []) [ascii "editopcost", ascii "x", ascii "y"] = .ok out) ∧
    editopcostProgram (threeFiles oddEditop longEditop []) [ascii "editopcost", ascii "x", ascii "y"] = .ub := by
  have L := two_line "editopsum" (by decide +kernel)
  have L' := two_line "editopcost" (by decide +kernel)
  exact ⟨(c71_editopsum _ _ _ L.prog L.many L.nul).output.2 ⟨_, _, L, by simp, _, reads_two reads_odd reads_odd⟩,
    (c71_editopsum _ _ _ L.prog L.many L.nul).astray.2 ⟨_, _, L, by simp, astray_second reads_odd bad_long⟩,
    (c71_editopcost _ _ _ L'.prog L'.many L'.nul).output.2 ⟨_, _, L', by simp, _, reads_two reads_odd reads_odd⟩,
    (c71_editopcost _ _ _ L'.prog L'.many L'.nul).astray.2 ⟨_, _, L', by simp, astray_second reads_odd bad_long⟩⟩

/-- If the file before it is refused, that one does no harm. -/
example : editopsumProgram (threeFiles (ascii "no report\n") longEditop []) [ascii "editopsum", ascii "x", ascii "y"] =
    .err "invalid format in" := by decide +kernel

/-- A word accuracy report with nothing but the figures at the top. -/
def briefWordacc (words missed : String) : List Nat := Wac.TITLE ++ Wac.DIVIDER ++ ascii words ++ ascii "\n" ++ ascii missed ++ ascii "\n\n\n"

theorem brief_sound (w m : Int) : WordaccParts.Sound ⟨w, m, [], [], [], [], [], []⟩ :=
  ⟨by simp [InArray], by simp [InArray], by simp [InArray], by simp [InArray], by simp [HasNames], by simp [HasNames]⟩

theorem reads_brief : ReadsWordacc (briefWordacc "3" "1") (3, 1) := ⟨_, by decide +kernel, brief_sound 3 1, rfl⟩
theorem reads_minus : ReadsWordacc (briefWordacc "-3" "0") (-3, 0) := ⟨_, by decide +kernel, brief_sound (-3) 0, rfl⟩
theorem reads_over : ReadsWordacc (briefWordacc "100" "-1") (100, -1) := ⟨_, by decide +kernel, brief_sound 100 (-1), rfl⟩

def farWordacc : List Nat := Wac.TITLE ++ Wac.DIVIDER ++ ascii "3\n1\n\n\n\n\n       2        1    50.00       51\n\n"

theorem bad_far : BadWordacc farWordacc :=
  ⟨⟨3, 1, [⟨2, 1, ascii "       2        1    50.00       51\n"⟩], [], [], [], [], []⟩, by decide +kernel,
    fun hs => by have := hs.stop; revert this; unfold InArray; decide +kernel⟩

/-- 101 correct words of 100 write beyond the array of `wordaccdist`; `wordaccsum` adds them up. -/
example (pct : Int → Int → List Nat) :
    wordaccdistProgram pct (threeFiles (briefWordacc "3" "1") (briefWordacc "100" "-1") []) [ascii "wordaccdist", ascii "x", ascii "y"] = .ub ∧
    (∃ out, wordaccdistProgram pct (threeFiles (briefWordacc "3" "1") (briefWordacc "3" "1") [])
      [ascii "wordaccdist", ascii "x", ascii "y"] = .ok out) ∧
    (∃ out, wordaccsumProgram pct (threeFiles (briefWordacc "3" "1") (briefWordacc "100" "-1") [])
      [ascii "wordaccsum", ascii "x", ascii "y"] = .ok out) ∧
    wordaccsumProgram pct (threeFiles (briefWordacc "3" "1") farWordacc []) [ascii "wordaccsum", ascii "x", ascii "y"] = .ub := by
  have L := two_line "wordaccdist" (by decide +kernel)
  have L' := two_line "wordaccsum" (by decide +kernel)
  exact ⟨(c71_wordaccdist _ _ _ L.prog L.many L.nul pct).astray.2 ⟨_, _, L, astray_second (R := fun f o => ReadsWordacc f o ∧ ¬ Over o)
      ⟨reads_brief, by unfold Over; decide⟩ (.inr ⟨_, reads_over, by unfold Over; decide⟩)⟩,
    (c71_wordaccdist _ _ _ L.prog L.many L.nul pct).output.2 ⟨_, _, L, _, reads_two (R := fun f o => ReadsWordacc f o ∧ ¬ Over o)
      ⟨reads_brief, by unfold Over; decide⟩ ⟨reads_brief, by unfold Over; decide⟩⟩,
    (c71_wordaccsum _ _ _ L'.prog L'.many L'.nul pct).output.2 ⟨_, _, L', by simp, _, reads_two reads_brief reads_over⟩,
    (c71_wordaccsum _ _ _ L'.prog L'.many L'.nul pct).astray.2 ⟨_, _, L', by simp, astray_second reads_brief bad_far⟩⟩

/-- 3, 3 and -3 words: without the first file nothing is left, and `wordaccci` divides by zero. -/
example (pct : Int → Int → List Nat) (fmt : ℝ → List Nat) :
    wordaccciProgram pct fmt (threeFiles (briefWordacc "3" "1") (briefWordacc "3" "1") (briefWordacc "-3" "0"))
      [ascii "wordaccci", ascii "x", ascii "y", ascii "z"] = .ub ∧
    ∃ out, wordaccciProgram pct fmt (threeFiles (briefWordacc "3" "1") (briefWordacc "3" "1") (briefWordacc "100" "-1"))
      [ascii "wordaccci", ascii "x", ascii "y", ascii "z"] = .ok out := by
  have L := three_line "wordaccci" (by decide +kernel)
  exact ⟨(c71_wordaccci _ _ _ L.prog L.many L.nul pct fmt).astray.2 ⟨_, _, L, by simp, .inr ⟨_, reads_three reads_brief reads_brief reads_minus,
      by unfold Two; decide, by unfold Nothing; decide⟩⟩,
    (c71_wordaccci _ _ _ L.prog L.many L.nul pct fmt).output.2 ⟨_, _, L, by simp, _, reads_three reads_brief reads_brief reads_over,
      by unfold Two; decide, by unfold Nothing; decide⟩⟩

/-- An accuracy report without classes of characters, and one with a row that ends after the brace. -/
def cutTop : List Nat := oddTop ++ ascii "       2        1    50.00   {"

def plusHead (c e : Int) : Acc.Head := ⟨c, e, 0, 0, 0, ⟨0, 0, 0, 0⟩, ⟨0, 0, 0, 0⟩, ⟨0, 0, 0, 0⟩⟩

def briefAccuracy (c e : String) : List Nat := Acc.TITLE ++ Acc.DIVIDER ++ ascii c ++ ascii "\n" ++ ascii e ++
  ascii "\n\n\n0\n0\n0\n\n\n\n\n0 0 0 0\n0 0 0 0\n0 0 0 0\n\n\n\n"

theorem reads_top : ReadsAccuracy oddTop (3, 1) :=
  ⟨⟨oddHead, [⟨1, 0, ascii "1 0 of what    {a}-{b}\n"⟩], []⟩, by decide +kernel, by unfold HasNames; decide +kernel, ⟨[], .nil⟩, rfl⟩

theorem reads_plus : ReadsAccuracy (briefAccuracy "100" "-1") (100, -1) :=
  ⟨⟨plusHead 100 (-1), [], []⟩, by decide +kernel, by unfold HasNames; decide +kernel, ⟨[], .nil⟩, rfl⟩

theorem reads_less : ReadsAccuracy (briefAccuracy "-3" "0") (-3, 0) :=
  ⟨⟨plusHead (-3) 0, [], []⟩, by decide +kernel, by unfold HasNames; decide +kernel, ⟨[], .nil⟩, rfl⟩

theorem bad_cut : BadAccuracy cutTop :=
  ⟨⟨oddHead, [⟨1, 0, ascii "1 0 of what    {a}-{b}\n"⟩], [⟨2, 1, ascii "       2        1    50.00   {"⟩]⟩, by decide +kernel,
    .inr ⟨[], _, [], [], rfl, .nil, Or.inr (Or.inl (by decide +kernel))⟩⟩

/-- The same for accuracy reports. -/
example (pct : Int → Int → List Nat) (fmt : ℝ → List Nat) :
    (∃ out, accsumProgram sampleUnicode pct (threeFiles oddTop (briefAccuracy "100" "-1") []) [ascii "accsum", ascii "x", ascii "y"] = .ok out) ∧
    accsumProgram sampleUnicode pct (threeFiles oddTop cutTop []) [ascii "accsum", ascii "x", ascii "y"] = .ub ∧
    (∃ out, accdistProgram pct (threeFiles oddTop oddTop []) [ascii "accdist", ascii "x", ascii "y"] = .ok out) ∧
    accdistProgram pct (threeFiles oddTop (briefAccuracy "100" "-1") []) [ascii "accdist", ascii "x", ascii "y"] = .ub ∧
    accciProgram pct fmt (threeFiles oddTop oddTop (briefAccuracy "-3" "0")) [ascii "accci", ascii "x", ascii "y", ascii "z"] = .ub ∧
    ∃ out, accciProgram pct fmt (threeFiles oddTop oddTop (briefAccuracy "100" "-1"))
      [ascii "accci", ascii "x", ascii "y", ascii "z"] = .ok out := by
  have L := two_line "accsum" (by decide +kernel)
  have L1 := two_line "accdist" (by decide +kernel)
  have L2 := three_line "accci" (by decide +kernel)
  have b0 : Bytes [] := by unfold Bytes; decide
  have b1 : Bytes oddTop := by unfold Bytes; decide +kernel
  have b2 : Bytes cutTop := by unfold Bytes; decide +kernel
  have b3 : Bytes (briefAccuracy "100" "-1") := by unfold Bytes; decide +kernel
  have b4 : Bytes (briefAccuracy "-3" "0") := by unfold Bytes; decide +kernel
  exact ⟨(c71_accsum _ (three_bytes b1 b3 b0) _ _ L.prog L.many L.nul _ sampleFacts pct).output.2
      ⟨_, _, L, by simp, _, reads_two reads_top reads_plus⟩,
    (c71_accsum _ (three_bytes b1 b2 b0) _ _ L.prog L.many L.nul _ sampleFacts pct).astray.2
      ⟨_, _, L, by simp, astray_second reads_top bad_cut⟩,
    (c71_accdist _ (three_bytes b1 b1 b0) _ _ L1.prog L1.many L1.nul pct).output.2 ⟨_, _, L1, _,
      reads_two (R := fun f o => ReadsAccuracy f o ∧ ¬ Over o) ⟨reads_top, by unfold Over; decide⟩ ⟨reads_top, by unfold Over; decide⟩⟩,
    (c71_accdist _ (three_bytes b1 b3 b0) _ _ L1.prog L1.many L1.nul pct).astray.2 ⟨_, _, L1,
      astray_second (R := fun f o => ReadsAccuracy f o ∧ ¬ Over o) ⟨reads_top, by unfold Over; decide⟩
        (.inr ⟨_, reads_plus, by unfold Over; decide⟩)⟩,
    (c71_accci _ (three_bytes b1 b1 b4) _ _ L2.prog L2.many L2.nul pct fmt).astray.2 ⟨_, _, L2, by simp,
      .inr ⟨_, reads_three reads_top reads_top reads_less, by unfold Two; decide, by unfold Nothing; decide⟩⟩,
    (c71_accci _ (three_bytes b1 b1 b3) _ _ L2.prog L2.many L2.nul pct fmt).output.2 ⟨_, _, L2, by simp, _,
      reads_three reads_top reads_top reads_plus, by unfold Two; decide, by unfold Nothing; decide⟩⟩

end Ocr.Ending
