import Verif.Spec.Signal
import Verif.Props.World

/-!
# C98: a program that is killed
-/

namespace Ocr.Signal
open Prog Process Disk

attribute [local irreducible] Runs

/-- C98 (set up).  The name of the program, which the message begins with, is known before the first handler is installed; in the end
the signals 2 (`SIGINT`) and 15 (`SIGTERM`) have one, and no other signal has. -/
theorem c98_setup (base : List Nat) (s : Setup) (h0 : s.trapped = []) :
    (∀ t ∈ during (initialize_ base) s, t.trapped ≠ [] → t.exec_name = some base) ∧
    (∀ t, (during (initialize_ base) s).getLast? = some t →
      (∀ n, n ∈ t.trapped ↔ n = 2 ∨ n = 15) ∧ t.exec_name = some base) := by
  constructor
  · intro t ht hne
    simp only [initialize_, trap_interrupts, during, List.mem_cons, List.not_mem_nil, or_false] at ht
    rcases ht with rfl | rfl | rfl | rfl
    · exact absurd h0 hne
    · rfl
    · rfl
    · rfl
  · intro t ht
    simp only [initialize_, trap_interrupts, during, List.getLast?_cons_cons, List.getLast?_singleton, Option.some.injEq] at ht
    subst ht
    simp [h0, SIGINT, SIGTERM, or_comm]

/-- C98 (no handler).  A signal without a handler, or one that arrives before the handlers are installed, kills the program without a
message. -/
theorem c98_killed (exec : List Nat) (signals : List Nat) (n : Nat) (hn : n ∉ signals) (events : List Event) (s : Snapshot) :
    arrive exec signals n events s = some (.killed n s) := by
  unfold arrive
  rw [if_neg hn]

theorem dying_eq (exec : List Nat) (signals : List Nat) (status : Nat) : ∀ (events : List Event) (rest : List Nat) (s : Snapshot), Only signals events →
    dying exec signals events true status rest s = .exit status { s with err := s.err ++ rest }
  | [], rest, s, _ => rfl
  | .step :: _, [], s, _ => by simp [dying]
  | .step :: events, b :: rest, s, h => by
    rw [dying, dying_eq exec signals status events rest _ (fun n hn => h n (List.mem_cons_of_mem _ hn))]
    simp
  | .signal n :: events, rest, s, h => by
    rw [dying, if_pos (h n (List.mem_cons_self ..))]
    simp only [handle_interrupt, if_true]
    exact dying_eq exec signals status events rest s (fun n hn => h n (List.mem_cons_of_mem _ hn))

/-- C98 (one message).  When a signal with a handler arrives, the program ends with status 1 and exactly one message, whatever further
signals arrive; files and `stdout` remain as they are. -/
theorem c98_once (exec : List Nat) (signals : List Nat) (n : Nat) (hn : n ∈ signals) (events : List Event) (he : Only signals events) (s : Snapshot) :
    arrive exec signals n events s = some (.exit 1 { s with err := s.err ++ errorLine exec (ascii "process killed") }) := by
  unfold arrive
  rw [if_pos hn]
  have : handle_interrupt exec false = (true, some (.exit 1 (errorLine exec (ascii "process killed")))) := rfl
  rw [this]
  simp only
  rw [dying_eq exec signals 1 events _ s he]

/-- C98 (files).  Whenever a program is killed: all files are as before, except that the output file may hold the beginning of what would
have been written; `stdout` has the beginning of what would have been printed.  A run that would have ended with a message has changed no
file.  Together with C97 this holds for all programs. -/
theorem c98_files {α : Type} (view : α → List Nat × Output) (w : World) (o : Out α) (r : Fin Unit) (h : Runs view w o r) (hp : w.past = [])
    (exec : List Nat) (n : Nat) (hn : n = SIGINT ∨ n = SIGTERM) (events : List Event) (he : Only [SIGINT, SIGTERM] events)
    (s : Snapshot) (hs : s ∈ states w r) :
    ∃ t, arrive exec [SIGINT, SIGTERM] n events s = some (.exit 1 t) ∧
      (∀ e a, o = .ok e a → (t.files = w.files ∨ ∃ p, p <+: (view a).2.bytes ∧ t.files = written w.files ⟨(view a).2.filename, p⟩) ∧
        (∀ name, (view a).2.filename ≠ some name → t.files name = w.files name) ∧
        t.out <+: w.out ++ (view a).1 ++ printed (view a).2 ∧ ∃ p, p <+: e ∧ t.err = w.err ++ p ++ errorLine exec (ascii "process killed")) ∧
      (∀ st e, o = .exit st e → t.files = w.files ∧ ∃ p, p <+: e ∧ t.err = w.err ++ p ++ errorLine exec (ascii "process killed")) ∧
      (o = .abort → t.files = w.files) := by
  refine ⟨_, c98_once exec _ n (by rcases hn with rfl | rfl <;> simp) events he s, ?_, ?_, ?_⟩
  · rintro e a rfl
    obtain ⟨w', rfl, hd⟩ : ∃ w', r = .ok () w' ∧ Done w e (view a).1 (view a).2 w' := by unfold Runs at h; exact h
    have k : (s.files = w.files ∨ ∃ p, p <+: (view a).2.bytes ∧ s.files = written w.files ⟨(view a).2.filename, p⟩) ∧ s.out <+: w'.out ∧ Told w e s := by
      rcases List.mem_cons.1 hs with rfl | hs
      · refine ⟨.inl rfl, ?_, told_nil rfl⟩
        rw [hd.out, List.append_assoc]
        exact List.prefix_append _ _
      · rcases hd.past s hs with h1 | ⟨h1, h2, h3, h4⟩
        · rw [hp] at h1; cases h1
        · exact ⟨h1.imp id (fun ⟨p, a, b⟩ => ⟨p, a.trans (kept_prefix _ _), b⟩), h3, h4⟩
    obtain ⟨k1, k2, p, k3, k4⟩ := k
    refine ⟨k1, ?_, hd.out ▸ k2, p, k3, by simp only [k4]⟩
    intro name hname
    rcases k1 with k1 | ⟨q, _, k1⟩
    · exact congrFun k1 name
    · show s.files name = _
      rw [k1]
      cases hf : (view a).2.filename with
      | none => rfl
      | some x =>
        have : name ≠ x := fun h => hname (by rw [hf, h])
        simp only [written, if_neg this]
  · rintro st e rfl
    obtain ⟨w', rfl, hd⟩ : ∃ w', r = .exit st w' ∧ Ended w e w' := by unfold Runs at h; exact h
    rcases List.mem_cons.1 hs with rfl | hs
    · exact ⟨rfl, [], List.nil_prefix, by simp [now]⟩
    · rcases hd.past s hs with h1 | ⟨h1, _, _, p, h4, h5⟩
      · rw [hp] at h1; cases h1
      · exact ⟨h1, p, h4, by simp only [h5]⟩
  · rintro rfl
    obtain ⟨w', rfl, _, hd⟩ : ∃ w', r = .abort w' ∧ w'.files = w.files ∧ Since w w' (fun s => s.files = w.files) := by unfold Runs at h; exact h
    rcases List.mem_cons.1 hs with rfl | hs
    · rfl
    · rcases hd s hs with h1 | h1
      · rw [hp] at h1; cases h1
      · exact h1

theorem shortened_valid {D : Edo.Edodata} (h : D.Valid) (n : Nat) : (shortened D n).Valid := by
  refine ⟨h.longs, fun i => ?_, fun i hi => ?_, ?_⟩
  · simp only [shortened]
    split
    · exact h.moves_nn i
    · exact ⟨le_rfl, by unfold Report.IsLong; decide⟩
  · refine h.support i ?_
    simp only [shortened] at hi
    split at hi
    · exact hi
    · exact absurd rfl hi
  · rintro ⟨i, hi⟩
    refine h.positive ⟨i, ?_⟩
    simp only [shortened] at hi
    split at hi
    · exact hi
    · exact absurd rfl hi

theorem moves_nil (D : Edo.Edodata) (n : Nat) : ∀ is : List Nat, (∀ i ∈ is, n < i) → Edo.write_moves (shortened D n) is = []
  | [], _ => rfl
  | i :: is, h => by
    have := h i (List.mem_cons_self ..)
    rw [Edo.write_moves, moves_nil D n is (fun j hj => h j (List.mem_cons_of_mem _ hj)), if_neg]
    · rfl
    · simp only [shortened, if_neg (by omega : ¬ i ≤ n)]
      omega

theorem moves_prefix (D : Edo.Edodata) (n : Nat) : ∀ is : List Nat, is.Pairwise (· < ·) → Edo.write_moves (shortened D n) is <+: Edo.write_moves D is
  | [], _ => List.prefix_refl _
  | i :: is, h => by
    obtain ⟨h1, h2⟩ := List.pairwise_cons.1 h
    by_cases hi : i ≤ n
    · rw [Edo.write_moves, Edo.write_moves]
      have : (shortened D n).moves i = D.moves i := by simp only [shortened, if_pos hi]
      rw [this]
      exact (List.prefix_append_right_inj _).2 (moves_prefix D n is h2)
    · rw [moves_nil D n (i :: is)]
      · exact List.nil_prefix
      · intro j hj
        rcases List.mem_cons.1 hj with rfl | hj
        · omega
        · have := h1 j hj
          omega

/-- C98 (part of a report).  The end of a report is not marked.  If `editop` is killed while it writes its report, the part that is there may
be read as a complete report in which all moves longer than some length are missing, and this is so for every length. -/
theorem c98_part {α : Type} (view : α → List Nat × Output) (w : World) (e : List Nat) (a : α) (r : Fin Unit) (h : Runs view w (.ok e a) r)
    (hroom : w.room = none) (D : Edo.Edodata) (hD : D.Valid) (name : List Nat) (ha : (view a).2 = ⟨some name, Edo.write_edorpt D⟩) (n : Nat) :
    ∃ s ∈ states w r, ∃ file, s.files name = some file ∧ Edo.read_edorpt Edo.Edodata.zero file = .ok (shortened D n) := by
  obtain ⟨w', rfl, hd⟩ : ∃ w', r = .ok () w' ∧ Done w e (view a).1 (view a).2 w' := by unfold Runs at h; exact h
  have hp : Edo.write_edorpt (shortened D n) <+: Edo.write_edorpt D := by
    unfold Edo.write_edorpt
    refine (List.prefix_append_right_inj _).2 ?_
    show (if D.total_moves > 0 then _ else _) <+: _
    split
    · exact (List.prefix_append_right_inj _).2 (moves_prefix D n _ List.pairwise_lt_range')
    · exact List.nil_prefix
  obtain ⟨s, h1, h2⟩ := hd.parts name (by rw [ha]) (Edo.write_edorpt (shortened D n)) (by rw [ha, hroom]; exact hp)
  refine ⟨s, List.mem_cons_of_mem _ h1, _, ?_, Edo.c26_round_trip _ (shortened_valid hD n)⟩
  rw [h2]
  simp [written]

/-! ## Non-vacuity -/

/-- Both signals, one in the middle of the message. -/
example : arrive (ascii "vote") [SIGINT, SIGTERM] SIGINT [.step, .step, .signal SIGTERM, .step, .signal SIGINT] ⟨fun _ => none, [7], [8]⟩ =
    some (.exit 1 ⟨fun _ => none, [7], 8 :: ascii "vote: process killed\n"⟩) := by
  rw [c98_once _ _ _ (by simp) _ (by intro n h; simp at h; rcases h with rfl | rfl <;> simp)]
  have : [8] ++ errorLine (ascii "vote") (ascii "process killed") = 8 :: ascii "vote: process killed\n" := by decide +kernel
  simp only [this]

example : arrive (ascii "vote") [] SIGINT [.step] ⟨fun _ => none, [7], [8]⟩ = some (.killed 2 ⟨fun _ => none, [7], [8]⟩) :=
  c98_killed _ _ _ (by simp) _ _

/-- What `editop a b report` finds for the sample page. -/
def sampleEdo : Edo.Edodata := ⟨0, 4, 1, fun i => if i = 3 then 1 else 0⟩

theorem sample_run : (Process.editop [] (fun _ => true) Text.sampleUnicode [] sampleFs).run [ascii "editop", ascii "a", ascii "b", ascii "report"] =
    .ok [] ([], ⟨some (ascii "report"), Edo.write_edorpt sampleEdo⟩) := by
  cases h : (Process.editop [] (fun _ => true) Text.sampleUnicode [] sampleFs).run [ascii "editop", ascii "a", ascii "b", ascii "report"] with
  | ok e a =>
    have : (match (Process.editop [] (fun _ => true) Text.sampleUnicode [] sampleFs).run [ascii "editop", ascii "a", ascii "b", ascii "report"] with
      | .ok e a => decide (e = [] ∧ a = ([], ⟨some (ascii "report"), Edo.write_edorpt sampleEdo⟩))
      | _ => false) = true := by decide +kernel
    rw [h] at this
    obtain ⟨rfl, rfl⟩ := of_decide_eq_true this
    rfl
  | _ =>
    exfalso
    have : (match (Process.editop [] (fun _ => true) Text.sampleUnicode [] sampleFs).run [ascii "editop", ascii "a", ascii "b", ascii "report"] with
      | .ok e a => true
      | _ => false) = true := by decide +kernel
    rw [h] at this
    cases this

theorem sample_runs : Runs id (atStart sampleFs) (.ok [] ([], ⟨some (ascii "report"), Edo.write_edorpt sampleEdo⟩))
    ((Disk.editop [] (fun _ => true) Text.sampleUnicode []).run [ascii "editop", ascii "a", ascii "b", ascii "report"] (atStart sampleFs)) := by
  have h := (c97_reports [] (fun _ => true) Text.sampleUnicode Word.wbProp some Acc.samplePct [] 0
    [ascii "editop", ascii "a", ascii "b", ascii "report"] (atStart sampleFs) (by intro o h; cases h)).1
  have e : (atStart sampleFs).files = sampleFs := rfl
  rw [e, sample_run] at h
  exact h

/-- The move is missing in a part of the report that can be read; the texts are as before. -/
example : ∃ s ∈ states (atStart sampleFs)
      ((Disk.editop [] (fun _ => true) Text.sampleUnicode []).run [ascii "editop", ascii "a", ascii "b", ascii "report"] (atStart sampleFs)),
    (∃ file D, s.files (ascii "report") = some file ∧ Edo.read_edorpt Edo.Edodata.zero file = .ok D ∧ D.total_moves = 1 ∧ ∀ i, D.moves i = 0) ∧
    ∃ t, arrive (ascii "editop") [SIGINT, SIGTERM] SIGTERM [.step, .signal SIGTERM] s = some (.exit 1 t) ∧
      t.files (ascii "a") = sampleFs (ascii "a") := by
  obtain ⟨s, h1, file, h2, h3⟩ := c98_part id _ _ _ _ sample_runs rfl sampleEdo
    ⟨by unfold Report.IsLong; decide, fun i => by simp only [sampleEdo, Report.IsLong]; split <;> omega,
      fun i => by simp only [sampleEdo]; split <;> omega, fun _ => by decide⟩ (ascii "report") rfl 2
  obtain ⟨t, k1, k2, _⟩ := c98_files id _ _ _ sample_runs rfl (ascii "editop") SIGTERM (.inr rfl) [.step, .signal SIGTERM]
    (by intro n h; simp at h; simp [h]) s h1
  refine ⟨s, h1, ⟨file, _, h2, h3, rfl, fun i => ?_⟩, t, k1, (k2 _ _ rfl).2.1 _ (by decide +kernel)⟩
  simp only [shortened, sampleEdo]
  split
  · rw [if_neg (by omega)]
  · rfl

end Ocr.Signal
