import Verif.Spec.World
import Verif.Proof.PrintEndings
import Verif.Proof.TextEndings
import Verif.Proof.Process
import Verif.Props.Vote

/-!
# Proofs about the files the programs change
-/

namespace Ocr.Disk
open Text Prog Process

theorem wbind {α β : Type} (m : W α) (f : α → W β) (w : World) : (m >>= f) w = W.bind m f w := rfl
theorem wbind_ok {α β : Type} {m : W α} {f : α → W β} {w w' : World} {a : α} (h : m w = .ok a w') : (m >>= f) w = f a w' := by
  rw [wbind, W.bind, h]
theorem wbind_exit {α β : Type} {m : W α} {f : α → W β} {w w' : World} {s : Nat} (h : m w = .exit s w') : (m >>= f) w = .exit s w' := by
  rw [wbind, W.bind, h]
theorem wbind_abort {α β : Type} {m : W α} {f : α → W β} {w w' : World} (h : m w = .abort w') : (m >>= f) w = .abort w' := by
  rw [wbind, W.bind, h]
theorem wbind_ub {α β : Type} {m : W α} {f : α → W β} {w : World} (h : m w = .ub) : (m >>= f) w = .ub := by rw [wbind, W.bind, h]
theorem wbind_fuel {α β : Type} {m : W α} {f : α → W β} {w : World} (h : m w = .fuel) : (m >>= f) w = .fuel := by rw [wbind, W.bind, h]
theorem wpure {α : Type} (a : α) (w : World) : (pure a : W α) w = .ok a w := rfl

/-- Nothing has changed but the counters and what is printed on `stderr`. -/
structure Quiet (w : World) (e : List Nat) (w' : World) : Prop where
  files  : w'.files = w.files
  opened : w'.opened = w.opened
  input  : w'.input = w.input
  out    : w'.out = w.out
  err    : w'.err = w.err ++ e
  most   : w'.most ≤ max w.most (w.opened.length + 1)
  calls  : w.calls ≤ w'.calls
  past   : Since w w' (fun s => s.files = w.files ∧ s.out = w.out ∧ Told w e s)
  room   : w'.room = w.room

theorem mem_each {bytes : List Nat} {f : List Nat → Snapshot} {s : Snapshot} (h : s ∈ each bytes f) : ∃ p, p <+: bytes ∧ s = f p := by
  unfold each at h
  obtain ⟨p, h1, rfl⟩ := List.mem_map.1 h
  exact ⟨p, (List.mem_inits p bytes).1 (List.mem_of_mem_tail h1), rfl⟩

theorem each_mem {bytes p : List Nat} (f : List Nat → Snapshot) (h : p <+: bytes) (hp : p ≠ []) : f p ∈ each bytes f := by
  unfold each
  refine List.mem_map_of_mem ?_
  have h' := (List.mem_inits p bytes).2 h
  cases bytes with
  | nil => simp at h'; exact absurd h' hp
  | cons b bytes =>
    rw [List.inits_cons] at h' ⊢
    rcases List.mem_cons.1 h' with h' | h'
    · exact absurd h' hp
    · exact h'

theorem told_nil {w : World} {e : List Nat} {s : Snapshot} (h : s.err = w.err) : Told w e s := ⟨[], List.nil_prefix, by simp [h]⟩

theorem told_left {w : World} {e e' : List Nat} {s : Snapshot} (h : Told w e s) : Told w (e ++ e') s := by
  obtain ⟨p, h1, h2⟩ := h
  exact ⟨p, h1.trans (List.prefix_append _ _), h2⟩

theorem told_right {w w' : World} {e e' : List Nat} {s : Snapshot} (hw : w'.err = w.err ++ e) (h : Told w' e' s) : Told w (e ++ e') s := by
  obtain ⟨p, h1, h2⟩ := h
  exact ⟨e ++ p, (List.prefix_append_right_inj e).2 h1, by rw [h2, hw, List.append_assoc]⟩

/-- A part of a program that reads files, and its result as a function of the files. -/
def Follows {α : Type} (w : World) : Out α → Fin α → Prop
  | .ok e a, r => ∃ w', r = .ok a w' ∧ Quiet w e w'
  | .exit s e, r => ∃ w', r = .exit s w' ∧ Ended w e w' ∧ w'.out = w.out
  | .abort, r => ∃ w', r = .abort w' ∧ w'.files = w.files ∧ Since w w' (fun s => s.files = w.files)
  | .ub, r => r = .ub
  | .fuel, r => r = .fuel

theorem Quiet.fresh {w w' : World} {e : List Nat} (h : Quiet w e w') (hf : Fresh w) : Fresh w' := by
  intro o ho
  rw [h.opened] at ho
  exact lt_of_lt_of_le (hf o ho) h.calls

theorem Quiet.refl (w : World) : Quiet w [] w := ⟨rfl, rfl, rfl, rfl, by simp, le_max_left _ _, le_rfl, fun _ h => .inl h, rfl⟩

theorem Quiet.trans {w w' w'' : World} {e e' : List Nat} (h : Quiet w e w') (h' : Quiet w' e' w'') : Quiet w (e ++ e') w'' := by
  refine ⟨h'.files.trans h.files, h'.opened.trans h.opened, h'.input.trans h.input, h'.out.trans h.out, ?_, ?_, h.calls.trans h'.calls, ?_, h'.room.trans h.room⟩
  · rw [h'.err, h.err, List.append_assoc]
  · have := h'.most
    rw [h.opened] at this
    have := h.most
    omega
  · intro s hs
    rcases h'.past s hs with hs | ⟨h1, h2, h3⟩
    · exact (h.past s hs).imp id (fun ⟨h1, h2, h3⟩ => ⟨h1, h2, told_left h3⟩)
    · exact .inr ⟨h1.trans h.files, h2.trans h.out, told_right h.err h3⟩

theorem Quiet.ended {w w' w'' : World} {e e' : List Nat} (h : Quiet w e w') (h' : Ended w' e' w'') : Ended w (e ++ e') w'' := by
  refine ⟨?_, h'.files.trans h.files, h.out ▸ h'.out, ?_, ?_⟩
  · intro s hs
    rcases h'.past s hs with hs | ⟨h1, h2, h3, h4⟩
    · exact (h.past s hs).imp id (fun ⟨h1, h2, h3⟩ => ⟨h1, by rw [h2], by rw [h2, ← h.out]; exact h'.out, told_left h3⟩)
    · exact .inr ⟨h1.trans h.files, h.out ▸ h2, h3, told_right h.err h4⟩
  · rw [h'.err, h.err, List.append_assoc]
  · have := h'.most
    rw [h.opened] at this
    have := h.most
    omega

theorem Quiet.aborted {w w' w'' : World} {e : List Nat} (h : Quiet w e w') (h' : w''.files = w'.files ∧ Since w' w'' (fun s => s.files = w'.files)) :
    w''.files = w.files ∧ Since w w'' (fun s => s.files = w.files) := by
  refine ⟨h'.1.trans h.files, fun s hs => ?_⟩
  rcases h'.2 s hs with hs | h1
  · exact (h.past s hs).imp id (fun k => k.1)
  · exact .inr (h1.trans h.files)

/-- `m` reads the files as `o` does. -/
def Reads {α : Type} (o : Fs → Out α) (m : W α) : Prop := ∀ w, Fresh w → Follows w (o w.files) (m w)

/-- What is known after one part followed by another. -/
theorem follows_bind {α β : Type} {w : World} {o : Out α} {m : W α} {f : α → Out β} {g : α → W β} (h : Follows w o (m w))
    (h' : ∀ a e w', o = .ok e a → Quiet w e w' → Follows w' (f a) (g a w')) : Follows w (o >>= f) ((m >>= g) w) := by
  rw [bind_def]
  cases o with
  | ok e a =>
    obtain ⟨w', h1, h2⟩ := h
    rw [wbind_ok h1]
    have k := h' a e w' rfl h2
    revert k
    simp only [Out.bind]
    cases f a with
    | ok e' b => rintro ⟨w'', k1, k2⟩; exact ⟨w'', k1, h2.trans k2⟩
    | exit s e' => rintro ⟨w'', k1, k2, k3⟩; exact ⟨w'', k1, h2.ended k2, k3.trans h2.out⟩
    | abort => rintro ⟨w'', k1, k2⟩; exact ⟨w'', k1, h2.aborted k2⟩
    | ub => exact id
    | fuel => exact id
  | exit s e => obtain ⟨w', h1, h2⟩ := h; exact ⟨w', wbind_exit h1, h2⟩
  | abort => obtain ⟨w', h1, h2⟩ := h; exact ⟨w', wbind_abort h1, h2⟩
  | ub => exact wbind_ub h
  | fuel => exact wbind_fuel h

theorem Reads.bind {α β : Type} {o : Fs → Out α} {m : W α} {f : Fs → α → Out β} {g : α → W β} (h : Reads o m)
    (h' : ∀ a, Reads (fun fs => f fs a) (g a)) : Reads (fun fs => o fs >>= f fs) (m >>= g) := by
  intro w hw
  refine follows_bind (h w hw) (fun a e w' _ hq => ?_)
  have := h' a w' (hq.fresh hw)
  rwa [hq.files] at this

/-- A message ends the program. -/
theorem said_ended (w : World) (_s : Nat) (e : List Nat) :
    Ended w e { w with err := w.err ++ e, past := each e (fun p => ⟨w.files, w.out, w.err ++ p⟩) ++ w.past } := by
  refine ⟨fun s hs => ?_, rfl, List.prefix_refl _, rfl, le_max_left _ _⟩
  rcases List.mem_append.1 hs with hs | hs
  · obtain ⟨p, h1, rfl⟩ := mem_each hs
    exact .inr ⟨rfl, List.prefix_refl _, List.prefix_refl _, p, h1, rfl⟩
  · exact .inl hs

theorem follows_say {α : Type} (o : Out α) (w : World) : Follows w o (say o w) := by
  have h : max w.most (w.opened.length + 1) ≥ w.most := le_max_left _ _
  cases o with
  | ok e a =>
    refine ⟨_, rfl, ⟨rfl, rfl, rfl, rfl, rfl, h, le_rfl, fun s hs => ?_, rfl⟩⟩
    rcases List.mem_append.1 hs with hs | hs
    · obtain ⟨p, h1, rfl⟩ := mem_each hs
      exact .inr ⟨rfl, rfl, p, h1, rfl⟩
    · exact .inl hs
  | exit s e => exact ⟨_, rfl, said_ended w s e, rfl⟩
  | abort => exact ⟨_, rfl, rfl, fun _ h => .inl h⟩
  | ub => rfl
  | fuel => rfl

theorem reads_say {α : Type} (o : Out α) : Reads (fun _ => o) (say o) := fun w _ => follows_say o w

theorem reads_pure {α : Type} (a : α) : Reads (fun _ => .ok [] a) (pure a) := fun w _ => ⟨w, rfl, Quiet.refl w⟩

/-- A file that is opened is found. -/
theorem named_new (w : World) (name : List Nat) (files : Fs) (calls most : Nat) (input out err : List Nat)
    (past : List Snapshot) (room : Option Nat) (id : Nat) : named ⟨files, ⟨id, name⟩ :: w.opened, calls, most, input, out, err, past, room⟩ id = some name := by
  unfold named
  simp

theorem filter_new (w : World) (hw : Fresh w) (name : List Nat) :
    ((⟨w.calls, name⟩ : Opened) :: w.opened).filter (fun o => o.id != w.calls) = w.opened := by
  rw [List.filter_cons_of_neg (by simp)]
  refine List.filter_eq_self.2 (fun o ho => ?_)
  have := hw o ho
  simp only [bne_iff_ne]
  omega

/-- Reading a file: what is done depends on the contents; the file is closed unless the program ends. -/
theorem reads_withFile {α : Type} (exec name : List Nat) (step : List Nat → Out α) :
    Reads (fun fs => about exec name (Prog.open_file fs name) >>= step) (withFile exec name step) := by
  intro w hw
  unfold withFile
  simp only [Prog.open_file]
  cases hf : w.files name with
  | none =>
    have e : open_file exec (fun _ => false) (some name) false w = say (error_string exec (ascii "unable to open file") name) w := by
      simp [open_file, hf]
    exact ⟨_, wbind_exit e, said_ended w 1 _, rfl⟩
  | some file =>
    let w1 : World := ⟨w.files, ⟨w.calls, name⟩ :: w.opened, w.calls + 1, max w.most (w.opened.length + 1), w.input, w.out, w.err, w.past, w.room⟩
    have e1 : open_file exec (fun _ => false) (some name) false w = .ok (.file w.calls) w1 := by
      simp only [open_file, hf, Bool.false_eq_true, if_false]
      rfl
    have hn : named w1 w.calls = some name := named_new w name _ _ _ _ _ _ _ _ _
    have e2 : getAll (.file w.calls) w1 = .ok file w1 := by
      simp only [getAll, hn]
      rw [show w1.files name = some file from hf]
      rfl
    rw [wbind_ok e1, wbind_ok e2]
    show Follows w ((step file).after []) _
    cases hs : step file with
    | ok e a =>
      let w2 : World := { w1 with err := w1.err ++ e, past := each e (fun p => ⟨w1.files, w1.out, w1.err ++ p⟩) ++ w1.past }
      have e3 : say (.ok e a) w1 = .ok a w2 := rfl
      have hn2 : named w2 w.calls = some name := hn
      have e4 : close_file (.file w.calls) w2 = .ok () { w2 with opened := w2.opened.filter (fun o => o.id != w.calls) } := by
        simp only [close_file, hn2]
      rw [wbind_ok e3, wbind_ok e4]
      refine ⟨_, rfl, ⟨rfl, filter_new w hw name, rfl, rfl, rfl, le_rfl, by show w.calls ≤ w.calls + 1; omega, fun s hs => ?_, rfl⟩⟩
      rcases List.mem_append.1 hs with hs | hs
      · obtain ⟨p, h1, rfl⟩ := mem_each hs
        exact .inr ⟨rfl, rfl, p, h1, rfl⟩
      · exact .inl hs
    | exit s e =>
      have e3 : say (α := α) (.exit s e) w1 =
        .exit s { w1 with err := w1.err ++ e, past := each e (fun p => ⟨w1.files, w1.out, w1.err ++ p⟩) ++ w1.past } := rfl
      have k := said_ended w1 s e
      exact ⟨_, wbind_exit e3, ⟨k.past, rfl, List.prefix_refl _, rfl, le_rfl⟩, rfl⟩
    | abort => exact ⟨w1, wbind_abort rfl, rfl, fun _ h => .inl h⟩
    | ub => exact wbind_ub rfl
    | fuel => exact wbind_fuel rfl

theorem Reads.congr {α : Type} {o o' : Fs → Out α} {m : W α} (h : Reads o m) (e : ∀ fs, o fs = o' fs) : Reads o' m := by
  rwa [show o' = o from funext (fun fs => (e fs).symm)]

theorem oafter_after {α : Type} (e e' : List Nat) (o : Out α) : (o.after e').after e = o.after (e ++ e') := by
  cases o <;> simp [Out.after]

theorem obind_assoc {α β γ : Type} (o : Out α) (f : α → Out β) (g : β → Out γ) : (o >>= f) >>= g = o >>= fun a => f a >>= g := by
  simp only [bind_def]
  cases o with
  | ok e a =>
    simp only [Out.bind]
    cases f a with
    | ok e' b => exact (oafter_after e e' (g b)).symm
    | _ => rfl
  | _ => rfl

theorem reads_forFiles {α : Type} (exec : List Nat) (step : List Nat → α → List Nat → Out α) : ∀ (names : List (List Nat)) (a : α),
    Reads (fun fs => Process.forFiles exec fs step names a) (forFiles exec step names a)
  | [], a => reads_pure a
  | name :: names, a => by
    refine ((reads_withFile exec name (step name a)).bind (fun a => reads_forFiles exec step names a)).congr (fun fs => ?_)
    rw [Process.forFiles, obind_assoc]

theorem reads_forReports {α : Type} (exec : List Nat) (step : α → List Nat → Res α) (names : List (List Nat)) (a : α) :
    Reads (fun fs => Process.forReports exec fs step names a) (forReports exec step names a) := reads_forFiles _ _ _ _

theorem reads_forTexts {α : Type} (exec errmsg : List Nat) (step : α → List Nat → Res α) (names : List (List Nat)) (a : α) :
    Reads (fun fs => Process.forTexts exec errmsg fs step names a) (forTexts exec errmsg step names a) := reads_forFiles _ _ _ _

section
variable (exec errmsg : List Nat) (U : Unicode) (prop : Nat → Word.WB) (nfc : List Nat → Option (List Nat)) (junk : List Nat) (junk' : Nat)

theorem reads_readFile (name : List Nat) (opt : Textopt) :
    Reads (fun fs => Process.readFile exec errmsg U junk fs name opt) (readFile exec errmsg U junk name opt) :=
  reads_withFile exec name (fun file => plain exec errmsg (read_text U junk [] file opt))

theorem reads_readPair (argv : List (List Nat)) :
    Reads (fun fs => Process.readPair exec errmsg U junk fs argv) (readPair exec errmsg U junk argv) := by
  unfold Process.readPair readPair
  refine (reads_say _).bind (fun name0 => (reads_readFile exec errmsg U junk name0 _).bind (fun p => ?_))
  obtain ⟨text0, opt⟩ := p
  dsimp only
  split
  · exact reads_say _
  · exact (reads_say _).bind (fun name1 => (reads_readFile exec errmsg U junk name1 _).bind (fun p => reads_pure _))

theorem reads_initStopwords (filename : Option (List Nat)) :
    Reads (fun fs => Process.initStopwords exec errmsg U prop nfc junk junk' fs filename)
      (initStopwords exec errmsg U prop nfc junk junk' filename) := by
  unfold Process.initStopwords initStopwords
  refine Reads.bind ?_ (fun file => (reads_say _).bind (fun S => (reads_say _).bind (fun _ => reads_pure _)))
  cases filename with
  | none => exact reads_pure _
  | some filename => exact reads_withFile exec filename _

theorem reads_readWords (argv : List (List Nat)) :
    Reads (fun fs => Process.readWords exec errmsg U prop nfc junk junk' fs argv) (readWords exec errmsg U prop nfc junk junk' argv) := by
  unfold Process.readWords readWords
  refine (reads_say _).bind (fun name0 => (reads_readFile exec errmsg U junk name0 _).bind (fun p => ?_))
  obtain ⟨text0, opt⟩ := p
  dsimp only
  split
  · exact reads_say _
  · exact (reads_say _).bind (fun _ => (reads_say _).bind (fun _ => (reads_say _).bind (fun name1 =>
      (reads_readFile exec errmsg U junk name1 _).bind (fun p => (reads_say _).bind (fun _ => (reads_say _).bind (fun _ => reads_pure _))))))

theorem reads_readTexts : ∀ (names : List (List Nat)) (opt : Textopt),
    Reads (fun fs => Process.readTexts exec errmsg U junk fs names opt) (readTexts exec errmsg U junk names opt)
  | [], _ => reads_pure _
  | name :: names, opt => by
    unfold Process.readTexts readTexts
    exact (reads_readFile exec errmsg U junk name opt).bind (fun p => (reads_readTexts names p.2).bind (fun _ => reads_pure _))

end

/-! ## Whole programs -/

theorem kept_prefix (room : Option Nat) (bytes : List Nat) : kept room bytes <+: bytes := by
  cases room with
  | none => exact List.prefix_refl _
  | some n => exact List.take_prefix n bytes

theorem Quiet.done {w w' w'' : World} {e e' pre : List Nat} {o : Output} (h : Quiet w e w') (h' : Done w' e' pre o w'') :
    Done w (e ++ e') pre o w'' := by
  refine ⟨?_, h.room ▸ h.files ▸ h'.parts, h.room ▸ h.files ▸ h'.files, h'.opened.trans h.opened, h'.input.trans h.input, h.out ▸ h'.out, ?_, ?_, h.room ▸ h'.room⟩
  · intro s hs
    rcases h'.past s hs with hs | ⟨h1, h2, h3, h4⟩
    · refine (h.past s hs).imp id (fun ⟨h1, h2, h3⟩ => ⟨.inl h1, by rw [h2], ?_, told_left h3⟩)
      rw [h2, ← h.out, h'.out, List.append_assoc]
      exact List.prefix_append _ _
    · exact .inr ⟨h.room ▸ h.files ▸ h1, h.out ▸ h2, h3, told_right h.err h4⟩
  · rw [h'.err, h.err, List.append_assoc]
  · have := h'.most
    rw [h.opened] at this
    have := h.most
    omega

/-- Reading, and then the rest of the program. -/
theorem runs_bind {α β : Type} {view : β → List Nat × Output} {w : World} {o : Out α} {m : W α} {f : α → Out β} {g : α → W Unit}
    (h : Follows w o (m w)) (h' : ∀ a e w', o = .ok e a → Quiet w e w' → Runs view w' (f a) (g a w')) :
    Runs view w (o >>= f) ((m >>= g) w) := by
  rw [bind_def]
  cases o with
  | ok e a =>
    obtain ⟨w', h1, h2⟩ := h
    rw [wbind_ok h1]
    have k := h' a e w' rfl h2
    revert k
    simp only [Out.bind]
    cases f a with
    | ok e' b => rintro ⟨w'', k1, k2⟩; exact ⟨w'', k1, h2.done k2⟩
    | exit s e' => rintro ⟨w'', k1, k2⟩; exact ⟨w'', k1, h2.ended k2⟩
    | abort => rintro ⟨w'', k1, k2⟩; exact ⟨w'', k1, h2.aborted k2⟩
    | ub => exact id
    | fuel => exact id
  | exit s e => obtain ⟨w', h1, h2, _⟩ := h; exact ⟨w', wbind_exit h1, h2⟩
  | abort => obtain ⟨w', h1, h2⟩ := h; exact ⟨w', wbind_abort h1, h2⟩
  | ub => exact wbind_ub h
  | fuel => exact wbind_fuel h

/-- `m` changes the files as `o` says. -/
def RunsAll {α : Type} (view : α → List Nat × Output) (o : Fs → Out α) (m : W Unit) : Prop := ∀ w, Fresh w → Runs view w (o w.files) (m w)

theorem Reads.runs {α β : Type} {view : β → List Nat × Output} {o : Fs → Out α} {m : W α} {f : Fs → α → Out β} {g : α → W Unit} (h : Reads o m)
    (h' : ∀ a, RunsAll view (fun fs => f fs a) (g a)) : RunsAll view (fun fs => o fs >>= f fs) (m >>= g) := by
  intro w hw
  refine runs_bind (h w hw) (fun a e w' _ hq => ?_)
  have := h' a w' (hq.fresh hw)
  rwa [hq.files] at this

theorem runs_error {α : Type} {view : α → List Nat × Output} (exec message : List Nat) :
    RunsAll view (fun _ => error exec message) (say (error exec message)) := fun w _ => ⟨_, rfl, said_ended w 1 _⟩

theorem runs_put {α : Type} {view : α → List Nat × Output} (a : α) (bytes : List Nat) (h : view a = ([], ⟨none, bytes⟩)) :
    RunsAll view (fun _ => pure a) (put .stdout bytes) := by
  intro w _
  refine ⟨_, rfl, ?_⟩
  rw [h]
  refine ⟨fun s hs => ?_, (fun _ h => nomatch h), rfl, rfl, rfl, by simp [printed], by simp, le_max_left _ _, rfl⟩
  rcases List.mem_append.1 hs with hs | hs
  · obtain ⟨p, h1, rfl⟩ := mem_each hs
    exact .inr ⟨.inl rfl, List.prefix_append _ _, (List.prefix_append_right_inj _).2 h1, told_nil rfl⟩
  · exact .inl hs

/-- Writing the output, after something may have been printed on `stdout`. -/
theorem runs_write {α : Type} {view : α → List Nat × Output} (exec errmsg : List Nat) (creatable : List Nat → Bool)
    (filename : Option (List Nat)) (content : Res (List Nat)) (pre : List Nat) (k : List Nat → α)
    (hk : ∀ bytes, view (k bytes) = (pre, ⟨filename, bytes⟩)) (hc : filename ≠ none → ∀ m, content ≠ .err m) :
    RunsAll view (fun _ => create exec creatable filename >>= fun _ => plain exec errmsg content >>= fun bytes => pure (k bytes))
      (put .stdout pre >>= fun _ => writeFile exec errmsg creatable filename content) := by
  intro w hw
  let w0 : World := { w with out := w.out ++ pre, past := each pre (fun p => ⟨w.files, w.out ++ p, w.err⟩) ++ w.past }
  have e0 : put .stdout pre w = .ok () w0 := rfl
  have p0 : ∀ s ∈ w0.past, s ∈ w.past ∨ (s.files = w.files ∧ w.out <+: s.out ∧ s.out <+: w.out ++ pre ∧ s.err = w.err) := by
    intro s hs
    rcases List.mem_append.1 hs with hs | hs
    · obtain ⟨p, h1, rfl⟩ := mem_each hs
      exact .inr ⟨rfl, List.prefix_append _ _, (List.prefix_append_right_inj _).2 h1, rfl⟩
    · exact .inl hs
  have ended : ∀ e, Ended w e { w0 with err := w0.err ++ e, past := each e (fun p => ⟨w0.files, w0.out, w0.err ++ p⟩) ++ w0.past } := by
    intro e
    refine ⟨fun s hs => ?_, rfl, List.prefix_append _ _, rfl, le_max_left _ _⟩
    rcases List.mem_append.1 hs with hs | hs
    · obtain ⟨p, h1, rfl⟩ := mem_each hs
      exact .inr ⟨rfl, List.prefix_append _ _, List.prefix_refl _, p, h1, rfl⟩
    · exact (p0 s hs).imp id (fun ⟨h1, h2, h3, h4⟩ => ⟨h1, h2, h3, told_nil h4⟩)
  rw [wbind_ok e0]
  unfold writeFile
  cases filename with
  | none =>
    have e1 : open_file exec creatable none true w0 = .ok .stdout w0 := rfl
    rw [wbind_ok e1]
    show Runs view w ((plain exec errmsg content >>= fun bytes => pure (k bytes)).after []) _
    cases hp : plain exec errmsg content with
    | ok e bytes =>
      let w1 : World := { w0 with err := w0.err ++ e, past := each e (fun p => ⟨w0.files, w0.out, w0.err ++ p⟩) ++ w0.past }
      have e2 : say (.ok e bytes) w0 = .ok bytes w1 := rfl
      rw [wbind_ok e2]
      refine ⟨{ w1 with out := w1.out ++ bytes, past := each bytes (fun p => ⟨w1.files, w1.out ++ p, w1.err⟩) ++ w1.past }, rfl, ?_⟩
      rw [hk]
      refine ⟨fun s hs => ?_, (fun _ h => nomatch h), rfl, rfl, rfl, rfl, by simp [w1, w0], le_max_left _ _, rfl⟩
      have te : ∀ s, Told w e s → Told w (e ++ []) s := fun s h => by simpa using h
      rcases List.mem_append.1 hs with hs | hs
      · obtain ⟨p, h1, rfl⟩ := mem_each hs
        refine .inr ⟨.inl rfl, ?_, (List.prefix_append_right_inj _).2 h1, te _ ⟨e, List.prefix_refl _, rfl⟩⟩
        show w.out <+: w.out ++ pre ++ p
        rw [List.append_assoc]
        exact List.prefix_append _ _
      · rcases (ended e).past s hs with hs | ⟨h1, h2, h3, h4⟩
        · exact .inl hs
        · exact .inr ⟨.inl h1, h2, h3.trans (List.prefix_append _ _), te _ h4⟩
    | exit s e => exact ⟨_, wbind_exit rfl, ended e⟩
    | abort => exact ⟨w0, wbind_abort rfl, rfl, fun s hs => (p0 s hs).imp id (fun h => h.1)⟩
    | ub => exact wbind_ub rfl
    | fuel => exact wbind_fuel rfl
  | some name =>
    by_cases hcr : creatable name = true
    · let w1 : World := ⟨store w.files name [], ⟨w.calls, name⟩ :: w.opened, w.calls + 1, max w.most (w.opened.length + 1), w.input,
        w.out ++ pre, w.err, ⟨store w.files name [], w.out ++ pre, w.err⟩ :: w0.past, w.room⟩
      have e1 : open_file exec creatable (some name) true w0 = .ok (.file w.calls) w1 := by
        simp only [open_file, hcr, if_true]
        rfl
      have hn : named w1 w.calls = some name := named_new w name _ _ _ _ _ _ _ _ _
      rw [wbind_ok e1]
      have ec : create exec creatable (some name) = .ok [] () := by simp [create, hcr]
      rw [ec]
      show Runs view w ((plain exec errmsg content >>= fun bytes => pure (k bytes)).after []) _
      cases hr : content with
      | ok bytes =>
        have e2 : say (plain exec errmsg (.ok bytes)) w1 = .ok bytes { w1 with err := w1.err ++ [] } := rfl
        rw [wbind_ok e2]
        let new := fun p => store w1.files name ((w1.files name).getD [] ++ p)
        let w2 : World := { w1 with
          err := w1.err ++ [], files := new (kept w.room bytes),
          past := each (kept w.room bytes) (fun p => ⟨new p, w1.out, w1.err ++ []⟩) ++ w1.past, room := w.room.map (fun n => n - bytes.length) }
        have e3 : put (.file w.calls) bytes { w1 with err := w1.err ++ [] } = .ok () w2 := by
          simp only [put, named_new, w1]
          rfl
        have hn2 : named w2 w.calls = some name := hn
        have e4 : close_file (.file w.calls) w2 = .ok () { w2 with opened := w2.opened.filter (fun o => o.id != w.calls) } := by
          simp only [close_file, hn2]
        have hnew : ∀ p, new p = written w.files ⟨some name, p⟩ := by
          intro p
          funext x
          show (if x = name then some ((store w.files name [] name).getD [] ++ p) else store w.files name [] x) = _
          simp only [store, written]
          split <;> simp_all
        rw [wbind_ok e3, e4]
        refine ⟨_, rfl, ?_⟩
        rw [hk]
        refine ⟨fun s hs => ?_, ?_, hnew _, filter_new w hw name, rfl, by simp [printed, w2, w1], rfl, le_rfl, rfl⟩
        have ho : ∀ l : List Nat, l <+: w.out ++ pre → l <+: w2.out := fun _ h => h
        rcases List.mem_append.1 hs with hs | hs
        · obtain ⟨p, h1, rfl⟩ := mem_each hs
          exact .inr ⟨.inr ⟨p, h1, hnew p⟩, List.prefix_append _ _, List.prefix_refl _, told_nil (by simp [w1])⟩
        · rcases List.mem_cons.1 hs with rfl | hs
          · exact .inr ⟨.inr ⟨[], List.nil_prefix, rfl⟩, List.prefix_append _ _, List.prefix_refl _, told_nil rfl⟩
          · exact (p0 s hs).imp id (fun ⟨h1, h2, h3, h4⟩ => ⟨.inl h1, h2, h3, told_nil h4⟩)
        · rintro n hn' p hp
          cases hn'
          by_cases h0 : p = []
          · subst h0
            exact ⟨⟨store w.files name [], w.out ++ pre, w.err⟩, List.mem_append_right _ (List.mem_cons_self ..), rfl⟩
          · exact ⟨_, List.mem_append_left _ (each_mem (fun p => ⟨new p, w1.out, w1.err ++ []⟩) hp h0), hnew p⟩
      | err m => exact absurd hr (hc (by simp) m)
      | ub => exact wbind_ub rfl
      | fuel => exact wbind_fuel rfl
    · have ec : create exec creatable (some name) = error_string exec (ascii "unable to create file") name := by simp [create, hcr]
      have e1 : open_file exec creatable (some name) true w0 = say (error_string exec (ascii "unable to create file") name) w0 := by
        simp [open_file, hcr]
      rw [ec]
      exact ⟨_, wbind_exit e1, ended _⟩

/-! ## Functions that write a file do not fail -/

/-- No message. -/
def Mild {α : Type} (r : Res α) : Prop := ∀ m, r ≠ .err m

theorem Mild.bind {α β : Type} {r : Res α} {f : α → Res β} (h : Mild r) (h' : ∀ a, Mild (f a)) : Mild (r >>= f) := by
  cases r with
  | ok a => exact h' a
  | err m => exact absurd rfl (h m)
  | ub => intro m h; cases h
  | fuel => intro m h; cases h

theorem Mild.ok {α : Type} (a : α) : Mild (.ok a) := by intro m h; cases h
theorem Mild.pure {α : Type} (a : α) : Mild (pure a : Res α) := by intro m h; cases h
theorem Mild.ub {α : Type} : Mild (.ub : Res α) := by intro m h; cases h

theorem mild_char {U : Unicode} {v : Nat} (hv : v < 0x110000) (size : Nat) (sus fn : Bool) : Mild (char_to_string U size sus v fn) := by
  obtain ⟨s, e, _⟩ := charString_len (U := U) hv sus fn
  unfold char_to_string
  rw [e, Res.bind_ok]
  split
  · exact Mild.pure _
  · exact Mild.ub

theorem mild_accrpt {U : Unicode} (F : UnicodeFacts U) (pct : Int → Int → List Nat) {text0 text1 : List Ch} {D : Acc.Accdata}
    (h0 : ∀ c ∈ text0, c.value < 0x110000) (h1 : ∀ c ∈ text1, c.value < 0x110000) (h : Acc.accuracy U text0 text1 = .ok D) :
    Mild (Acc.write_accrpt U pct D) := by
  have hx : ∀ c ∈ text0, c.value ≠ 0x10FFFF := by
    intro c hc hv
    rw [Acc.c21_last U text0 text1 h0 h1 ⟨c, hc, hv⟩] at h
    cases h
  obtain ⟨D', e', hD⟩ := Acc.c21_consistent U text0 text1 (fun c hc => by have := h0 c hc; have := hx c hc; omega) h1
  rw [h] at e'
  cases e'
  obtain ⟨b, e⟩ := Acc.write_accrpt_total F pct (Ending.accuracy_known hD)
  rw [e]
  exact Mild.ok _

theorem mild_report (U : Unicode) (pct : Int → Int → List Nat) (D : Acc.Accdata) : ∀ (cs : List Ch) (a b : Int), Mild (Groupacc.reportLoop U pct D cs a b)
  | [], _, _ => Mild.ok _
  | c :: cs, a, b => by
    unfold Groupacc.reportLoop
    split
    · rename_i hc
      split
      · refine (mild_char ?_ _ _ _).bind (fun _ => (mild_report U pct D cs _ _).bind (fun _ => Mild.pure _))
        unfold Text.NUM_CHARVALUES at hc
        omega
      · exact mild_report U pct D cs _ _
    · exact Mild.ub

theorem mild_group (U : Unicode) (pct : Int → Int → List Nat) (text : List Ch) (D : Acc.Accdata) : Mild (Groupacc.write_report U pct text D) := by
  unfold Groupacc.write_report
  exact (mild_report _ _ _ _ _ _).bind (fun _ => Mild.pure _)

theorem mild_wacrpt (pct : Int → Int → List Nat) (D : Wac.Wacdata) : Mild (Wac.write_wacrpt pct D) := by
  obtain ⟨b, e⟩ := Ending.write_wacrpt_total pct D
  rw [e]
  exact Mild.ok _

theorem mild_text (U : Unicode) (text : List Ch) (h : ∀ c ∈ text, c.value < 0x110000) : Mild (write_text U text none) := by
  have go : ∀ text : List Ch, (∀ c ∈ text, c.value < 0x110000) → Mild (writeLoop U text) := by
    intro text
    induction text with
    | nil => intro _; exact Mild.ok _
    | cons c text ih =>
      intro h
      unfold writeLoop
      exact (mild_char (h c (by simp)) _ _ _).bind (fun _ => (ih (fun d hd => h d (by simp [hd]))).bind (fun _ => Mild.pure _))
  unfold write_text
  exact (go text h).bind (fun _ => Mild.pure _)

/-- The result of a vote consists of code points if the texts do. -/
theorem vote_values (U : Unicode) (debug optimize : Bool) (cfg : Vote.Config) (names : List (List Nat)) (texts : List (List Ch))
    (hv : ∀ t ∈ texts, ∀ c ∈ t, c.value < 0x110000) (h2 : 2 ≤ cfg.actual_voters) (h16 : cfg.actual_voters ≤ 16) (output : List Ch) (out : List Nat)
    (h : Vote.voteTextsF U debug optimize cfg names texts = .ok (output, out)) : ∀ c ∈ output, c.value < 0x110000 := by
  unfold Vote.voteTextsF at h
  obtain ⟨⟨input, o⟩, h1, h⟩ := Res.bind_eq_ok.1 h
  have hin : input.length = cfg.actual_voters ∧ ∀ t ∈ input, t ∈ texts := by
    unfold Vote.select_votersF at h1
    obtain ⟨⟨voter, o'⟩, h3, h1⟩ := Res.bind_eq_ok.1 h1
    have hm : ∀ v ∈ voter, v.text ∈ texts := by
      split at h3
      · obtain ⟨t, _, h3⟩ := Res.bind_eq_ok.1 h3
        obtain ⟨array, _, h3⟩ := Res.bind_eq_ok.1 h3
        obtain ⟨voter', h4, h3⟩ := Res.bind_eq_ok.1 h3
        obtain ⟨o'', _, h3⟩ := Res.bind_eq_ok.1 h3
        cases h3
        obtain ⟨s, hs, hp⟩ := Sort.c03_sort_permutes Vote.compare_distancesF
          (texts.zipIdx.map (fun (p : List Ch × Nat) => (⟨p.2, p.1, Vote.compute_distanceF p.2 array⟩ : Vote.VoterF))) texts.length (by simp)
        rw [hs] at h4
        cases h4
        intro v hv
        obtain ⟨p, hp', rfl⟩ := List.mem_map.1 (hp.mem_iff.1 hv)
        exact List.fst_mem_of_mem_zipIdx hp'
      · cases h3
        intro v hv
        obtain ⟨p, hp', rfl⟩ := List.mem_map.1 hv
        exact List.fst_mem_of_mem_zipIdx hp'
    dsimp only at h1
    split at h1
    · cases h1
      refine ⟨by simp; omega, fun t ht => ?_⟩
      obtain ⟨v, hv', rfl⟩ := List.mem_map.1 ht
      exact hm v (List.mem_of_mem_take hv')
    · cases h1
  obtain ⟨r, e1, h⟩ := Res.bind_eq_ok.1 h
  obtain ⟨output', e2, h⟩ := Res.bind_eq_ok.1 h
  cases h
  obtain ⟨r', outs, e1', _, e2', hr⟩ := Vote.c39_vote cfg input (by omega) (by omega)
  rw [e1'] at e1
  cases e1
  rw [e2'] at e2
  cases e2
  intro c hc
  obtain ⟨o, ho, hc⟩ := List.mem_flatten.1 hc
  obtain ⟨i, hi, e⟩ := List.mem_iff_getElem.1 ho
  have hi' : i < r.items.length := by rw [hr.length_eq]; exact hi
  have hw := hr.get hi' hi
  simp only [List.get_eq_getElem] at hw
  rw [e] at hw
  rcases region_values hw c hc with e | ⟨str, hs, d, hd, e⟩
  · omega
  · unfold Vote.strings at hs
    obtain ⟨p, hp, rfl⟩ := List.mem_map.1 hs
    have hp' := List.mem_zipIdx' hp
    have hm' : p.1 ∈ input := by rw [hp'.2]; exact List.getElem_mem _
    unfold Sync.piece at hd
    rw [← e]
    exact hv _ (hin.2 _ hm') d (List.mem_of_mem_drop (List.mem_of_mem_take hd))

/-! ## The programs -/

theorem agreed {α : Type} {exec errmsg : List Nat} {o : Out α} {r : Res α} {e : List Nat} {a : α} (h : Agrees exec errmsg o r) (ho : o = .ok e a) :
    r = .ok a := by
  cases h <;> cases ho
  rfl

theorem runs_program {α : Type} {view : α → List Nat × Output} {P : Fs → Process.Program α} {Q : Program} (hu : ∀ fs, (P fs).usage = Q.usage)
    (ho : ∀ fs, (P fs).option = Q.option) (h : ∀ exec argv V, RunsAll view (fun fs => (P fs).body exec argv V) (Q.body exec argv V))
    (argv : List (List Nat)) : RunsAll view (fun fs => (P fs).run argv) (Q.run argv) := by
  have e : (fun fs => (P fs).run argv) = fun fs => initialize_ Q.usage Q.option argv start >>= fun x => (P fs).body x.1 x.2.1 x.2.2 := by
    funext fs
    unfold Process.Program.run
    rw [hu, ho]
  rw [e]
  exact (reads_say _).runs (fun x => h x.1 x.2.1 x.2.2)

theorem runs_started {α : Type} {view : α → List Nat × Output} {P : Process.Program α} {Q : Program} (hu : P.usage = Q.usage)
    (ho : P.option = Q.option) {w : World} (hw : Fresh w)
    (h : ∀ exec argv V w', w'.files = w.files → Fresh w' → Runs view w' (P.body exec argv V) (Q.body exec argv V w'))
    (argv : List (List Nat)) : Runs view w (P.run argv) (Q.run argv w) := by
  unfold Process.Program.run
  rw [hu, ho]
  exact runs_bind (follows_say _ w) (fun x e w' _ hq => h x.1 x.2.1 x.2.2 w' hq.files (hq.fresh hw))

theorem runs_withFile {α β : Type} {view : β → List Nat × Output} (exec name : List Nat) (step : List Nat → Out α) {f : Fs → α → Out β}
    {g : α → W Unit} (h : ∀ a, RunsAll view (fun fs => f fs a) (g a)) :
    RunsAll view (fun fs => about exec name (Prog.open_file fs name) >>= fun file => step file >>= f fs) (withFile exec name step >>= g) := by
  have := (reads_withFile exec name step).runs h
  simpa only [obind_assoc] using this

/-- Nothing is printed before the output. -/
theorem runs_output {α : Type} {view : α → List Nat × Output} (exec errmsg : List Nat) (creatable : List Nat → Bool)
    (filename : Option (List Nat)) (content : Res (List Nat)) (k : List Nat → α)
    (hk : ∀ bytes, view (k bytes) = ([], ⟨filename, bytes⟩)) (hc : filename ≠ none → ∀ m, content ≠ .err m) :
    RunsAll view (fun _ => create exec creatable filename >>= fun _ => plain exec errmsg content >>= fun bytes => pure (k bytes))
      (writeFile exec errmsg creatable filename content) := by
  intro w hw
  have h := runs_write (view := view) exec errmsg creatable filename content [] k hk hc w hw
  have e : put .stdout [] w = .ok () w := by simp [put, each]
  rwa [wbind_ok e] at h

/-- Output to `stdout`. -/
theorem runs_stdout {α : Type} {view : α → List Nat × Output} (exec errmsg : List Nat) (creatable : List Nat → Bool)
    (content : Res (List Nat)) (k : List Nat → α) (hk : ∀ bytes, view (k bytes) = ([], ⟨none, bytes⟩)) :
    RunsAll view (fun _ => plain exec errmsg content >>= fun bytes => pure (k bytes)) (writeFile exec errmsg creatable none content) := by
  have h := runs_output (view := view) exec errmsg creatable none content k hk (fun h => absurd rfl h)
  have e : ∀ o : Out α, (create exec creatable none >>= fun _ => o) = o := by
    intro o
    cases o <;> rfl
  simpa only [e] using h

theorem pair_values {exec errmsg : List Nat} {U : Unicode} {junk : List Nat} (hj : Bytes junk) {fs : Fs}
    (hfs : ∀ name file, fs name = some file → Bytes file) {argv : List (List Nat)} (hn : ¬ (argv.length < 2 ∨ argv.length > 3))
    {e : List Nat} {p : List Ch × List Ch} (h : Process.readPair exec errmsg U junk fs argv = .ok e p) :
    (∀ c ∈ p.1, c.value < 0x110000) ∧ ∀ c ∈ p.2, c.value < 0x110000 := by
  have h' := agreed (agrees_readPair U junk fs argv) h
  obtain ⟨n0, n1, rest, rfl⟩ : ∃ n0 n1 rest, argv = n0 :: n1 :: rest := by
    match argv, hn with
    | n0 :: n1 :: rest, _ => exact ⟨n0, n1, rest, rfl⟩
    | [], hn => simp at hn
    | [_], hn => simp at hn
  have g := Ending.readPair_gives U hj hfs n0 n1 rest
  obtain ⟨f0, f1, h0, _, t0, h1, t1⟩ := (g.value p).1 h'
  exact ⟨Ending.textOf_value (hfs _ _ h0) t0, Ending.textOf_value (hfs _ _ h1) t1⟩

/-! ## Programs that produce their output -/

theorem Runs.produces {α : Type} {view : α → List Nat × Output} {w : World} {o : Out α} {r : Fin Unit} (h : Runs view w o r) :
    Produces view w o r := by
  rintro e a rfl
  exact h

def ProducesAll {α : Type} (view : α → List Nat × Output) (o : Fs → Out α) (m : W Unit) : Prop :=
  ∀ w, Fresh w → Produces view w (o w.files) (m w)

theorem RunsAll.produces {α : Type} {view : α → List Nat × Output} {o : Fs → Out α} {m : W Unit} (h : RunsAll view o m) : ProducesAll view o m :=
  fun w hw => (h w hw).produces

theorem Reads.produces {α β : Type} {view : β → List Nat × Output} {o : Fs → Out α} {m : W α} {f : Fs → α → Out β} {g : α → W Unit} (h : Reads o m)
    (h' : ∀ a, ProducesAll view (fun fs => f fs a) (g a)) : ProducesAll view (fun fs => o fs >>= f fs) (m >>= g) := by
  intro w hw e b hb
  have h := h w hw
  dsimp only at hb
  cases ho : o w.files with
  | ok e1 a =>
    rw [ho, bind_def] at hb
    rw [ho] at h
    obtain ⟨w1, h1, hq⟩ := h
    simp only [Out.bind] at hb
    cases hf : f w.files a with
    | ok e2 b' =>
      rw [hf] at hb
      cases hb
      have k := h' a w1 (hq.fresh hw) e2 b (by rw [hq.files]; exact hf)
      obtain ⟨w2, k1, k2⟩ := k
      exact ⟨w2, by rw [wbind_ok h1]; exact k1, hq.done k2⟩
    | exit => rw [hf] at hb; cases hb
    | abort => rw [hf] at hb; cases hb
    | ub => rw [hf] at hb; cases hb
    | fuel => rw [hf] at hb; cases hb
  | exit => rw [ho] at hb; cases hb
  | abort => rw [ho] at hb; cases hb
  | ub => rw [ho] at hb; cases hb
  | fuel => rw [ho] at hb; cases hb

theorem produces_write {α : Type} {view : α → List Nat × Output} (exec errmsg : List Nat) (creatable : List Nat → Bool)
    (filename : Option (List Nat)) (content : Res (List Nat)) (pre : List Nat) (k : List Nat → α)
    (hk : ∀ bytes, view (k bytes) = (pre, ⟨filename, bytes⟩)) :
    ProducesAll view (fun _ => create exec creatable filename >>= fun _ => plain exec errmsg content >>= fun bytes => pure (k bytes))
      (put .stdout pre >>= fun _ => writeFile exec errmsg creatable filename content) := by
  by_cases hm : Mild content
  · exact (runs_write exec errmsg creatable filename content pre k hk (fun _ => hm)).produces
  · intro w _ e a h
    exfalso
    apply hm
    rintro m rfl
    have k1 : Agrees exec errmsg (plain exec errmsg (.err m : Res (List Nat))) (.err m) := agrees_plain _
    have k2 : ∀ e b, plain exec errmsg (.err m : Res (List Nat)) ≠ .ok e b := by
      intro e b hb
      have := agreed k1 hb
      cases this
    dsimp only at h
    rw [bind_def] at h
    cases hc : create exec creatable filename with
    | ok e1 u =>
      rw [hc] at h
      simp only [Out.bind] at h
      rw [bind_def] at h
      cases hp : plain exec errmsg (.err m : Res (List Nat)) with
      | ok e2 b => exact k2 _ _ hp
      | _ => rw [hp] at h; cases h
    | _ => rw [hc] at h; cases h

theorem produces_output {α : Type} {view : α → List Nat × Output} (exec errmsg : List Nat) (creatable : List Nat → Bool)
    (filename : Option (List Nat)) (content : Res (List Nat)) (k : List Nat → α) (hk : ∀ bytes, view (k bytes) = ([], ⟨filename, bytes⟩)) :
    ProducesAll view (fun _ => create exec creatable filename >>= fun _ => plain exec errmsg content >>= fun bytes => pure (k bytes))
      (writeFile exec errmsg creatable filename content) := by
  intro w hw
  have h := produces_write (view := view) exec errmsg creatable filename content [] k hk w hw
  have e : put .stdout [] w = .ok () w := by simp [put, each]
  rwa [wbind_ok e] at h

theorem produces_error {α : Type} {view : α → List Nat × Output} (exec message : List Nat) :
    ProducesAll view (fun _ => error exec message) (say (error exec message)) := (runs_error exec message).produces

theorem produces_program {α : Type} {view : α → List Nat × Output} {P : Fs → Process.Program α} {Q : Program} (hu : ∀ fs, (P fs).usage = Q.usage)
    (ho : ∀ fs, (P fs).option = Q.option) (h : ∀ exec argv V, ProducesAll view (fun fs => (P fs).body exec argv V) (Q.body exec argv V))
    (argv : List (List Nat)) : ProducesAll view (fun fs => (P fs).run argv) (Q.run argv) := by
  have e : (fun fs => (P fs).run argv) = fun fs => initialize_ Q.usage Q.option argv start >>= fun x => (P fs).body x.1 x.2.1 x.2.2 := by
    funext fs
    unfold Process.Program.run
    rw [hu, ho]
  rw [e]
  exact (reads_say _).produces (fun x => h x.1 x.2.1 x.2.2)

end Ocr.Disk
