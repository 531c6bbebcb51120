import Verif.Spec.Args
import Mathlib.Data.List.Nodup
import Mathlib.Data.List.Perm.Basic

/-!
# Proofs about the command line
-/

namespace Ocr.Args
open Res

/-! ## basefilename -/

theorem byteAt_lt {s : List Nat} {i : Nat} (h : i < s.length) : byteAt s i = .ok s[i] := by
  unfold byteAt
  rw [if_pos h]
  simp [h]

theorem baseLoop_spec (path : List Nat) : ∀ (n fuel : Nat), n ≤ path.length → n < fuel →
    ∃ m, m ≤ n ∧ baseLoop path fuel ((n : Int) - 1) = .ok ((m : Int) - 1) ∧ (∀ k (hk : k < path.length), m ≤ k → k < n → path[k] ≠ 47) ∧
      (m = 0 ∨ ∃ h : m - 1 < path.length, path[m - 1] = 47) := by
  intro n
  induction n with
  | zero =>
    intro fuel _ hf
    obtain ⟨f, rfl⟩ : ∃ f, fuel = f + 1 := ⟨fuel - 1, by omega⟩
    refine ⟨0, Nat.le_refl _, ?_, by omega, .inl rfl⟩
    rw [baseLoop, if_neg (by omega)]
  | succ n ih =>
    intro fuel hl hf
    obtain ⟨f, rfl⟩ : ∃ f, fuel = f + 1 := ⟨fuel - 1, by omega⟩
    have e1 : ((n + 1 : Nat) : Int) - 1 = (n : Int) := by omega
    rw [e1, baseLoop, if_pos (by omega), Int.toNat_natCast, byteAt_lt (by omega), bind_ok]
    by_cases hc : path[n] = 47
    · refine ⟨n + 1, Nat.le_refl _, ?_, by omega, .inr ⟨by simp; omega, by simpa using hc⟩⟩
      rw [if_neg (by simpa using hc), e1]; rfl
    · obtain ⟨m, h1, h2, h3, h4⟩ := ih f (by omega) (by omega)
      refine ⟨m, by omega, ?_, ?_, h4⟩
      · rw [if_pos (by simpa using hc), h2]
      · intro k hk hmk hkn
        by_cases hkn' : k = n
        · subst hkn'; exact hc
        · exact h3 k hk hmk (by omega)

/-! ## Options -/

theorem help_iff {c : Nat} {r : List Nat} : isHelp (45 :: c :: r) = true ↔ Help (45 :: c :: r) := by
  have e : ascii "-help" = [45, 104, 101, 108, 112] := by decide
  have e1 : [ascii "-h", ascii "-he", ascii "-hel", ascii "-help"] =
    [[45, 104], [45, 104, 101], [45, 104, 101, 108], [45, 104, 101, 108, 112]] := by decide
  unfold isHelp Help
  rw [e1, e]
  simp only [helpLoop, if_true, List.mem_cons, List.not_mem_nil, or_false, List.cons.injEq, true_and]
  by_cases h1 : (104 : Nat) = c
  · subst h1
    simp only [if_true, true_and]
    rcases r with _ | ⟨x, r⟩
    · simp [helpLoop]
    · simp only [helpLoop]
      by_cases h2 : (101 : Nat) = x
      · subst h2
        rcases r with _ | ⟨y, r⟩
        · simp [helpLoop]
        · simp only [helpLoop, if_true]
          by_cases h3 : (108 : Nat) = y
          · subst h3
            rcases r with _ | ⟨z, r⟩
            · simp [helpLoop]
            · simp only [helpLoop, if_true]
              by_cases h4 : (112 : Nat) = z
              · subst h4
                rcases r with _ | ⟨w, r⟩ <;> simp [helpLoop]
              · simp only [if_neg h4]
                simp
                omega
          · simp only [if_neg h3]
            simp
            omega
      · simp only [if_neg h2]
        simp
        omega
  · simp only [if_neg h1]
    simp
    omega

theorem isOption_true {c : Nat} {r : List Nat} (hc : c ≠ 0) : isOption (45 :: c :: r) = .ok true := by
  unfold isOption
  simp [byteAt, hc]

theorem isOption_false {a : List Nat} (h : ¬ Dashed a) : isOption a = .ok false := by
  unfold isOption
  rcases a with _ | ⟨x, _ | ⟨y, r⟩⟩
  · simp [byteAt]
  · by_cases hx : x = 45 <;> simp [byteAt, hx]
  · by_cases hx : x = 45
    · exact absurd ⟨y, r, by rw [hx]⟩ h
    · simp [byteAt, hx]

theorem findOpt_mem {T : List (Nat × Kind)} (hT : (T.map (fun x => x.1)).Nodup) {c : Nat} {k : Kind} (h : (c, k) ∈ T) :
    findOpt c (T.map optOf) = some (optOf (c, k)) := by
  induction T with
  | nil => cases h
  | cons x T ih =>
    rw [List.map_cons, List.nodup_cons] at hT
    have hname : (optOf x).name = x.1 := by unfold optOf; cases x.2 <;> rfl
    rw [List.map_cons, findOpt, hname]
    rcases List.mem_cons.1 h with rfl | h
    · rw [if_neg (by simp)]
    · have : c ≠ x.1 := by rintro rfl; exact hT.1 (List.mem_map.2 ⟨_, h, rfl⟩)
      rw [if_pos this, ih hT.2 h]

theorem findOpt_none {T : List (Nat × Kind)} {c : Nat} (h : c ∉ T.map (fun x => x.1)) : findOpt c (T.map optOf) = none := by
  induction T with
  | nil => rfl
  | cons x T ih =>
    have hname : (optOf x).name = x.1 := by unfold optOf; cases x.2 <;> rfl
    rw [List.map_cons, List.mem_cons, not_or] at h
    rw [List.map_cons, findOpt, hname, if_pos h.1, ih h.2]

/-- The variables after a setting. -/
def setVar (V : Vars) (s : Setting) : Vars :=
  match s.kind with
  | .value v => { V with string := fun x => if x = v then some s.given else V.string x }
  | .flag v => { V with boolean := fun x => if x = v then true else V.boolean x }

theorem split_unknown {T : List (Nat × Kind)} {c : Nat} (h : c ∉ T.map (fun x => x.1)) (r : List Nat) (next : Option (List Nat)) (V : Vars) :
    split_option (some (T.map optOf)) (45 :: c :: r) next V = .err "invalid option" := by
  unfold split_option
  have : byteAt (45 :: c :: r) 1 = .ok c := by simp [byteAt]
  simp only [this, bind_ok, findOpt_none h]

theorem split_known {T : List (Nat × Kind)} (hT : (T.map (fun x => x.1)).Nodup) {c : Nat} {k : Kind} (h : (c, k) ∈ T) (r : List Nat)
    (next : Option (List Nat)) (V : Vars) :
    split_option (some (T.map optOf)) (45 :: c :: r) next V = splitFound (45 :: c :: r) next (r.headD 0) (optOf (c, k)) V := by
  unfold split_option
  have : byteAt (45 :: c :: r) 1 = .ok c := by simp [byteAt]
  have h2 : byteAt (45 :: c :: r) 2 = .ok (r.headD 0) := by cases r <;> simp [byteAt]
  simp only [this, bind_ok, findOpt_mem hT h, h2]

theorem split_flag {T : List (Nat × Kind)} (hT : (T.map (fun x => x.1)).Nodup) {c v : Nat} (h : (c, Kind.flag v) ∈ T)
    (next : Option (List Nat)) (V : Vars) :
    split_option (some (T.map optOf)) [45, c] next V =
      if V.boolean v then .err "duplicate option" else .ok (false, setVar V ⟨.flag v, []⟩) := by
  rw [split_known hT h]; rfl

theorem split_superfluous {T : List (Nat × Kind)} (hT : (T.map (fun x => x.1)).Nodup) {c v x : Nat} (h : (c, Kind.flag v) ∈ T) (hx : x ≠ 0)
    (r : List Nat) (next : Option (List Nat)) (V : Vars) :
    split_option (some (T.map optOf)) (45 :: c :: x :: r) next V = .err "invalid option" := by
  rw [split_known hT h]
  show splitBool x ⟨c, none, some v⟩ V = _
  unfold splitBool
  simp [hx]

theorem split_attached {T : List (Nat × Kind)} (hT : (T.map (fun x => x.1)).Nodup) {c v x : Nat} (h : (c, Kind.value v) ∈ T) (hx : x ≠ 0)
    (r : List Nat) (next : Option (List Nat)) (V : Vars) :
    split_option (some (T.map optOf)) (45 :: c :: x :: r) next V =
      if (V.string v).isSome then .err "duplicate option" else .ok (false, setVar V ⟨.value v, x :: r⟩) := by
  rw [split_known hT h]
  unfold splitFound
  simp [optOf, hx, setVar]

theorem split_separate {T : List (Nat × Kind)} (hT : (T.map (fun x => x.1)).Nodup) {c v : Nat} (h : (c, Kind.value v) ∈ T)
    (r : List Nat) (V : Vars) :
    split_option (some (T.map optOf)) [45, c] (some r) V =
      if (V.string v).isSome then .err "duplicate option" else .ok (true, setVar V ⟨.value v, r⟩) := by
  rw [split_known hT h]
  unfold splitFound
  simp [optOf, setVar]

theorem split_missing {T : List (Nat × Kind)} (hT : (T.map (fun x => x.1)).Nodup) {c v : Nat} (h : (c, Kind.value v) ∈ T) (V : Vars) :
    split_option (some (T.map optOf)) [45, c] none V = .err "invalid option" := by
  rw [split_known hT h]; rfl

/-- All variables are null pointers or `False`. -/
def unset : Vars := ⟨fun _ => none, fun _ => false⟩

theorem holds_nil : Holds [] unset := by constructor <;> simp [unset]

theorem Holds.unique {ss : List Setting} {V W : Vars} (hV : Holds ss V) (hW : Holds ss W) : V = W := by
  obtain ⟨s1, b1⟩ := V
  obtain ⟨s2, b2⟩ := W
  have e1 : s1 = s2 := by
    funext v
    apply Option.ext
    intro s
    exact (hV.1 v s).trans (hW.1 v s).symm
  have e2 : b1 = b2 := by
    funext v
    apply Bool.eq_iff_iff.2
    exact (hV.2 v).trans (hW.2 v).symm
  rw [e1, e2]

/-- A Boolean option has no value. -/
def Plain (ss : List Setting) : Prop := ∀ v s, ⟨.flag v, s⟩ ∈ ss → s = []

theorem Holds.flag_iff {ss : List Setting} {V : Vars} (h : Holds ss V) (hp : Plain ss) (v : Nat) :
    V.boolean v = true ↔ Kind.flag v ∈ ss.map Setting.kind := by
  rw [h.2, List.mem_map]
  constructor
  · intro hm; exact ⟨_, hm, rfl⟩
  · rintro ⟨⟨k, s⟩, hm, hk⟩
    simp only at hk
    subst hk
    rw [hp v s hm] at hm
    exact hm

theorem Holds.value_iff {ss : List Setting} {V : Vars} (h : Holds ss V) (v : Nat) :
    (V.string v).isSome = true ↔ Kind.value v ∈ ss.map Setting.kind := by
  rw [List.mem_map, Option.isSome_iff_exists]
  constructor
  · rintro ⟨s, hs⟩; exact ⟨_, (h.1 v s).1 hs, rfl⟩
  · rintro ⟨⟨k, s⟩, hm, hk⟩
    simp only at hk
    subst hk
    exact ⟨s, (h.1 v s).2 hm⟩

theorem Holds.set {ss : List Setting} {V : Vars} (h : Holds ss V) (x : Setting) (hx : x.kind ∉ ss.map Setting.kind)
    (hp : ∀ v, x.kind = .flag v → x.given = []) : Holds (ss ++ [x]) (setVar V x) := by
  obtain ⟨k, g⟩ := x
  simp only at hx hp
  cases k with
  | value v =>
    refine ⟨?_, ?_⟩
    · intro w s
      simp only [setVar, List.mem_append, List.mem_singleton, Setting.mk.injEq, Kind.value.injEq]
      by_cases hw : w = v
      · subst hw
        rw [if_pos rfl]
        constructor
        · intro e; exact .inr ⟨rfl, (Option.some.inj e).symm⟩
        · rintro (hm | ⟨_, rfl⟩)
          · exact absurd (List.mem_map.2 ⟨_, hm, rfl⟩) hx
          · rfl
      · rw [if_neg hw, h.1]
        simp [hw]
    · intro w
      simp only [setVar]
      rw [h.2]
      simp
  | flag v =>
    have hg := hp v rfl
    subst hg
    refine ⟨?_, ?_⟩
    · intro w s
      simp only [setVar]
      rw [h.1]
      simp
    · intro w
      simp only [setVar, List.mem_append, List.mem_singleton, Setting.mk.injEq, Kind.flag.injEq, and_true]
      by_cases hw : w = v
      · simp [hw]
      · rw [if_neg hw, h.2]
        simp [hw]

theorem Parse.plain {T : List (Nat × Kind)} {args ops : List (List Nat)} {ss : List Setting} (h : Parse T args ops ss) : Plain ss := by
  induction h with
  | nil => intro v s h; cases h
  | operand _ _ ih => exact ih
  | flag _ _ _ ih =>
    intro w s h
    rcases List.mem_cons.1 h with h | h
    · exact (Setting.mk.inj h).2
    · exact ih w s h
  | attached _ _ _ ih =>
    intro w s h
    rcases List.mem_cons.1 h with h | h
    · cases (Setting.mk.inj h).1
    · exact ih w s h
  | separate _ _ _ ih =>
    intro w s h
    rcases List.mem_cons.1 h with h | h
    · cases (Setting.mk.inj h).1
    · exact ih w s h

/-! ## The loop -/

/-- The state of the loop at position `i` when `rest` is left, `ops` have been kept, and `ss` have been set. -/
structure At (argc i j : Nat) (argv : List (List Nat)) (V : Vars) (fuel : Nat) (rest ops : List (List Nat)) (ss : List Setting) : Prop where
  drop  : argv.drop i = rest
  len   : argv.length = argc
  pos   : j < i
  take  : argv.take j = ops
  holds : Holds ss V
  once  : Once ss
  plain : Plain ss
  nul   : ∀ a ∈ rest, 0 ∉ a
  fuel  : argc < i + fuel
  le    : i ≤ argc

theorem At.i_lt {argc i j argv V fuel a rest ops ss} (h : At argc i j argv V fuel (a :: rest) ops ss) : i < argc := by
  have := congrArg List.length h.drop
  rw [List.length_drop, h.len, List.length_cons] at this
  omega

theorem At.rd {argc i j argv V fuel a rest ops ss} (h : At argc i j argv V fuel (a :: rest) ops ss) : Ocr.rd argv i = .ok a := by
  unfold Ocr.rd
  have : argv[i]? = some a := by
    have := congrArg (fun l => l[0]?) h.drop
    simpa using this
  rw [this]

theorem At.next {argc i j argv V fuel a b rest ops ss} (h : At argc i j argv V fuel (a :: b :: rest) ops ss) :
    Ocr.rd argv (i + 1) = .ok b ∧ i + 1 < argc := by
  constructor
  · unfold Ocr.rd
    have : argv[i + 1]? = some b := by
      have := congrArg (fun l => l[1]?) h.drop
      simpa using this
    rw [this]
  · have := congrArg List.length h.drop
    rw [List.length_drop, h.len, List.length_cons, List.length_cons] at this
    omega

theorem At.last {argc i j argv V fuel a ops ss} (h : At argc i j argv V fuel [a] ops ss) : ¬ i + 1 < argc := by
  have := congrArg List.length h.drop
  rw [List.length_drop, h.len, List.length_cons, List.length_nil] at this
  omega

theorem At.drop1 {argc i j argv V fuel a rest ops ss} (h : At argc i j argv V fuel (a :: rest) ops ss) : argv.drop (i + 1) = rest := by
  rw [← List.drop_drop, h.drop]; rfl

/-- What is passed on as the next argument. -/
theorem At.next_arg {argc i j argv V fuel a rest ops ss} (h : At argc i j argv V fuel (a :: rest) ops ss) :
    (if i + 1 < argc then do let a ← Ocr.rd argv (i + 1); return some a else return none : Res (Option (List Nat))) = .ok rest.head? := by
  cases rest with
  | nil => rw [if_neg h.last]; rfl
  | cons b rest => rw [if_pos h.next.2, h.next.1, bind_ok]; rfl

theorem step_option {os : Option (List Opt)} {argc i j argv V fuel c r rest ops ss}
    (h : At argc i j argv V fuel ((45 :: c :: r) :: rest) ops ss) (hh : ¬ Help (45 :: c :: r)) :
    argStep os argc i j argv V = (split_option os (45 :: c :: r) rest.head? V >>= fun x =>
      .ok (if x.1 then i + 2 else i + 1, j, argv, x.2)) := by
  have hc : c ≠ 0 := by rintro rfl; exact h.nul _ (List.mem_cons_self ..) (by simp)
  unfold argStep
  rw [h.rd, bind_ok, isOption_true hc, bind_ok]
  simp only [if_true]
  rw [if_neg (fun e => hh (help_iff.1 e)), h.next_arg, bind_ok]
  cases split_option os (45 :: c :: r) rest.head? V <;> rfl

theorem At.place {argc i j argv V fuel rest ops ss} (h : At argc i j argv V fuel rest ops ss) : i + rest.length = argc := by
  have := congrArg List.length h.drop
  rw [List.length_drop, h.len] at this
  have := h.le
  omega

theorem loop_option {os : Option (List Opt)} {argc i j argv V fuel c r rest ops ss}
    (h : At argc i j argv V (fuel + 1) ((45 :: c :: r) :: rest) ops ss) (hi : i ≤ 32767) (hh : ¬ Help (45 :: c :: r)) :
    argsLoop os argc (fuel + 1) i j argv V = (split_option os (45 :: c :: r) rest.head? V >>= fun x =>
      argsLoop os argc fuel (if x.1 then i + 2 else i + 1) j argv x.2) := by
  have := h.i_lt
  rw [argsLoop, if_pos h.i_lt, if_neg (by omega), step_option h hh]
  cases split_option os (45 :: c :: r) rest.head? V <;> rfl

theorem loop_help {os : Option (List Opt)} {argc i j argv V fuel c r rest ops ss}
    (h : At argc i j argv V (fuel + 1) ((45 :: c :: r) :: rest) ops ss) (hi : i ≤ 32767) (hh : Help (45 :: c :: r)) :
    argsLoop os argc (fuel + 1) i j argv V = .err "usage" := by
  have hc : c ≠ 0 := by rintro rfl; exact h.nul _ (List.mem_cons_self ..) (by simp)
  have := h.i_lt
  rw [argsLoop, if_pos h.i_lt, if_neg (by omega)]
  unfold argStep
  rw [h.rd, bind_ok, isOption_true hc, bind_ok]
  simp only [if_true]
  rw [if_pos (help_iff.2 hh), bind_err]

theorem At.fuel_pos {argc i j argv V fuel a rest ops ss} (h : At argc i j argv V fuel (a :: rest) ops ss) :
    ∃ f, fuel = f + 1 := by
  have := h.i_lt
  have := h.fuel
  exact ⟨fuel - 1, by omega⟩

/-- Some rounds of the loop. -/
inductive Steps (os : Option (List Opt)) (argc : Nat) : (fuel i j : Nat) → List (List Nat) → Vars → (fuel' i' j' : Nat) → List (List Nat) → Vars → Prop
  | none {fuel i j argv V} : Steps os argc fuel i j argv V fuel i j argv V
  | round {fuel i j argv V i1 j1 argv1 V1 fuel' i' j' argv' V'} : i < argc → ¬ 32767 < i →
      argStep os argc i j argv V = .ok (i1, j1, argv1, V1) → Steps os argc fuel i1 j1 argv1 V1 fuel' i' j' argv' V' →
      Steps os argc (fuel + 1) i j argv V fuel' i' j' argv' V'

theorem Steps.eq {os : Option (List Opt)} {argc fuel i j argv V fuel' i' j' argv' V'} (h : Steps os argc fuel i j argv V fuel' i' j' argv' V') :
    argsLoop os argc fuel i j argv V = argsLoop os argc fuel' i' j' argv' V' := by
  induction h with
  | none => rfl
  | round h1 h2 h3 _ ih => rw [argsLoop, if_pos h1, if_neg h2, h3, bind_ok]; exact ih

theorem Steps.trans {os : Option (List Opt)} {argc fuel i j argv V f1 i1 j1 argv1 V1 f2 i2 j2 argv2 V2}
    (h : Steps os argc fuel i j argv V f1 i1 j1 argv1 V1) (h' : Steps os argc f1 i1 j1 argv1 V1 f2 i2 j2 argv2 V2) :
    Steps os argc fuel i j argv V f2 i2 j2 argv2 V2 := by
  induction h with
  | none => exact h'
  | round h1 h2 h3 _ ih => exact .round h1 h2 h3 (ih h')

/-- The loop goes on in a state that is reached. -/
def Reaches (os : Option (List Opt)) (argc fuel i j : Nat) (argv : List (List Nat)) (V : Vars) (rest ops : List (List Nat)) (ss : List Setting) : Prop :=
  ∃ fuel' i' j' argv' V', Steps os argc fuel i j argv V fuel' i' j' argv' V' ∧
    At argc i' j' argv' V' fuel' rest ops ss

theorem step_operand {os : Option (List Opt)} {argc i j argv V fuel a rest ops ss}
    (h : At argc i j argv V fuel (a :: rest) ops ss) (hi : i ≤ 32767) (hd : ¬ Dashed a) :
    Reaches os argc fuel i j argv V rest (ops ++ [a]) ss := by
  obtain ⟨f, rfl⟩ := h.fuel_pos
  have hlt := h.i_lt
  have hpos := h.pos
  refine ⟨f, i + 1, j + 1, argv.set j a, V, ?_, ?_⟩
  · refine .round h.i_lt (by omega) ?_ .none
    unfold argStep
    rw [h.rd, bind_ok, isOption_false hd, bind_ok]
    simp only [Bool.false_eq_true, if_false]
    unfold wr
    rw [if_pos (by rw [h.len]; omega), bind_ok]
    rfl
  · refine ⟨?_, by rw [List.length_set, h.len], by omega, ?_, h.holds, h.once, h.plain, fun x hx => h.nul x (by simp [hx]), by
      have := h.fuel; omega, by omega⟩
    · rw [List.drop_set_of_lt (by omega), h.drop1]
    · have hj : j < (argv.set j a).length := by rw [List.length_set, h.len]; omega
      rw [List.take_succ_eq_append_getElem hj, List.getElem_set_self, List.take_set_of_le (Nat.le_refl j), h.take]

theorem step_set {T : List (Nat × Kind)} {argc i j argv V fuel c r rest ops ss}
    (h : At argc i j argv V fuel ((45 :: c :: r) :: rest) ops ss) (hi : i ≤ 32767) (hh : ¬ Help (45 :: c :: r)) (x : Setting)
    (hx : x.kind ∉ ss.map Setting.kind) (hp : ∀ v, x.kind = .flag v → x.given = [])
    (hs : split_option (some (T.map optOf)) (45 :: c :: r) rest.head? V = .ok (false, setVar V x)) :
    Reaches (some (T.map optOf)) argc fuel i j argv V rest ops (ss ++ [x]) := by
  obtain ⟨f, rfl⟩ := h.fuel_pos
  refine ⟨f, i + 1, j, argv, setVar V x, ?_, ?_⟩
  · refine .round h.i_lt (by have := h.i_lt; omega) ?_ .none
    rw [step_option h hh, hs, bind_ok]; rfl
  · refine ⟨h.drop1, h.len, by have := h.pos; omega, h.take, h.holds.set x hx hp, ?_, ?_, fun y hy => h.nul y (by simp [hy]), by
      have := h.fuel; omega, by have := h.i_lt; omega⟩
    · unfold Once
      rw [List.map_append, List.nodup_append]
      refine ⟨h.once, by simp, ?_⟩
      intro k hk k' hk'
      rw [List.map_singleton, List.mem_singleton] at hk'
      subst hk'
      rintro rfl
      exact hx hk
    · intro v s hm
      rcases List.mem_append.1 hm with hm | hm
      · exact h.plain v s hm
      · rw [List.mem_singleton] at hm
        subst hm
        exact hp v rfl

theorem step_set2 {T : List (Nat × Kind)} {argc i j argv V fuel c r b rest ops ss}
    (h : At argc i j argv V fuel ((45 :: c :: r) :: b :: rest) ops ss) (hi : i ≤ 32767) (hh : ¬ Help (45 :: c :: r)) (x : Setting)
    (hx : x.kind ∉ ss.map Setting.kind) (hp : ∀ v, x.kind = .flag v → x.given = [])
    (hs : split_option (some (T.map optOf)) (45 :: c :: r) (some b) V = .ok (true, setVar V x)) :
    Reaches (some (T.map optOf)) argc fuel i j argv V rest ops (ss ++ [x]) := by
  obtain ⟨f, rfl⟩ := h.fuel_pos
  refine ⟨f, i + 2, j, argv, setVar V x, ?_, ?_⟩
  · refine .round h.i_lt (by have := h.i_lt; omega) ?_ .none
    rw [step_option h hh, show (b :: rest).head? = some b from rfl, hs, bind_ok]; rfl
  · refine ⟨?_, h.len, by have := h.pos; omega, h.take, h.holds.set x hx hp, ?_, ?_, fun y hy => h.nul y (by simp [hy]), by
      have := h.fuel; omega, by have := h.next.2; omega⟩
    · have e : argv.drop (i + 2) = (argv.drop (i + 1)).drop 1 := by rw [List.drop_drop]
      rw [e, h.drop1]; rfl
    · unfold Once
      rw [List.map_append, List.nodup_append]
      refine ⟨h.once, by simp, ?_⟩
      intro k hk k' hk'
      rw [List.map_singleton, List.mem_singleton] at hk'
      subst hk'
      rintro rfl
      exact hx hk
    · intro v s hm
      rcases List.mem_append.1 hm with hm | hm
      · exact h.plain v s hm
      · rw [List.mem_singleton] at hm
        subst hm
        exact hp v rfl

theorem Reaches.trans {os : Option (List Opt)} {argc fuel i j argv V rest ops ss rest' ops' ss'}
    (h : Reaches os argc fuel i j argv V rest ops ss)
    (h' : ∀ fuel i j argv V, At argc i j argv V fuel rest ops ss → Reaches os argc fuel i j argv V rest' ops' ss') :
    Reaches os argc fuel i j argv V rest' ops' ss' := by
  obtain ⟨f, i1, j1, a1, V1, e, hA⟩ := h
  obtain ⟨f2, i2, j2, a2, V2, e2, hA2⟩ := h' _ _ _ _ _ hA
  exact ⟨f2, i2, j2, a2, V2, e.trans e2, hA2⟩

theorem once_not_mem {ss ss' : List Setting} {x : Setting} (h : Once (ss ++ x :: ss')) : x.kind ∉ ss.map Setting.kind := by
  unfold Once at h
  rw [List.map_append, List.map_cons, List.nodup_append] at h
  intro hm
  exact h.2.2 _ hm _ (by simp) rfl

/-- What has been parsed is carried out. -/
theorem reaches_parse {T : List (Nat × Kind)} (hT : Table T) {argc : Nat} {pre ops' rest : List (List Nat)} (hi : argc ≤ rest.length + 32768) {ss' : List Setting}
    (hP : Parse T pre ops' ss') : ∀ {fuel i j argv V ops ss}, At argc i j argv V fuel (pre ++ rest) ops ss → Once (ss ++ ss') →
    Reaches (some (T.map optOf)) argc fuel i j argv V rest (ops ++ ops') (ss ++ ss') := by
  induction hP with
  | nil =>
    intro fuel i j argv V ops ss h _
    rw [List.append_nil, List.append_nil]
    exact ⟨fuel, i, j, argv, V, .none, h⟩
  | @operand a args ops' ss' hd _ ih =>
    intro fuel i j argv V ops ss h ho
    have hi' : i ≤ 32767 := by have := h.place; simp only [List.cons_append, List.length_cons, List.length_append] at this; omega
    refine (step_operand h hi' hd).trans ?_
    intro fuel i j argv V h
    rw [show ops ++ a :: ops' = (ops ++ [a]) ++ ops' by simp]
    exact ih h ho
  | @flag c v args ops' ss' hh hc _ ih =>
    intro fuel i j argv V ops ss h ho
    have hn := once_not_mem ho
    have hi' : i ≤ 32767 := by have := h.place; simp only [List.cons_append, List.length_cons, List.length_append] at this; omega
    refine (step_set h hi' hh ⟨.flag v, []⟩ hn (fun _ _ => rfl) ?_).trans ?_
    · rw [split_flag hT.names hc, if_neg]
      rw [h.holds.flag_iff h.plain]; exact hn
    · intro fuel i j argv V h
      rw [show ss ++ ⟨.flag v, []⟩ :: ss' = (ss ++ [⟨.flag v, []⟩]) ++ ss' by simp] at ho ⊢
      exact ih h ho
  | @attached c v x r args ops' ss' hh hc _ ih =>
    intro fuel i j argv V ops ss h ho
    have hn := once_not_mem ho
    have hx : x ≠ 0 := by rintro rfl; exact h.nul _ (List.mem_cons_self ..) (by simp)
    have hi' : i ≤ 32767 := by have := h.place; simp only [List.cons_append, List.length_cons, List.length_append] at this; omega
    refine (step_set h hi' hh ⟨.value v, x :: r⟩ hn (fun _ e => by cases e) ?_).trans ?_
    · rw [split_attached hT.names hc hx, if_neg]
      rw [h.holds.value_iff]; exact hn
    · intro fuel i j argv V h
      rw [show ss ++ ⟨.value v, x :: r⟩ :: ss' = (ss ++ [⟨.value v, x :: r⟩]) ++ ss' by simp] at ho ⊢
      exact ih h ho
  | @separate c v r args ops' ss' hh hc _ ih =>
    intro fuel i j argv V ops ss h ho
    have hn := once_not_mem ho
    have hi' : i ≤ 32767 := by have := h.place; simp only [List.cons_append, List.length_cons, List.length_append] at this; omega
    refine (step_set2 h hi' hh ⟨.value v, r⟩ hn (fun _ e => by cases e) ?_).trans ?_
    · rw [split_separate hT.names hc, if_neg]
      rw [h.holds.value_iff]; exact hn
    · intro fuel i j argv V h
      rw [show ss ++ ⟨.value v, r⟩ :: ss' = (ss ++ [⟨.value v, r⟩]) ++ ss' by simp] at ho ⊢
      exact ih h ho

/-- A fault is found. -/
theorem split_fault {T : List (Nat × Kind)} (hT : Table T) {argc : Nat} {fuel i j argv V a rest ops ss e}
    (h : At argc i j argv V fuel (a :: rest) ops ss) (hF : Fault T ss a rest e) : ∃ c r, a = 45 :: c :: r ∧
      ((Help a ∧ e = "usage") ∨ ¬ Help a ∧ e ≠ "usage" ∧ split_option (some (T.map optOf)) a rest.head? V = .err e) := by
  cases hF with
  | help hh =>
    have : ∃ c r, a = 45 :: c :: r := by
      have hh' := hh
      unfold Help at hh'
      simp only [List.mem_cons, List.not_mem_nil, or_false] at hh'
      rcases hh' with rfl | rfl | rfl | rfl <;> exact ⟨_, _, rfl⟩
    obtain ⟨c, r, e⟩ := this
    exact ⟨c, r, e, .inl ⟨hh, rfl⟩⟩
  | unknown hh hc => exact ⟨_, _, rfl, .inr ⟨hh, by decide, split_unknown hc _ _ _⟩⟩
  | @superfluous c v x r _ hh hc =>
    have hx : x ≠ 0 := by rintro rfl; exact h.nul _ (List.mem_cons_self ..) (by simp)
    exact ⟨_, _, rfl, .inr ⟨hh, by decide, split_superfluous hT.names hc hx _ _ _⟩⟩
  | missing hh hc => exact ⟨_, _, rfl, .inr ⟨hh, by decide, split_missing hT.names hc _⟩⟩
  | again_flag hh hc hs =>
    exact ⟨_, _, rfl, .inr ⟨hh, by decide, by rw [split_flag hT.names hc, if_pos ((h.holds.flag_iff h.plain _).2 hs)]⟩⟩
  | @again_attached c v x r _ hh hc hs =>
    have hx : x ≠ 0 := by rintro rfl; exact h.nul _ (List.mem_cons_self ..) (by simp)
    exact ⟨_, _, rfl, .inr ⟨hh, by decide, by rw [split_attached hT.names hc hx, if_pos ((h.holds.value_iff _).2 hs)]⟩⟩
  | @again_separate c v r rest hh hc hs =>
    exact ⟨_, _, rfl, .inr ⟨hh, by decide, by
      rw [show (r :: rest).head? = some r from rfl, split_separate hT.names hc, if_pos ((h.holds.value_iff _).2 hs)]⟩⟩

/-- A fault is reported. -/
theorem loop_fault {T : List (Nat × Kind)} (hT : Table T) {argc fuel i j argv V a rest ops ss e}
    (hi : i ≤ 32767) (h : At argc i j argv V fuel (a :: rest) ops ss) (hF : Fault T ss a rest e) :
    argsLoop (some (T.map optOf)) argc fuel i j argv V = .err e := by
  obtain ⟨f, rfl⟩ := h.fuel_pos
  obtain ⟨c, r, rfl, ⟨hh, rfl⟩ | ⟨hh, _, hs⟩⟩ := split_fault hT h hF
  · exact loop_help h hi hh
  · rw [loop_option h hi hh, hs, bind_err]

theorem loop_end {os : Option (List Opt)} {argc fuel i j argv V ops ss} (h : At argc i j argv V fuel [] ops ss) :
    argsLoop os argc fuel i j argv V = .ok (argv, j, V) := by
  have := congrArg List.length h.drop
  rw [List.length_drop, h.len, List.length_nil] at this
  obtain ⟨f, rfl⟩ : ∃ f, fuel = f + 1 := ⟨fuel - 1, by have := h.fuel; have := h.le; omega⟩
  rw [argsLoop, if_neg (by omega)]

/-- Every list of arguments is parsed or has a first fault. -/
theorem parse_or_fault (T : List (Nat × Kind)) : ∀ (n : Nat) (args : List (List Nat)), args.length ≤ n → ∀ (ss0 : List Setting), Once ss0 →
    (∃ ops ss, Parse T args ops ss ∧ Once (ss0 ++ ss)) ∨
    ∃ pre a post ops ss e, args = pre ++ a :: post ∧ Parse T pre ops ss ∧ Once (ss0 ++ ss) ∧ Fault T (ss0 ++ ss) a post e := by
  intro n
  induction n with
  | zero =>
    intro args hl ss0 h0
    have : args = [] := List.length_eq_zero_iff.1 (by omega)
    subst this
    exact .inl ⟨[], [], .nil, by simpa using h0⟩
  | succ n ih =>
    intro args hl ss0 h0
    rcases args with _ | ⟨a, args⟩
    · exact .inl ⟨[], [], .nil, by simpa using h0⟩
    rw [List.length_cons] at hl
    have fault : ∀ e, Fault T ss0 a args e → ∃ pre a' post ops ss e, a :: args = pre ++ a' :: post ∧ Parse T pre ops ss ∧ Once (ss0 ++ ss) ∧
        Fault T (ss0 ++ ss) a' post e :=
      fun e hF => ⟨[], a, args, [], [], e, rfl, .nil, by simpa using h0, by simpa using hF⟩
    have once : ∀ x : Setting, x.kind ∉ ss0.map Setting.kind → Once (ss0 ++ [x]) := by
      intro x hx
      unfold Once
      rw [List.map_append, List.nodup_append]
      refine ⟨h0, by simp, ?_⟩
      intro k hk k' hk'
      rw [List.map_singleton, List.mem_singleton] at hk'
      subst hk'
      rintro rfl
      exact hx hk
    by_cases hd : Dashed a
    · obtain ⟨c, r, rfl⟩ := hd
      by_cases hh : Help (45 :: c :: r)
      · exact .inr (fault _ (.help hh))
      by_cases hc : c ∈ T.map (fun x => x.1)
      · obtain ⟨⟨c', k⟩, hk, e⟩ := List.mem_map.1 hc
        simp only at e
        subst e
        cases k with
        | flag v =>
          rcases r with _ | ⟨x, r⟩
          · by_cases hs : Kind.flag v ∈ ss0.map Setting.kind
            · exact .inr (fault _ (.again_flag hh hk hs))
            · rcases ih args (by omega) (ss0 ++ [⟨.flag v, []⟩]) (once _ hs) with ⟨ops, ss, h1, h2⟩ | ⟨pre, a', post, ops, ss, e, h1, h2, h3, h4⟩
              · exact .inl ⟨ops, ⟨.flag v, []⟩ :: ss, .flag hh hk h1, by simpa using h2⟩
              · exact .inr ⟨_ :: pre, a', post, ops, ⟨.flag v, []⟩ :: ss, e, by rw [h1]; rfl, .flag hh hk h2, by simpa using h3, by simpa using h4⟩
          · exact .inr (fault _ (.superfluous hh hk))
        | value v =>
          rcases r with _ | ⟨x, r⟩
          · rcases args with _ | ⟨b, args⟩
            · exact .inr (fault _ (.missing hh hk))
            · by_cases hs : Kind.value v ∈ ss0.map Setting.kind
              · exact .inr (fault _ (.again_separate hh hk hs))
              · rw [List.length_cons] at hl
                rcases ih args (by omega) (ss0 ++ [⟨.value v, b⟩]) (once _ hs) with ⟨ops, ss, h1, h2⟩ | ⟨pre, a', post, ops, ss, e, h1, h2, h3, h4⟩
                · exact .inl ⟨ops, ⟨.value v, b⟩ :: ss, .separate hh hk h1, by simpa using h2⟩
                · exact .inr ⟨_ :: b :: pre, a', post, ops, ⟨.value v, b⟩ :: ss, e, by rw [h1]; rfl, .separate hh hk h2, by simpa using h3, by simpa using h4⟩
          · by_cases hs : Kind.value v ∈ ss0.map Setting.kind
            · exact .inr (fault _ (.again_attached hh hk hs))
            · rcases ih args (by omega) (ss0 ++ [⟨.value v, x :: r⟩]) (once _ hs) with ⟨ops, ss, h1, h2⟩ | ⟨pre, a', post, ops, ss, e, h1, h2, h3, h4⟩
              · exact .inl ⟨ops, ⟨.value v, x :: r⟩ :: ss, .attached hh hk h1, by simpa using h2⟩
              · exact .inr ⟨_ :: pre, a', post, ops, ⟨.value v, x :: r⟩ :: ss, e, by rw [h1]; rfl, .attached hh hk h2, by simpa using h3, by simpa using h4⟩
      · exact .inr (fault _ (.unknown hh hc))
    · rcases ih args (by omega) ss0 h0 with ⟨ops, ss, h1, h2⟩ | ⟨pre, a', post, ops, ss, e, h1, h2, h3, h4⟩
      · exact .inl ⟨a :: ops, ss, .operand hd h1, h2⟩
      · exact .inr ⟨a :: pre, a', post, a :: ops, ss, e, by rw [h1]; rfl, .operand hd h2, h3, h4⟩

end Ocr.Args
