import Verif.Model.Args

/-!
# Command lines

An option table gives each option a name, a byte, and says whether it takes a value.
-/

namespace Ocr.Args

/-- An option that takes a value, and the number of its variable, or a Boolean option, and the number of its variable. -/
inductive Kind where
  | value (v : Nat)
  | flag (v : Nat)
  deriving DecidableEq

/-- An option table: distinct names, distinct variables, none of the names is NUL. -/
structure Table (T : List (Nat × Kind)) : Prop where
  names : (T.map (fun x => x.1)).Nodup
  kinds : (T.map (fun x => x.2)).Nodup
  nul   : ∀ x ∈ T, x.1 ≠ 0

/-- The array for a table. -/
def optOf (x : Nat × Kind) : Opt :=
  match x.2 with
  | .value v => ⟨x.1, some v, none⟩
  | .flag v => ⟨x.1, none, some v⟩

/-- An argument that begins with `-` and another character. -/
def Dashed (a : List Nat) : Prop := ∃ c r, a = 45 :: c :: r

/-- `-h`, `-he`, `-hel`, `-help`. -/
def Help (a : List Nat) : Prop := a ∈ [ascii "-h", ascii "-he", ascii "-hel", ascii "-help"]

/-- An option that has been recognized: its kind, and its value if it takes one. -/
structure Setting where
  kind  : Kind
  given : List Nat
  deriving DecidableEq

/-- `Parse T args operands settings`: the arguments consist of these operands and options, in this order. -/
inductive Parse (T : List (Nat × Kind)) : List (List Nat) → List (List Nat) → List Setting → Prop
  | nil : Parse T [] [] []
  | operand {a : List Nat} {args ops : List (List Nat)} {ss : List Setting} (h : ¬ Dashed a) :
      Parse T args ops ss → Parse T (a :: args) (a :: ops) ss
  | flag {c v : Nat} {args ops : List (List Nat)} {ss : List Setting} (h : ¬ Help [45, c]) (hc : (c, Kind.flag v) ∈ T) :
      Parse T args ops ss → Parse T ([45, c] :: args) ops (⟨.flag v, []⟩ :: ss)
  | attached {c v x : Nat} {r : List Nat} {args ops : List (List Nat)} {ss : List Setting} (h : ¬ Help (45 :: c :: x :: r))
      (hc : (c, Kind.value v) ∈ T) :
      Parse T args ops ss → Parse T ((45 :: c :: x :: r) :: args) ops (⟨.value v, x :: r⟩ :: ss)
  | separate {c v : Nat} {r : List Nat} {args ops : List (List Nat)} {ss : List Setting} (h : ¬ Help [45, c])
      (hc : (c, Kind.value v) ∈ T) :
      Parse T args ops ss → Parse T ([45, c] :: r :: args) ops (⟨.value v, r⟩ :: ss)

/-- No option is given twice. -/
def Once (ss : List Setting) : Prop := (ss.map Setting.kind).Nodup

/-- The variables of the options given are set, the others are null pointers or `False`. -/
def Holds (ss : List Setting) (V : Vars) : Prop :=
  (∀ v s, V.string v = some s ↔ ⟨.value v, s⟩ ∈ ss) ∧ ∀ v, V.boolean v = true ↔ ⟨.flag v, []⟩ ∈ ss

/-- Why an argument `a`, which follows the settings `ss` and is followed by `rest`, is refused. -/
inductive Fault (T : List (Nat × Kind)) (ss : List Setting) : List Nat → List (List Nat) → String → Prop
  | help {a rest} (h : Help a) : Fault T ss a rest "usage"
  | unknown {c r rest} (h : ¬ Help (45 :: c :: r)) (hc : c ∉ T.map (fun x => x.1)) : Fault T ss (45 :: c :: r) rest "invalid option"
  | superfluous {c v x r rest} (h : ¬ Help (45 :: c :: x :: r)) (hc : (c, Kind.flag v) ∈ T) :
      Fault T ss (45 :: c :: x :: r) rest "invalid option"
  | missing {c v} (h : ¬ Help [45, c]) (hc : (c, Kind.value v) ∈ T) : Fault T ss [45, c] [] "invalid option"
  | again_flag {c v rest} (h : ¬ Help [45, c]) (hc : (c, Kind.flag v) ∈ T) (hs : Kind.flag v ∈ ss.map Setting.kind) :
      Fault T ss [45, c] rest "duplicate option"
  | again_attached {c v x r rest} (h : ¬ Help (45 :: c :: x :: r)) (hc : (c, Kind.value v) ∈ T)
      (hs : Kind.value v ∈ ss.map Setting.kind) : Fault T ss (45 :: c :: x :: r) rest "duplicate option"
  | again_separate {c v r rest} (h : ¬ Help [45, c]) (hc : (c, Kind.value v) ∈ T)
      (hs : Kind.value v ∈ ss.map Setting.kind) : Fault T ss [45, c] (r :: rest) "duplicate option"

end Ocr.Args
