import Verif.Spec.Tempfile
import Verif.Proof.Report
import Mathlib.Data.List.Nodup

/-!
# C93: temporary files
-/

namespace Ocr.Temp
open Res Report

theorem ascii_tmp : ascii "/tmp/." = [47, 116, 109, 112, 47, 46] := by decide
theorem ascii_dash : ascii "-" = [45] := by decide

theorem fmt_nat (n : Nat) : fmtInt (n : Int) = decDigits n := by
  unfold fmtInt; rw [if_neg (by omega)]; rfl

theorem dec_inj {a b : Nat} (h : decDigits a = decDigits b) : a = b := by
  rw [← decVal_decDigits a, ← decVal_decDigits b, h]

/-- The name, without the array. -/
def nameOf (exec_name : List Nat) (pid id : Nat) : List Nat :=
  ascii "/tmp/." ++ exec_name ++ decDigits pid ++ ascii "-" ++ decDigits id

theorem create_eq (exec_name : List Nat) (pid id : Nat) :
    create_tempfilename exec_name pid id =
      if exec_name.length + (decDigits pid).length + (decDigits id).length ≤ 92 then .ok (nameOf exec_name pid id) else .ub := by
  unfold create_tempfilename nameOf
  simp only [fmt_nat]
  have e : (ascii "/tmp/." ++ exec_name ++ decDigits pid ++ ascii "-" ++ decDigits id).length + 1 ≤ 100 ↔
      exec_name.length + (decDigits pid).length + (decDigits id).length ≤ 92 := by
    simp only [List.length_append, ascii_tmp, ascii_dash, List.length_cons, List.length_nil]; omega
  simp only [e]

/-- **C93.**  A temporary name fits into its array exactly if the name of the program and the two numbers have together at most 92
characters. -/
theorem c93_fits (exec_name : List Nat) (pid id : Nat) :
    (create_tempfilename exec_name pid id ≠ .ub ↔ exec_name.length + (decDigits pid).length + (decDigits id).length ≤ 92) ∧
    (exec_name.length ≤ 77 → pid < 10 ^ 10 → id ≤ 32767 → create_tempfilename exec_name pid id ≠ .ub) ∧
    (91 ≤ exec_name.length → create_tempfilename exec_name pid id = .ub) := by
  have e := create_eq exec_name pid id
  have h1 : 1 ≤ (decDigits pid).length := List.length_pos_iff.2 (decDigits_ne pid)
  have h2 : 1 ≤ (decDigits id).length := List.length_pos_iff.2 (decDigits_ne id)
  refine ⟨?_, ?_, ?_⟩
  · rw [e]; split <;> simp [*]
  · intro hn hp hi
    have h3 := decDigits_len 9 pid (by simpa using hp)
    have h4 := decDigits_len 4 id (by omega)
    rw [e, if_pos (by omega)]
    simp
  · intro hn
    rw [e, if_neg (by omega)]

theorem split_last {ds ds' xs ys : List Nat} (h : ∀ b ∈ ds, isdigit b = true) (h' : ∀ b ∈ ds', isdigit b = true)
    (hx : ∀ b ∈ xs.getLast?, isdigit b = false) (hy : ∀ b ∈ ys.getLast?, isdigit b = false) (e : xs ++ ds = ys ++ ds') : xs = ys ∧ ds = ds' := by
  have e1 := congrArg List.reverse e
  rw [List.reverse_append, List.reverse_append] at e1
  have t1 : (ds.reverse ++ xs.reverse).takeWhile isdigit = ds.reverse :=
    (takeWhile_digits (by simpa using h) (by simpa using hx)).1
  have t2 : (ds'.reverse ++ ys.reverse).takeWhile isdigit = ds'.reverse :=
    (takeWhile_digits (by simpa using h') (by simpa using hy)).1
  have : ds = ds' := by
    have := t1.symm.trans ((congrArg (List.takeWhile isdigit) e1).trans t2)
    simpa using this
  subst this
  exact ⟨by simpa using e, rfl⟩

/-- **C93.**  Names that are equal belong to the same program, process and number, provided that the names of the programs do not end with a
digit (all programs of this project have such names). -/
theorem c93_processes {exec₁ exec₂ : List Nat} {pid₁ pid₂ id₁ id₂ : Nat} {name : List Nat}
    (h₁ : ∀ b ∈ exec₁.getLast?, isdigit b = false) (h₂ : ∀ b ∈ exec₂.getLast?, isdigit b = false)
    (e₁ : create_tempfilename exec₁ pid₁ id₁ = .ok name) (e₂ : create_tempfilename exec₂ pid₂ id₂ = .ok name) :
    exec₁ = exec₂ ∧ pid₁ = pid₂ ∧ id₁ = id₂ := by
  rw [create_eq] at e₁ e₂
  split at e₁ <;> [skip; cases e₁]
  split at e₂ <;> [skip; cases e₂]
  have e : nameOf exec₁ pid₁ id₁ = nameOf exec₂ pid₂ id₂ := by
    rw [Res.ok.inj e₁, Res.ok.inj e₂]
  unfold nameOf at e
  have hd : ∀ (xs : List Nat), ∀ b ∈ (xs ++ ascii "-").getLast?, isdigit b = false := by
    intro xs b hb
    rw [ascii_dash, List.getLast?_append] at hb
    simp at hb
    subst hb; rfl
  obtain ⟨e, hi⟩ := split_last (decDigits_digit _) (decDigits_digit _) (hd _) (hd _) e
  have e := List.append_cancel_right e
  have hp : ∀ {ex : List Nat}, (∀ b ∈ ex.getLast?, isdigit b = false) → ∀ b ∈ (ascii "/tmp/." ++ ex).getLast?, isdigit b = false := by
    intro ex h b hb
    rw [ascii_tmp, List.getLast?_append] at hb
    cases hl : ex.getLast? with
    | none => rw [hl] at hb; simp at hb; subst hb; rfl
    | some c => rw [hl] at hb; simp at hb; subst hb; exact h _ hl
  obtain ⟨e, hpid⟩ := split_last (decDigits_digit _) (decDigits_digit _) (hp h₁) (hp h₂) e
  exact ⟨List.append_cancel_left e, dec_inj hpid, dec_inj hi⟩

/-- **C93.**  Otherwise two processes may get the same name. -/
theorem c93_clash : ∃ name, create_tempfilename (ascii "ocr1") 23 1 = .ok name ∧ create_tempfilename (ascii "ocr") 123 1 = .ok name :=
  ⟨ascii "/tmp/.ocr123-1", by decide +kernel, by decide +kernel⟩

theorem name_inj {exec_name : List Nat} {pid i j : Nat} (e : nameOf exec_name pid i = nameOf exec_name pid j) : i = j := by
  unfold nameOf at e
  exact dec_inj (List.append_cancel_left e)

variable {exec_name : List Nat} {pid : Nat}

theorem narrow_small {i : Nat} (h : i ≤ 32767) : Args.narrow16 (i : Int) = i := by
  unfold Args.narrow16; omega

/-- What is known while the program runs: `names` are the names with the numbers from `k + 1` on. -/
theorem perform_spec (hc : ∀ i : Nat, i ≤ 32767 → create_tempfilename exec_name pid i = .ok (nameOf exec_name pid i)) :
    ∀ (acts : List Act) (k : Nat) (files files' : List Nat → Bool), k + requests acts ≤ 32767 →
      (∀ x, (∀ i, 1 ≤ i → i ≤ k + requests acts → x ≠ nameOf exec_name pid i) → files x = files' x) →
      ∃ names s, perform exec_name pid acts ⟨k, files⟩ = .ok (names, s) ∧
        names = (List.range (requests acts)).map (fun i => (nameOf exec_name pid (k + 1 + i), false)) ∧
        s.tempfile_id = (k + requests acts : Nat) ∧
        ∀ x, (∀ i, 1 ≤ i → i ≤ k + requests acts → x ≠ nameOf exec_name pid i) → s.files x = left acts files' x := by
  intro acts
  induction acts with
  | nil =>
    intro k files files' hk hf
    exact ⟨[], ⟨k, files⟩, rfl, rfl, rfl, hf⟩
  | cons act acts ih =>
    intro k files files' hk hf
    cases act with
    | temp =>
      simp only [requests] at hk hf ⊢
      have ec : create_tempfilename exec_name pid (Args.narrow16 ((k : Int) + 1)) = .ok (nameOf exec_name pid (k + 1)) := by
        have := narrow_small (i := k + 1) (by omega)
        push_cast at this
        rw [this]
        have := hc (k + 1) (by omega)
        push_cast at this
        exact this
      obtain ⟨names, s, e, hn, hid, hx⟩ := ih (k + 1) (fun x => if x = nameOf exec_name pid (k + 1) then false else files x) files' (by omega) (by
        intro x hx
        simp only [if_neg (hx (k + 1) (by omega) (by omega))]
        exact hf x fun i h1 h2 => hx i h1 (by omega))
      have hnar : Args.narrow16 ((k : Int) + 1) = ((k + 1 : Nat) : Int) := by
        have := narrow_small (i := k + 1) (by omega)
        push_cast at this ⊢; exact this
      refine ⟨(nameOf exec_name pid (k + 1), false) :: names, s, ?_, ?_, ?_, ?_⟩
      · simp only [perform, tempfilename, ec, bind_ok, pure_eq]
        simp only [hnar, unlink, e, bind_ok, if_true]
      · rw [hn, List.range_succ_eq_map, List.map_cons, List.map_map]
        simp only [Nat.add_zero, List.cons.injEq, true_and]
        refine List.map_congr_left fun i _ => ?_
        simp only [Function.comp, Nat.succ_eq_add_one]
        rw [show k + 1 + 1 + i = k + 1 + (i + 1) by omega]
      · rw [hid, show k + 1 + requests acts = k + (requests acts + 1) by omega]
      · intro x hx'
        exact hx x fun i h1 h2 => hx' i h1 (by omega)
    | create name =>
      simp only [perform, requests, left] at hk hf ⊢
      refine ih k _ _ hk ?_
      intro x hx
      by_cases h : x = name
      · simp [h]
      · simp only [if_neg h]; exact hf x hx
    | remove name =>
      simp only [perform, requests, left, unlink] at hk hf ⊢
      refine ih k _ _ hk ?_
      intro x hx
      by_cases h : x = name
      · simp [h]
      · simp only [if_neg h]; exact hf x hx

theorem delete_spec (hc : ∀ i : Nat, i ≤ 32767 → create_tempfilename exec_name pid i = .ok (nameOf exec_name pid i)) (n : Nat) (hn : n < 32767) :
    ∀ (m i : Nat) (fuel : Nat) (files : List Nat → Bool), i + m = n + 1 → m < fuel →
      ∃ s, deleteLoop exec_name pid fuel i ⟨n, files⟩ = .ok s ∧
        ∀ x, s.files x = (files x && decide (∀ j, i ≤ j → j ≤ n → x ≠ nameOf exec_name pid j)) := by
  intro m
  induction m with
  | zero =>
    intro i fuel files hi hf
    obtain ⟨fuel, rfl⟩ : ∃ f, fuel = f + 1 := ⟨fuel - 1, by omega⟩
    refine ⟨⟨n, files⟩, ?_, ?_⟩
    · simp only [deleteLoop]; rw [if_neg (by omega)]
    · intro x
      have : ∀ j, i ≤ j → j ≤ n → x ≠ nameOf exec_name pid j := by intro j h1 h2; omega
      rw [decide_eq_true this, Bool.and_true]
  | succ m ih =>
    intro i fuel files hi hf
    obtain ⟨fuel, rfl⟩ : ∃ f, fuel = f + 1 := ⟨fuel - 1, by omega⟩
    obtain ⟨s, e, hx⟩ := ih (i + 1) fuel (fun x => if x = nameOf exec_name pid i then false else files x) (by omega) (by omega)
    refine ⟨s, ?_, ?_⟩
    · have hnar := narrow_small (i := i + 1) (by omega)
      push_cast at hnar e
      simp only [deleteLoop]
      rw [if_pos (by omega), hc i (by omega), bind_ok, hnar]
      exact e
    · intro x
      rw [hx x]
      by_cases h : x = nameOf exec_name pid i
      · have : ¬ ∀ j, i ≤ j → j ≤ n → x ≠ nameOf exec_name pid j := fun hh => hh i (by omega) (by omega) h
        simp [h]
        intro _
        exact ⟨i, by omega, by omega, rfl⟩
      · have : (∀ j, i + 1 ≤ j → j ≤ n → x ≠ nameOf exec_name pid j) ↔ (∀ j, i ≤ j → j ≤ n → x ≠ nameOf exec_name pid j) := by
          constructor
          · intro hh j h1 h2
            by_cases hj : j = i
            · rw [hj]; exact h
            · exact hh j (by omega) h2
          · intro hh j h1 h2; exact hh j (by omega) h2
        simp only [if_neg h, this]

/-- **C93.**  A program that asks for fewer than 32767 temporary names gets different names, of files that do not exist; when it has
ended, no file with one of these names exists, and all other files are as the program has left them. -/
theorem c93_session (exec_name : List Nat) (pid : Nat) (h1 : exec_name.length ≤ 77) (h2 : pid < 10 ^ 10) (acts : List Act)
    (hr : requests acts < 32767) (files : List Nat → Bool) (fuel : Nat) (hf : requests acts < fuel) :
    ∃ names s, session exec_name pid acts files fuel = .ok (names, s) ∧ names.length = requests acts ∧ (names.map Prod.fst).Nodup ∧
      (∀ n ∈ names, n.2 = false) ∧ ∀ x, s.files x = (left acts files x && decide (x ∉ names.map Prod.fst)) := by
  have hc : ∀ i : Nat, i ≤ 32767 → create_tempfilename exec_name pid i = .ok (nameOf exec_name pid i) := by
    intro i hi
    have h := (c93_fits exec_name pid i).2.1 h1 h2 hi
    rw [create_eq] at h ⊢
    split at h <;> simp_all
  obtain ⟨names, s, e, hn, hid, hx⟩ := perform_spec hc acts 0 files files (by omega) (fun _ _ => rfl)
  obtain ⟨t, e', hx'⟩ := delete_spec hc (requests acts) hr (requests acts) 1 fuel s.files (by omega) hf
  have hs : s = ⟨((requests acts : Nat) : Int), s.files⟩ := by
    cases s; simp only at hid; simp [hid]
  have hmem : ∀ x, x ∈ names.map Prod.fst ↔ ∃ j, 1 ≤ j ∧ j ≤ requests acts ∧ x = nameOf exec_name pid j := by
    intro x
    rw [hn, List.map_map, List.mem_map]
    constructor
    · rintro ⟨i, hi, rfl⟩
      rw [List.mem_range] at hi
      exact ⟨0 + 1 + i, by omega, by omega, rfl⟩
    · rintro ⟨j, h1, h2, rfl⟩
      exact ⟨j - 1, List.mem_range.2 (by omega), by simp only [Function.comp]; congr 1; omega⟩
  refine ⟨names, t, ?_, by simp [hn], ?_, ?_, ?_⟩
  · unfold session quit delete_tempfiles
    have e0 : perform exec_name pid acts ⟨0, files⟩ = .ok (names, s) := e
    simp only [e0, bind_ok, pure_eq]
    rw [hs]
    have e1 : deleteLoop exec_name pid fuel 1 ⟨((requests acts : Nat) : Int), s.files⟩ = .ok t := e'
    simp only [e1, bind_ok]
  · rw [hn, List.map_map]
    refine List.Nodup.map_on ?_ List.nodup_range
    intro i _ j _ hij
    simp only [Function.comp] at hij
    have := name_inj hij
    omega
  · intro n hm
    rw [hn] at hm
    obtain ⟨i, _, rfl⟩ := List.mem_map.1 hm
    rfl
  · intro x
    rw [hx' x]
    by_cases hm : x ∈ names.map Prod.fst
    · have : ¬ ∀ j, 1 ≤ j → j ≤ requests acts → x ≠ nameOf exec_name pid j := by
        intro hh
        obtain ⟨j, h1, h2, h3⟩ := (hmem x).1 hm
        exact hh j h1 h2 h3
      rw [decide_eq_false this, decide_eq_false (not_not.2 hm)]
      simp
    · have hh : ∀ j, 1 ≤ j → j ≤ requests acts → x ≠ nameOf exec_name pid j := by
        intro j h1 h2 h3
        exact hm ((hmem x).2 ⟨j, h1, h2, h3⟩)
      rw [decide_eq_true hh, decide_eq_true hm, hx x (by intro i h1 h2; exact hh i h1 (by omega))]

/-- **C93.**  No file is removed at the end of a program that has not asked for a temporary name; this is so for all programs of the
project. -/
theorem c93_none (exec_name : List Nat) (pid : Int) (files : List Nat → Bool) (fuel : Nat) :
    quit exec_name pid (fuel + 1) ⟨0, files⟩ = .ok ⟨0, files⟩ := by
  simp [quit, delete_tempfiles, deleteLoop]

/-- **C93.**  After 32767 requests the program does not end: the counter of the loop, of type `short`, never exceeds 32767. -/
theorem c93_endless (exec_name : List Nat) (pid : Nat) (h1 : exec_name.length ≤ 76) (h2 : pid < 10 ^ 10) (files : List Nat → Bool)
    (fuel : Nat) : quit exec_name pid fuel ⟨32767, files⟩ = .fuel := by
  have key : ∀ (fuel : Nat) (i : Int) (files : List Nat → Bool), -32768 ≤ i → i ≤ 32767 →
      deleteLoop exec_name pid fuel i ⟨32767, files⟩ = .fuel := by
    intro fuel
    induction fuel with
    | zero => intros; rfl
    | succ fuel ih =>
      intro i files hl hu
      have hcr : ∃ name, create_tempfilename exec_name pid i = .ok name := by
        have h3 := decDigits_len 9 pid (by simpa using h2)
        have h4 := decDigits_len 4 i.natAbs (by omega)
        unfold create_tempfilename
        simp only [fmt_nat]
        have hlen : (fmtInt i).length ≤ 6 := by
          unfold fmtInt; split
          · rw [List.length_cons]; omega
          · omega
        refine ⟨_, if_pos ?_⟩
        simp only [List.length_append, ascii_tmp, ascii_dash, List.length_cons, List.length_nil]
        omega
      obtain ⟨name, hcr⟩ := hcr
      simp only [deleteLoop]
      rw [if_pos hu, hcr, bind_ok]
      exact ih _ _ (by unfold Args.narrow16; omega) (by unfold Args.narrow16; omega)
  exact key fuel 1 files (by omega) (by omega)

/-! ## Non-vacuity -/

example : create_tempfilename (ascii "vote") 4711 1 = .ok (ascii "/tmp/.vote4711-1") := by decide +kernel
example : ∀ b ∈ (ascii "vote").getLast?, isdigit b = false := by decide
example : requests [.temp, .create (ascii "/tmp/.vote4711-1"), .temp, .create (ascii "x")] = 2 := by decide
example : left [.temp, .create (ascii "/tmp/.vote4711-1"), .temp, .create (ascii "x")] (fun _ => false) (ascii "x") = true := by decide
example : (match session (ascii "vote") 4711 [.temp, .create (ascii "/tmp/.vote4711-1"), .temp, .create (ascii "x")] (fun _ => false) 3 with
    | .ok (names, s) => (names, s.files (ascii "x"), s.files (ascii "/tmp/.vote4711-1"))
    | _ => ([], false, true)) = ([(ascii "/tmp/.vote4711-1", false), (ascii "/tmp/.vote4711-2", false)], true, false) := by decide +kernel

end Ocr.Temp
