import Verif.Model.ReportPrograms
import Verif.Proof.Programs

namespace Ocr.Prog
open Text Res

theorem accdist_process : ∀ (files : List (List Nat)) (D : Acc.Accdata) (dist : Dist.Dist),
    Accdist.processFiles D dist files = overFiles accdistFile files (D, dist) >>= fun a => .ok a.2
  | [], _, _ => rfl
  | file :: files, D, dist => by
    unfold Accdist.processFiles overFiles accdistFile
    simp only
    cases Acc.read_accrpt D file with
    | ok D' =>
      simp only [bind_ok]
      cases Dist.update_dist dist (D'.characters - D.characters) (D'.errors - D.errors) with
      | ok t => exact accdist_process files D' t
      | err | ub | fuel => rfl
    | err | ub | fuel => rfl

theorem wordaccdist_process : ∀ (files : List (List Nat)) (D : Wac.Wacdata) (dist : Dist.Dist),
    Wordaccdist.processFiles D dist files = overFiles wordaccdistFile files (D, dist) >>= fun a => .ok a.2
  | [], _, _ => rfl
  | file :: files, D, dist => by
    unfold Wordaccdist.processFiles overFiles wordaccdistFile
    simp only
    cases Wac.read_wacrpt D file with
    | ok D' =>
      simp only [bind_ok]
      cases Dist.update_dist dist (D'.total.count - D.total.count) (D'.total.missed - D.total.missed) with
      | ok t => exact wordaccdist_process files D' t
      | err | ub | fuel => rfl
    | err | ub | fuel => rfl

theorem accci_process : ∀ (files : List (List Nat)) (D : Acc.Accdata) (l : Ci.Obslist),
    Accci.processFiles D l files = overFiles accciFile files (D, l)
  | [], _, _ => rfl
  | file :: files, D, l => by
    unfold Accci.processFiles overFiles accciFile
    simp only
    cases Acc.read_accrpt D file with
    | ok D' => exact accci_process files D' _
    | err | ub | fuel => rfl

theorem wordaccci_process : ∀ (files : List (List Nat)) (D : Wac.Wacdata) (l : Ci.Obslist),
    Wordaccci.processFiles D l files = overFiles wordaccciFile files (D, l)
  | [], _, _ => rfl
  | file :: files, D, l => by
    unfold Wordaccci.processFiles overFiles wordaccciFile
    simp only
    cases Wac.read_wacrpt D file with
    | ok D' => exact wordaccci_process files D' _
    | err | ub | fuel => rfl

section
variable {fs : Fs} {argv names files : List (List Nat)} {b : List Nat} {V : Args.Vars}

theorem accdist_eq {pct : Int → Int → List Nat} (e : Args.initialize_ none true argv start = .ok (b, names, V))
    (h : List.Forall₂ (fun name file => fs name = some file) names files) :
    accdistProgram pct fs argv = Accdist.accdistMain pct files >>= fun bytes => .ok ⟨none, bytes⟩ := by
  unfold accdistProgram Accdist.accdistMain
  rw [e, bind_ok]
  simp only
  rw [forFiles_eq h, accdist_process, assoc, assoc]
  refine congrArg (fun g => _ >>= g) (funext fun a => ?_)
  obtain ⟨o, t⟩ := a
  rw [bind_ok]; rfl

theorem wordaccdist_eq {pct : Int → Int → List Nat} (e : Args.initialize_ none true argv start = .ok (b, names, V))
    (h : List.Forall₂ (fun name file => fs name = some file) names files) :
    wordaccdistProgram pct fs argv = Wordaccdist.wordaccdistMain pct files >>= fun bytes => .ok ⟨none, bytes⟩ := by
  unfold wordaccdistProgram Wordaccdist.wordaccdistMain
  rw [e, bind_ok]
  simp only
  rw [forFiles_eq h, wordaccdist_process, assoc, assoc]
  refine congrArg (fun g => _ >>= g) (funext fun a => ?_)
  obtain ⟨o, t⟩ := a
  rw [bind_ok]; rfl

theorem accci_eq {pct : Int → Int → List Nat} {fmt : ℝ → List Nat} (e : Args.initialize_ none true argv start = .ok (b, names, V))
    (h : List.Forall₂ (fun name file => fs name = some file) names files) :
    accciProgram pct fmt fs argv = Accci.accciMain pct fmt files >>= fun bytes => .ok ⟨none, bytes⟩ := by
  unfold accciProgram Accci.accciMain
  rw [e, bind_ok]
  simp only
  rw [h.length_eq]
  split
  · rfl
  · rw [forFiles_eq h, accci_process, assoc]
    refine congrArg (fun g => _ >>= g) (funext fun a => ?_)
    obtain ⟨o, t⟩ := a
    rfl

theorem wordaccci_eq {pct : Int → Int → List Nat} {fmt : ℝ → List Nat} (e : Args.initialize_ none true argv start = .ok (b, names, V))
    (h : List.Forall₂ (fun name file => fs name = some file) names files) :
    wordaccciProgram pct fmt fs argv = Wordaccci.wordaccciMain pct fmt files >>= fun bytes => .ok ⟨none, bytes⟩ := by
  unfold wordaccciProgram Wordaccci.wordaccciMain
  rw [e, bind_ok]
  simp only
  rw [h.length_eq]
  split
  · rfl
  · rw [forFiles_eq h, wordaccci_process, assoc]
    refine congrArg (fun g => _ >>= g) (funext fun a => ?_)
    obtain ⟨o, t⟩ := a
    rfl

end

end Ocr.Prog
