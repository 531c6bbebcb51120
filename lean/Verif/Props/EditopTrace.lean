import Verif.Proof.EditopTrace
import Verif.Props.TextEndings

/-!
# C76: the moves counted by editop, and what option `-D` prints
-/

namespace Ocr.Edo
open Text Res Sync

theorem inv_start (C : List Block) (hid : (C.map (·.id)).Nodup) (hp : (C.map (·.mtch)).Perm (List.range' 1 C.length))
    (hl : ∀ b ∈ C, 1 ≤ b.length) : ∃ B, Inv C B := by
  have hnd : (C.map (·.mtch)).Nodup := hp.symm.nodup (List.nodup_range' ..)
  refine ⟨(List.range' 1 C.length).map (fun m => [(m, ((C.find? (fun b => b.mtch = m)).map (·.length)).getD 0)]), hid, by simpa using hp, ?_, hl⟩
  intro c hc
  have hr := hp.mem_iff.1 (List.mem_map_of_mem hc)
  rw [List.mem_range'_1] at hr
  rw [List.getD_eq_getElem _ _ (by simp; omega)]
  simp only [List.getElem_map, List.getElem_range']
  rw [show 1 + 1 * (c.mtch - 1) = c.mtch by omega, find_mtch hnd hc]
  simp [chars]

/-- C76.  For any arrangement of fewer than 10^13 blocks (whose numbers are a permutation of 1..n), the moves counted are best
moves: each time the blocks with consecutive numbers are joined, and then one block is moved such that no other move of one block
leaves fewer blocks; of these the shortest block, and of those the first in the correct order.  With `-D`, the blocks are printed
at the beginning, after each move, and each time they have been joined. -/
theorem c76_moves (D : Edodata) (C : List Block) (hid : (C.map (·.id)).Nodup)
    (hp : (C.map (·.mtch)).Perm (List.range' 1 C.length)) (hl : ∀ b ∈ C, 1 ≤ b.length) (hlen : C.length < 10^13) :
    ∃ D' ls tr, count_moves D C = .ok D' ∧ Recorded D ls D' ∧
      Trace (joined (C.map (fun b => (b.mtch, b.length)))) ls tr ∧
      count_movesD false D C = .ok (D', []) ∧
      count_movesD true D C = .ok (D', ((ascii "original", C.map (fun b => (b.mtch, b.length))) ::
        (ascii "combined", joined (C.map (fun b => (b.mtch, b.length)))) :: tr).flatMap shown) := by
  obtain ⟨B, hB⟩ := inv_start C hid hp hl
  obtain ⟨D', ls, tr, e1, e2, r, t⟩ := count_movesD_spec D C B hB hlen
  exact ⟨D', ls, tr, e1, r, t, e2 false, e2 true⟩

/-- C76 (one move).  A best move saves at least one block and at most three. -/
theorem c76_saving (L M : List (Nat × Int)) (b : Nat × Int) (hp : (L.map Prod.fst).Perm (List.range' 1 L.length))
    (hj : joined L = L) (h : Best L b M) : (joined M).length < L.length ∧ L.length ≤ (joined M).length + 3 := by
  have hn : (L.map Prod.fst).Nodup := hp.symm.nodup (List.nodup_range' ..)
  have h0 : adj (L.map Prod.fst) = 0 := by
    have := joined_length L
    rw [hj] at this
    omega
  have hM := joined_length M
  obtain ⟨p, q, u, v, e1, e2, e3⟩ := h.moved
  have hlM : M.length = L.length := by
    have := congrArg List.length e2
    rw [e1, e3]
    simp only [List.length_append, List.length_cons] at *
    omega
  have e1' : L.map Prod.fst = p.map Prod.fst ++ b.1 :: q.map Prod.fst := by rw [e1]; simp
  have e2' : p.map Prod.fst ++ q.map Prod.fst = u.map Prod.fst ++ v.map Prod.fst := by rw [← List.map_append, e2, List.map_append]
  have hle := adj_move_le (e1' ▸ hn) (e1' ▸ h0) e2'
  have e3' : M.map Prod.fst = u.map Prod.fst ++ b.1 :: v.map Prod.fst := by rw [e3]; simp
  rw [← e3', ← e1'] at hle
  have hr : redu (L.map Prod.fst) b.1 ≤ 3 := by unfold redu; split <;> split <;> omega
  have hpos : 0 < adj (M.map Prod.fst) := by
    obtain ⟨u', v', c, ⟨h1, h2, hm⟩ | ⟨h1, hm⟩⟩ := h.place
    · rw [hm, List.map_append, adj_append, List.map_cons, List.map_cons, adj]
      rw [if_pos (by omega)]; omega
    · rw [hm, List.map_append, adj_append, List.map_cons, List.map_cons, adj]
      rw [if_pos (by omega)]; omega
  omega

theorem blocks_pair (r : Synclist2) : (blocks r.cells r.items2).map Block.pair =
    r.items2.filterMap (fun s => s.mtch.map (fun c => ((r.cells c).toNat, (s.sub 0).length))) := by
  unfold blocks
  rw [List.map_filterMap]
  congr 1
  funext s
  cases s.mtch <;> rfl

theorem blocks_few {a b : List Nat} {r : Synclist2} (e1 : transpose_sync a b = .ok r) : (blocks r.cells r.items2).length ≤ b.length := by
  obtain ⟨r', e, _, h2, hn, hp, _, _⟩ := Sync.transpose_spec a b
  rw [e1] at e
  cases e
  have key : ∀ l : List Sync, (∀ s ∈ l, s ∈ r.items2) → ∀ p : Int, Tiles p (l.map (·.sub 0)) b.length →
      p + (blocks r.cells l).length ≤ b.length := by
    intro l
    induction l with
    | nil => intro _ p h; simp only [List.map_nil, Tiles] at h; simp [blocks]; omega
    | cons s l ih =>
      intro hl p h
      simp only [List.map_cons, Tiles] at h
      have := ih (fun x hx => hl x (by simp [hx])) _ h.2.2.2
      unfold blocks at this ⊢
      cases hms : s.mtch with
      | none => rw [List.filterMap_cons, hms]; simp only [Option.map_none]; omega
      | some k =>
        rw [List.filterMap_cons, hms]
        simp only [Option.map_some, List.length_cons]
        obtain ⟨t, ht, hx⟩ := h2.nonempty s (hl s (by simp))
        have : t = 0 := by simpa using ht
        subst this
        push_cast; omega
  have := key r.items2 (fun _ h => h) 0 (by simpa using h2.tiles 0 (by simp))
  omega

/-- C76 (editop).  For any two texts, the second of fewer than 10^13 characters: the moves of the report are best moves of the blocks
matched by `transpose_sync`. -/
theorem c76_editop (a b : List Nat) (hb : b.length < 10^13) :
    ∃ r D ls tr, transpose_sync a b = .ok r ∧ editop a b = .ok D ∧
      D.total_moves = ls.length ∧ (∀ i : Nat, D.moves i = ls.countP (fun l : Int => min l 100 = i)) ∧
      Trace (joined (r.items2.filterMap (fun s => s.mtch.map (fun c => ((r.cells c).toNat, (s.sub 0).length))))) ls tr ∧
      ∀ debug, editopD debug a b = .ok (D, if debug then
        ((ascii "original", r.items2.filterMap (fun s => s.mtch.map (fun c => ((r.cells c).toNat, (s.sub 0).length)))) ::
        (ascii "combined", joined (r.items2.filterMap (fun s => s.mtch.map (fun c => ((r.cells c).toNat, (s.sub 0).length))))) ::
        tr).flatMap shown else []) := by
  obtain ⟨r, e, h1, h2, _⟩ := Sync.transpose_spec a b
  obtain ⟨hid, hp, hl⟩ := blocks_start e
  have hfew := blocks_few e
  obtain ⟨B, hB⟩ := inv_start _ hid hp hl
  obtain ⟨D, ls, tr, e1, e2, rec, t⟩ := count_movesD_spec
    { Edodata.zero with
      total_insertions := 0 + ((unm a r.items1).countP (fun c => c ≠ REJECT_CHARACTER) : Nat)
      total_deletions := 0 + ((unm b r.items2).length : Nat) } (blocks r.cells r.items2) B hB (by omega)
  rw [blocks_pair] at t e2
  refine ⟨r, D, ls, tr, e, ?_, ?_, ?_, t, ?_⟩
  · unfold editop
    rw [e, bind_ok, count_insertions_spec h1 _ _ (fun _ h => h), bind_ok, count_deletions_spec h2 _ _ _ (fun _ h => h), bind_ok]
    exact e1
  · rw [rec.moves]; simp [Edodata.zero]
  · intro i; rw [rec.lengths]; simp [Edodata.zero]
  · intro debug
    unfold editopD
    rw [e, bind_ok, count_insertions_spec h1 _ _ (fun _ h => h), bind_ok, count_deletions_spec h2 _ _ _ (fun _ h => h), bind_ok]
    exact e2 debug

end Ocr.Edo

namespace Ocr.Prog
open Text Res Spec AnyText Ending Sync

/-- C76 (the program).  If the command line is correct and two texts can be compared: with `-D` the trace of the moves is printed, without
it nothing; then the same report is written in either case. -/
theorem c76_program (U : Unicode) (junk : List Nat) (hj : Bytes junk) (fs : Fs) (hfs : ∀ name file, fs name = some file → Bytes file)
    (prog : List Nat) (args names : List (List Nat)) (ss : List Args.Setting) (hc : CommandLine [(68, .flag 0)] prog args names ss)
    (t0 t1 : List Ch) (h : Compared U false fs names t0 t1) (hl : t1.length < 10^13) :
    ∃ r D ls tr blocks, transpose_sync (t0.map Ch.value) (t1.map Ch.value) = .ok r ∧ Edo.editop (t0.map Ch.value) (t1.map Ch.value) = .ok D ∧
      blocks = r.items2.filterMap (fun s => s.mtch.map (fun c => ((r.cells c).toNat, (s.sub 0).length))) ∧
      D.total_moves = ls.length ∧ (∀ i : Nat, D.moves i = ls.countP (fun l : Int => min l 100 = i)) ∧
      Edo.Trace (Edo.joined blocks) ls tr ∧ editopMain U junk fs (prog :: args) = .ok ⟨names[2]?, Edo.write_edorpt D⟩ ∧
      (⟨.flag 0, []⟩ ∈ ss → editopDebug U junk fs (prog :: args) =
        .ok (((ascii "original", blocks) :: (ascii "combined", Edo.joined blocks) :: tr).flatMap Edo.shown,
          ⟨names[2]?, Edo.write_edorpt D⟩)) ∧
      (⟨.flag 0, []⟩ ∉ ss → editopDebug U junk fs (prog :: args) = .ok ([], ⟨names[2]?, Edo.write_edorpt D⟩)) := by
  obtain ⟨b, V, e, hV⟩ := init_args table_editop hc
  obtain ⟨r, D, ls, tr, e1, e2, h1, h2, h3, h4⟩ := Edo.c76_editop (t0.map Ch.value) (t1.map Ch.value) (by simpa using hl)
  obtain ⟨n0, n1, rest, f0, f1, rfl, hr, g0, g1, g2, g3, g4⟩ := h
  have hpair : readPair U junk fs (n0 :: n1 :: rest) = .ok (t0, t1) :=
    ((readPair_gives U hj hfs n0 n1 rest).value _).2 ⟨f0, f1, g0, g1, g2, g3, g4⟩
  have hn : ¬ ((n0 :: n1 :: rest).length < 2 ∨ (n0 :: n1 :: rest).length > 3) := by simp only [List.length_cons]; omega
  have hdebug : editopDebug U junk fs (prog :: args) = (Edo.editopD (V.boolean 0) (t0.map Ch.value) (t1.map Ch.value) >>= fun p =>
      .ok (p.2, ⟨(n0 :: n1 :: rest)[2]?, Edo.write_edorpt p.1⟩)) := by
    unfold editopDebug
    rw [show Args.initialize_ (some Args.editopOptions) true (prog :: args) start = _ from e, bind_ok]
    simp only
    rw [if_neg hn, hpair, bind_ok]
    rfl
  refine ⟨r, D, ls, tr, _, e1, e2, rfl, h1, h2, h3, ?_, ?_, ?_⟩
  · unfold editopMain
    rw [show Args.initialize_ (some Args.editopOptions) true (prog :: args) start = _ from e, bind_ok]
    simp only
    rw [if_neg hn, hpair, bind_ok]
    simp only
    rw [e2, bind_ok, pure_eq]
  · intro hd
    rw [hdebug, h4, bind_ok, if_pos ((hV.2 0).2 hd)]
  · intro hd
    rw [hdebug, h4, bind_ok, if_neg (fun h => hd ((hV.2 0).1 h))]

/-! ## Non-vacuity -/

/-- Five blocks in the order 3 1 4 2 5.  Two blocks are saved by moving the fourth, of one character, and then the (new) second. -/
example : (Edo.count_movesD true Edo.Edodata.zero [⟨7, 3, 4⟩, ⟨8, 1, 9⟩, ⟨9, 4, 1⟩, ⟨5, 2, 100⟩, ⟨6, 5, 2⟩]).bind
    (fun p => .ok (p.1.total_moves, p.2)) =
    .ok (2, ascii ("original : {3:4} {1:9} {4:1} {2:100} {5:2}\n\ncombined : {3:4} {1:9} {4:1} {2:100} {5:2}\n\n" ++
      "moved 4  : {3:4} {4:1} {1:9} {2:100} {5:2}\n\ncombined : {2:5} {1:109} {3:2}\n\n" ++
      "moved 2  : {1:109} {2:5} {3:2}\n\ncombined : {1:116}\n\n")) := by decide +kernel

/-- The hypotheses of `c76_moves` hold there. -/
example : ∃ D' ls tr, Edo.count_moves Edo.Edodata.zero [⟨7, 3, 4⟩, ⟨8, 1, 9⟩, ⟨9, 4, 1⟩, ⟨5, 2, 100⟩, ⟨6, 5, 2⟩] = .ok D' ∧
    Edo.Recorded Edo.Edodata.zero ls D' ∧ Edo.Trace (Edo.joined [(3, 4), (1, 9), (4, 1), (2, 100), (5, 2)]) ls tr := by
  obtain ⟨D', ls, tr, h1, h2, h3, _⟩ := Edo.c76_moves Edo.Edodata.zero [⟨7, 3, 4⟩, ⟨8, 1, 9⟩, ⟨9, 4, 1⟩, ⟨5, 2, 100⟩, ⟨6, 5, 2⟩]
    (by decide) (by decide) (by decide) (by decide)
  exact ⟨D', ls, tr, h1, h2, h3⟩

/-- The numbers of the blocks that remain. -/
example : Edo.joined [(3, 4), (4, 1), (1, 9), (2, 100), (5, 2)] = [(2, 5), (1, 109), (3, 2)] := by decide

/-- Two texts are compared, with `-D` and without. -/
example : ∃ trace report, editopDebug sampleUnicode [] (threeFiles textX textY textZ) [ascii "editop", ascii "-D", ascii "x", ascii "y"] =
      .ok (trace, report) ∧ trace ≠ [] ∧
    editopDebug sampleUnicode [] (threeFiles textX textY textZ) [ascii "editop", ascii "x", ascii "y"] = .ok ([], report) ∧
    editopMain sampleUnicode [] (threeFiles textX textY textZ) [ascii "editop", ascii "-D", ascii "x", ascii "y"] = .ok report := by
  have L1 := pair_line [(68, .flag 0)] "editop" "x" "y" (by decide +kernel) (by decide +kernel) (by decide +kernel)
  have L2 : CommandLine [(68, .flag 0)] (ascii "editop") [ascii "-D", ascii "x", ascii "y"] [ascii "x", ascii "y"] [⟨.flag 0, []⟩] :=
    ⟨by decide +kernel, by decide +kernel, by decide +kernel, by simp, .flag (by unfold Args.Help; decide +kernel) (by decide) L1.parse,
      by simp [Args.Once]⟩
  obtain ⟨r, D, ls, tr, bl, _, e, hbl, _, _, _, _, _, h1⟩ := c76_program sampleUnicode [] (by simp [Bytes]) _ xyz_bytes _ _ _ _ L1 _ _ x_and_y
    (by decide)
  obtain ⟨r', D', ls', tr', bl', _, e', hbl', _, _, _, h4, h2, _⟩ := c76_program sampleUnicode [] (by simp [Bytes]) _ xyz_bytes _ _ _ _ L2 _ _ x_and_y
    (by decide)
  rw [e] at e'
  cases e'
  exact ⟨_, _, h2 (by simp), by simp [Edo.shown], h1 (by simp), h4⟩

end Ocr.Prog
