import Verif.Proof.PrintEndings
import Verif.Props.TextEndings

/-!
# C75: how vote and synctext end, whatever the files
-/

namespace Ocr.Ending
open Text Res Prog Spec AnyText

/-- A run of vote with texts `ts`: 2 to 16 files are named, all are text, and the fractions given are valid.  Flag 1 is `-O`, string 1
is `-s`, string 2 is `-w`. -/
def Polled (U : Unicode) (fs : Fs) (names : List (List Nat)) (ss : List Args.Setting) (ts : List (List Ch)) (cfg : Vote.Config) : Prop :=
  AllRead fs (TextOf U false) names ts ∧ ∃ s w, Given ss 1 s ∧ Given ss 2 w ∧
    Vote.Settings names.length (decide (⟨.flag 1, []⟩ ∈ ss)) s w cfg

section
variable (U : Unicode) (F : UnicodeFacts U) (junk : List Nat) (hj : Bytes junk) (fs : Fs)
  (hfs : ∀ name file, fs name = some file → Bytes file)
include F hfs

/-- C75 (result of a vote).  A vote always has a result; it consists of characters of the texts and of reject characters. -/
theorem c75_result (names : List (List Nat)) (ss : List Args.Setting) (ts : List (List Ch)) (cfg : Vote.Config)
    (h : Polled U fs names ss ts cfg) : ∃ out, Vote.voteTexts U (decide (⟨.flag 1, []⟩ ∈ ss)) cfg ts = .ok out ∧
      ∀ c ∈ out, c.value = 126 ∨ ∃ t ∈ ts, ∃ d ∈ t, d.value = c.value := by
  obtain ⟨hr, s, w, _, _, hcfg⟩ := h
  rw [show names.length = ts.length from hr.length_eq] at hcfg
  refine vote_total F hcfg (fun t ht => ?_)
  obtain ⟨name, file, h1, h2⟩ := allRead_mem hr t ht
  exact textOf_value (hfs _ _ h1) h2

/-- C75 (what fits).  Without option `-s`, or if the texts hold no code points from U+100000 on other than graphic ones, all of the result
fits. -/
theorem c75_fits (names : List (List Nat)) (ss : List Args.Setting) (ts : List (List Ch)) (cfg : Vote.Config)
    (h : Polled U fs names ss ts cfg) (hx : (∀ x, ⟨.value 1, x⟩ ∉ ss) ∨ ∀ t ∈ ts, ∀ c ∈ t, c.value < 0x100000 ∨ is_graphic U c.value = true)
    (out : List Ch) (ho : Vote.voteTexts U (decide (⟨.flag 1, []⟩ ∈ ss)) cfg ts = .ok out) : ∀ c ∈ out, ¬ TooLong U c := by
  intro c hc hl
  rcases hx with hx | hx
  · obtain ⟨hr, s, w, hs, _, hcfg⟩ := h
    rw [show names.length = ts.length from hr.length_eq] at hcfg
    cases s with
    | some x => exact hx x ((hs x).1 rfl)
    | none =>
      have := Vote.c41_unmarked U _ w ts cfg hcfg out ho c hc
      rw [hl.1] at this
      cases this
  · obtain ⟨out', e, hv⟩ := c75_result U F fs hfs names ss ts cfg h
    rw [ho] at e
    cases e
    obtain ⟨_, _, h3, h4⟩ := hl
    rcases hv c hc with e | ⟨t, ht, d, hd, e⟩
    · omega
    · rcases hx t ht d hd with h | h
      · omega
      · rw [e, h3] at h; cases h

include hj

/-- C75 (vote).  There is output exactly if 2 to 16 files are named, all are text, the fractions are valid and the result of the vote
fits; if it does not fit, the program goes astray; in all other cases there is a message. -/
theorem c75_vote (signed : Bool) (prog : List Nat) (args : List (List Nat)) (hprog : prog.length ≤ 32768)
    (hargs : args.length < 32768) (hbytes : ∀ a ∈ args, ∀ b ∈ a, 0 < b ∧ b < 256) : EndsAs (voteProgram U signed junk fs (prog :: args))
    (∃ names ss, CommandLine voteTable prog args names ss ∧ ∃ ts cfg out, Polled U fs names ss ts cfg ∧
      Vote.voteTexts U (decide (⟨.flag 1, []⟩ ∈ ss)) cfg ts = .ok out ∧ ∀ c ∈ out, ¬ TooLong U c)
    (∃ names ss, CommandLine voteTable prog args names ss ∧ ∃ ts cfg out, Polled U fs names ss ts cfg ∧
      Vote.voteTexts U (decide (⟨.flag 1, []⟩ ∈ ss)) cfg ts = .ok out ∧ ∃ c ∈ out, TooLong U c) := by
  refine options_end table_vote hprog hargs (fun a ha h => by have := hbytes a ha 0 h; omega)
    (main := fun names V => if names.length < Vote.MIN_VOTERS ∨ names.length > Vote.MAX_VOTERS then .err "invalid number of voters" else
      forFiles fs (voteFile U junk) names (Vote.textopt, []) >>= fun p =>
      Vote.validate_args signed names.length (V.boolean 1) (V.string 1) (V.string 2) >>= fun cfg =>
      Vote.voteTexts U (V.boolean 1) cfg p.2 >>= fun output => write_text U output none >>= fun bytes =>
        .ok (⟨V.string 0, bytes⟩ : Output)) rfl (fun names ss V hc hV => ?_)
  have hO : V.boolean 1 = decide (⟨.flag 1, []⟩ ∈ ss) := by
    rw [Bool.eq_iff_iff, decide_eq_true_iff]
    exact hV.2 1
  by_cases hn : names.length < Vote.MIN_VOTERS ∨ names.length > Vote.MAX_VOTERS
  · have no : ∀ ts cfg, ¬ Polled U fs names ss ts cfg := by
      rintro ts cfg ⟨_, s, w, _, _, h⟩
      have := h.voters
      unfold Vote.MIN_VOTERS Vote.MAX_VOTERS at hn
      omega
    simp only [if_pos hn]
    exact .err _ rfl (fun ⟨ts, cfg, _, h, _⟩ => no ts cfg h) (fun ⟨ts, cfg, _, h, _⟩ => no ts cfg h)
  · simp only [if_neg hn]
    rcases voters_give U hj hfs names false [] _ rfl with ⟨opt, ts, hr, e⟩ | ⟨no, msg, e⟩
    · rw [show (forFiles fs (voteFile U junk) names (Vote.textopt, [])) = .ok (opt, [] ++ ts) from e, bind_ok, List.nil_append]
      simp only
      have opts := Vote.c42_settings signed (V.boolean 1) names.length (V.string 1) (V.string 2)
        (fun f hf => parse_bytes hc.parse hbytes _ ((hV.1 1 f).1 hf)) (fun f hf => parse_bytes hc.parse hbytes _ ((hV.1 2 f).1 hf))
      rcases opts with ⟨cfg, e', hset⟩ | ⟨no, msg, e'⟩
      · rw [e', bind_ok]
        have hp : Polled U fs names ss ts cfg := ⟨hr, _, _, (given_iff hV 1 _).2 rfl, (given_iff hV 2 _).2 rfl, hO ▸ hset⟩
        obtain ⟨out, ho, hv⟩ := c75_result U F fs hfs names ss ts cfg hp
        have hv' : ∀ c ∈ out, c.value < 0x110000 := by
          intro c hc
          rcases hv c hc with e | ⟨t, ht, d, hd, e⟩
          · omega
          · obtain ⟨name, file, h1, h2⟩ := allRead_mem hr t ht
            rw [← e]
            exact textOf_value (hfs _ _ h1) h2 d hd
        rw [hO, ho, bind_ok]
        have cut : Cut (write_text U out none) (∃ c ∈ out, TooLong U c) := by
          unfold write_text
          exact (writeLoop_cut out hv').map (fun r => ⟨_, rfl⟩)
        have one : ∀ ts' cfg' out', Polled U fs names ss ts' cfg' → Vote.voteTexts U (decide (⟨.flag 1, []⟩ ∈ ss)) cfg' ts' = .ok out' →
            out' = out := by
          rintro ts' cfg' out' ⟨hr', s, w, h1, h2, h3⟩ ho'
          have : ts' = ts := allRead_unique (R := TextOf U false) (fun f o o' h h' => textOf_unique h h') hr' hr
          subst this
          rw [(given_iff hV 1 _).1 h1, (given_iff hV 2 _).1 h2] at h3
          have e1 := validate_eq (signed := signed) h3
          rw [← hO, e'] at e1
          cases e1
          rw [ho] at ho'
          exact (Res.ok.inj ho').symm
        refine (cut.map (fun r => ⟨_, rfl⟩)).ends.imp ⟨fun h => ⟨ts, cfg, out, hp, ho, fun c hc hl => h ⟨c, hc, hl⟩⟩, ?_⟩
          ⟨fun h => ⟨ts, cfg, out, hp, ho, h⟩, ?_⟩
        · rintro ⟨ts', cfg', out', h1, h2, h3⟩
          rw [one ts' cfg' out' h1 h2] at h3
          rintro ⟨c, hc, hl⟩
          exact h3 c hc hl
        · rintro ⟨ts', cfg', out', h1, h2, h3⟩
          rw [one ts' cfg' out' h1 h2] at h3
          exact h3
      · rw [e', bind_err]
        have no' : ∀ ts cfg, ¬ Polled U fs names ss ts cfg := by
          rintro ts cfg ⟨_, s, w, h1, h2, h⟩
          rw [(given_iff hV 1 _).1 h1, (given_iff hV 2 _).1 h2, ← hO] at h
          exact no ⟨cfg, h⟩
        exact .err _ rfl (fun ⟨ts, cfg, _, h, _⟩ => no' ts cfg h) (fun ⟨ts, cfg, _, h, _⟩ => no' ts cfg h)
    · rw [show (forFiles fs (voteFile U junk) names (Vote.textopt, [])) = .err msg from e, bind_err]
      exact .err _ rfl (fun ⟨ts, cfg, _, h, _⟩ => no ⟨ts, h.1⟩) (fun ⟨ts, cfg, _, h, _⟩ => no ⟨ts, h.1⟩)

end

theorem table_synctext : Args.Table [(72, .flag 0), (105, .flag 1), (115, .flag 2), (84, .flag 3)] := ⟨by decide, by decide, by decide⟩

/-- C75 (synctext).  There is a printout exactly if 2 to 16 files (2 with `-T`) are named, all are text, and the printout can be laid out:
without `-T` not all names are empty (or one enormous), and with `-s` no marked character of the texts is too long.  If it cannot be
laid out the program goes astray; in all other cases there is a message.  The ending does not depend on the synchronization chosen. -/
theorem c75_synctext (U : Unicode) (L : Lower U) (junk : List Nat) (hj : Bytes junk) (fs : Fs)
    (hfs : ∀ name file, fs name = some file → Bytes file) (prog : List Nat) (args : List (List Nat))
    (hprog : prog.length ≤ 32768) (hargs : args.length < 32768) (hnul : ∀ a ∈ args, 0 ∉ a) :
    EndsAs (Synctext.synctextMain U junk fs (prog :: args))
    (∃ names ss, CommandLine [(72, .flag 0), (105, .flag 1), (115, .flag 2), (84, .flag 3)] prog args names ss ∧
      ∃ ts, Synchronized U fs names ss ts ∧ (⟨.flag 3, []⟩ ∉ ss → Nameable names) ∧
        (⟨.flag 2, []⟩ ∈ ss → ∀ t ∈ ts, ∀ c ∈ t, ¬ TooLong U c))
    (∃ names ss, CommandLine [(72, .flag 0), (105, .flag 1), (115, .flag 2), (84, .flag 3)] prog args names ss ∧
      ∃ ts, Synchronized U fs names ss ts ∧ ((⟨.flag 3, []⟩ ∉ ss ∧ ¬ Nameable names) ∨
        (⟨.flag 2, []⟩ ∈ ss ∧ ∃ t ∈ ts, ∃ c ∈ t, TooLong U c))) := by
  refine options_end table_synctext hprog hargs hnul
    (main := fun names V => Synctext.run U junk fs (V.boolean 0) (V.boolean 1) (V.boolean 2) (V.boolean 3) names) rfl
    (fun names ss V hc hV => ?_)
  have flag : ∀ v, V.boolean v = decide (⟨.flag v, []⟩ ∈ ss) := by
    intro v
    rw [Bool.eq_iff_iff, decide_eq_true_iff]
    exact hV.2 v
  simp only [flag]
  generalize hH : decide (⟨.flag 0, []⟩ ∈ ss) = H
  generalize hI : decide (⟨.flag 1, []⟩ ∈ ss) = I
  unfold Synctext.run
  by_cases hn : names.length < 2 ∨ (decide (⟨.flag 3, []⟩ ∈ ss) = true ∧ names.length > 2)
  · rw [if_pos hn]
    have no : ∀ ts, ¬ Synchronized U fs names ss ts := by
      rintro ts ⟨h1, h2, _⟩
      rcases hn with h | ⟨h, h'⟩
      · omega
      · rw [if_pos (by simpa using h)] at h2; omega
    exact .err _ rfl (fun ⟨ts, h, _⟩ => no ts h) (fun ⟨ts, h, _⟩ => no ts h)
  rw [if_neg hn]
  refine ((texts_give U hj hfs I names false).then (good := fun ts => names.length ≤ (if ⟨.flag 3, []⟩ ∈ ss then 2 else 16) ∧
      (⟨.flag 3, []⟩ ∉ ss → Nameable names) ∧ (⟨.flag 2, []⟩ ∈ ss → ∀ t ∈ ts, ∀ c ∈ t, ¬ TooLong U c))
    (bad := fun ts => names.length ≤ (if ⟨.flag 3, []⟩ ∈ ss then 2 else 16) ∧ ((⟨.flag 3, []⟩ ∉ ss ∧ ¬ Nameable names) ∨
        (⟨.flag 2, []⟩ ∈ ss ∧ ∃ t ∈ ts, ∃ c ∈ t, TooLong U c))) (fun ts hr => ?_)).imp ?_ ?_
  · have hl : names.length = ts.length := hr.length_eq
    have hv : ∀ t ∈ ts, ∀ c ∈ t, c.value < 0x110000 := by
      intro t ht
      obtain ⟨name, file, h1, h2⟩ := allRead_mem hr t ht
      exact textOf_lower L (hfs _ _ h1) h2
    have h2 : 2 ≤ ts.length := by omega
    have e0 : rd ts 0 = .ok ts[0] := by unfold rd; rw [List.getElem?_eq_getElem (by omega)]
    have e1 : rd ts 1 = .ok ts[1] := by unfold rd; rw [List.getElem?_eq_getElem (by omega)]
    rw [e0, bind_ok, e1, bind_ok]
    by_cases hT : ⟨.flag 3, []⟩ ∈ ss
    · have hl2 : ts.length = 2 := by
        have : ¬ names.length > 2 := fun h => hn (.inr ⟨by simpa using hT, h⟩)
        omega
      have hts : ts = [ts[0], ts[1]] := by
        rcases ts with _ | ⟨x, _ | ⟨y, _ | ⟨z, r⟩⟩⟩
        · simp at hl2
        · simp at hl2
        · rfl
        · simp at hl2
      rw [if_pos (by simpa using hT)]
      obtain ⟨r, a1, a2, a3, _⟩ := Sync.c20_transpose (ts[0].map Ch.value) (ts[1].map Ch.value)
      rw [a1, bind_ok]
      have c0 := transposedLoop_cut (U := U) (sh := decide (⟨.flag 2, []⟩ ∈ ss)) (cells := r.cells) (hv ts[0] (List.getElem_mem _)) r.items1
        (Synctext.sound_of_alignment (texts := [ts[0]]) a2)
      have c1 := transposedLoop_cut (U := U) (sh := decide (⟨.flag 2, []⟩ ∈ ss)) (cells := r.cells) (hv ts[1] (List.getElem_mem _)) r.items2
        (Synctext.sound_of_alignment (texts := [ts[1]]) a3)
      have cut := (c0.map (k := fun body => .ok (Synctext.write_separator ++ [10] ++ body ++ [10])) (fun b => ⟨_, rfl⟩)).bind (fun out1 _ =>
        (c1.map (k := fun body => .ok (Synctext.write_separator ++ [10] ++ body ++ [10])) (fun b => ⟨_, rfl⟩)).map
          (k := fun out2 => .ok (out1 ++ out2 ++ Synctext.write_separator)) (fun b => ⟨_, rfl⟩))
      rw [single_iff a2, single_iff a3] at cut
      have key : (decide ((⟨.flag 2, []⟩ : Args.Setting) ∈ ss) = true ∧ (∃ c ∈ ts[0], TooLong U c) ∨
          decide ((⟨.flag 2, []⟩ : Args.Setting) ∈ ss) = true ∧ ∃ c ∈ ts[1], TooLong U c) ↔
          (⟨.flag 2, []⟩ ∈ ss ∧ ∃ t ∈ ts, ∃ c ∈ t, TooLong U c) := by
        rw [decide_eq_true_iff, ← and_or_left]
        refine and_congr_right' ?_
        constructor
        · rintro (h | h)
          · exact ⟨_, List.getElem_mem _, h⟩
          · exact ⟨_, List.getElem_mem _, h⟩
        · rintro ⟨t, ht, h⟩
          rw [hts] at ht
          simp only [List.mem_cons, List.not_mem_nil, or_false] at ht
          rcases ht with rfl | rfl
          · exact .inl h
          · exact .inr h
      have hle : names.length ≤ 2 := by omega
      refine (cut.imp key).ends.imp ?_ ?_
      · rw [if_pos hT]
        constructor
        · intro h
          exact ⟨hle, fun h => absurd hT h, fun hs t ht c hc hl => h ⟨hs, t, ht, c, hc, hl⟩⟩
        · rintro ⟨_, _, h⟩ ⟨hs, t, ht, c, hc, hl⟩
          exact h hs t ht c hc hl
      · rw [if_pos hT]
        constructor
        · intro h
          exact ⟨hle, .inr h⟩
        · rintro ⟨_, ⟨h, _⟩ | h⟩
          · exact absurd hT h
          · exact h
    · rw [if_neg (by simpa using hT)]
      by_cases h16 : 16 < names.length
      · obtain ⟨msg, e⟩ := Sync.c19_refuses (ts.map (fun t => t.map Ch.value)) (.inr (by rw [List.length_map]; omega))
        rw [if_pos (.inr (by omega)), e, bind_err, if_neg hT]
        exact .err _ rfl (fun h => by omega) (fun h => by omega)
      · obtain ⟨r, er, ha⟩ : ∃ r, (if H = true ∨ names.length > 2 then Sync.synchronize (ts.map (fun t => t.map Ch.value))
            else Sync.fastukk_sync ts[0] ts[1]) = .ok r ∧ Sync.IsAlignment (ts.map (fun t => t.map Ch.value)) r.items := by
          by_cases hc : H = true ∨ names.length > 2
          · rw [if_pos hc]
            obtain ⟨r, a1, a2, _⟩ := Sync.c19_alignment (ts.map (fun t => t.map Ch.value)) (by rw [List.length_map]; omega) (by rw [List.length_map]; omega)
            exact ⟨r, a1, a2⟩
          · rw [if_neg hc]
            obtain ⟨r, a1, a2, _⟩ := Sync.fastukk_spec ts[0] ts[1]
            have hts : ts = [ts[0], ts[1]] := by
              have hl2 : ts.length = 2 := by omega
              rcases ts with _ | ⟨x, _ | ⟨y, _ | ⟨z, r⟩⟩⟩
              · simp at hl2
              · simp at hl2
              · rfl
              · simp at hl2
            exact ⟨r, a1, by rw [hts]; exact a2⟩
        rw [er, bind_ok]
        have hsound := Synctext.sound_of_alignment ha
        have cd : Cut (Synctext.write_differences U (decide (⟨.flag 2, []⟩ ∈ ss)) r.items ts names)
            (¬ Nameable names ∨ ∃ s ∈ r.items, s.mtch = none ∧ ∃ t, t < ts.length ∧ ∃ c ∈ Sync.piece (ts.getD t []) (s.sub t),
              Shown U (decide (⟨.flag 2, []⟩ ∈ ss)) c) := by
          unfold Synctext.write_differences
          by_cases hN : Nameable names
          · rw [if_neg (fun h => (nameable_iff names).1 h hN)]
            exact (differencesLoop_cut hl hv r.items hsound 0).imp (by simp [hN])
          · rw [if_pos ((nameable_iff names).2 hN)]
            exact ⟨fun _ => rfl, fun h => absurd (.inl hN) h⟩
        have cm := matchesLoop_cut (U := U) (sh := decide (⟨.flag 2, []⟩ ∈ ss)) (by omega) hv r.items hsound 0
        have cut := (cm.map (k := fun body => .ok (Synctext.write_separator ++ [10] ++ body ++ [10])) (fun b => ⟨_, rfl⟩)).bind (fun out1 _ =>
          cd.map (k := fun out2 => .ok (out1 ++ out2 ++ Synctext.write_separator)) (fun b => ⟨_, rfl⟩))
        rw [or_left_comm, printed_iff (by omega) ha, decide_eq_true_iff] at cut
        refine cut.ends.imp ?_ ?_
        · rw [if_neg hT]
          constructor
          · intro h
            exact ⟨by omega, fun _ => by by_contra hN; exact h (.inl hN), fun hs t ht c hc hl => h (.inr ⟨hs, t, ht, c, hc, hl⟩)⟩
          · rintro ⟨_, h1, h2⟩ (h | ⟨hs, t, ht, c, hc, hl⟩)
            · exact h (h1 hT)
            · exact h2 hs t ht c hc hl
        · rw [if_neg hT]
          constructor
          · rintro (h | h)
            · exact ⟨by omega, .inl ⟨hT, h⟩⟩
            · exact ⟨by omega, .inr h⟩
          · rintro ⟨_, ⟨_, h⟩ | h⟩
            · exact .inl h
            · exact .inr h
  · subst hI
    constructor
    · rintro ⟨ts, hr, h1, h2⟩
      exact ⟨ts, ⟨by omega, h1, hr⟩, h2⟩
    · rintro ⟨ts, ⟨_, h1, hr⟩, h2⟩
      exact ⟨ts, hr, h1, h2⟩
  · subst hI
    constructor
    · rintro (h | ⟨ts, hr, h1, h2⟩)
      · exact h.elim
      · exact ⟨ts, ⟨by omega, h1, hr⟩, h2⟩
    · rintro ⟨ts, ⟨_, h1, hr⟩, h2⟩
      exact .inr ⟨ts, hr, h1, h2⟩

/-! ## Non-vacuity -/

/-- `A` and U+10FFFF marked suspect. -/
def textM : List Nat := [65, 94, 0xF4, 0x8F, 0xBF, 0xBF]

theorem xmz_bytes : ∀ name file, threeFiles textX textM textZ name = some file → Bytes file :=
  three_bytes (bytes_ascii (by decide +kernel)) (bytes_ascii (by decide +kernel)) (bytes_ascii (by decide +kernel))

theorem of_m : TextOf sampleUnicode false textM [⟨false, 65⟩, ⟨true, 0x10FFFF⟩] := text_of (by decide +kernel) (pageText false) (by decide +kernel)

theorem long_m : TooLong sampleUnicode ⟨true, 0x10FFFF⟩ := by unfold TooLong; decide +kernel

/-- A command line with one option, `-s1/1`. -/
theorem all_line : CommandLine voteTable (ascii "vote") [ascii "-s1/1", ascii "z", ascii "z"] [ascii "z", ascii "z"] [⟨.value 1, ascii "1/1"⟩] :=
  ⟨by decide +kernel, by decide +kernel, by decide +kernel, by simp,
    .attached (c := 115) (x := 49) (r := ascii "/1") (by unfold Args.Help; decide +kernel) (by decide)
      (.operand (by rintro ⟨c, r, e⟩; simp [ascii] at e) (.operand (by rintro ⟨c, r, e⟩; simp [ascii] at e) .nil)), by simp [Args.Once]⟩

theorem polled_all : Polled sampleUnicode (threeFiles textX textM textZ) [ascii "z", ascii "z"] [⟨.value 1, ascii "1/1"⟩]
    [[⟨false, 99⟩, ⟨false, 0x10FFFF⟩], [⟨false, 99⟩, ⟨false, 0x10FFFF⟩]] ⟨2, 2, 1, 1⟩ :=
  ⟨.cons ⟨_, file_z _ _ _, of_z⟩ (.cons ⟨_, file_z _ _ _, of_z⟩ .nil), some (ascii "1/1"), none, by intro x; simp [eq_comm], by intro x; simp,
    ⟨by decide, by decide +kernel, .inl ⟨rfl, rfl, rfl⟩, .inr ⟨_, 1, 1, rfl, ⟨by omega, by omega, by omega, by decide⟩, by decide⟩⟩⟩

/-- With all characters marked, U+10FFFF is too long; without marks it is written. -/
example : voteProgram sampleUnicode true [] (threeFiles textX textM textZ) [ascii "vote", ascii "-s1/1", ascii "z", ascii "z"] = .ub ∧
    ∃ out, voteProgram sampleUnicode true [] (threeFiles textX textM textZ) [ascii "vote", ascii "y", ascii "z"] = .ok out := by
  have L := pair_line voteTable "vote" "y" "z" (by decide +kernel) (by decide +kernel) (by decide +kernel)
  refine ⟨(c75_vote _ sampleFacts [] (by simp [Bytes]) _ xmz_bytes true _ _ all_line.prog all_line.many (by decide +kernel)).astray.2
    ⟨_, _, all_line, _, _, [⟨true, 99⟩, ⟨true, 0x10FFFF⟩], polled_all, by decide +kernel, _, by simp, long_m⟩, ?_⟩
  have P : Polled sampleUnicode (threeFiles textX textM textZ) [ascii "y", ascii "z"] []
      [[⟨false, 65⟩, ⟨true, 0x10FFFF⟩], [⟨false, 99⟩, ⟨false, 0x10FFFF⟩]] ⟨2, 0, 1, 1⟩ :=
    ⟨.cons ⟨_, file_y _ _ _, of_m⟩ (.cons ⟨_, file_z _ _ _, of_z⟩ .nil), none, none, by intro x; simp, by intro x; simp,
      ⟨by decide, by decide +kernel, .inl ⟨rfl, rfl, rfl⟩, .inl ⟨rfl, rfl⟩⟩⟩
  obtain ⟨out, ho, _⟩ := c75_result _ sampleFacts _ xmz_bytes _ _ _ _ P
  exact (c75_vote _ sampleFacts [] (by simp [Bytes]) _ xmz_bytes true _ _ L.prog L.many (by decide +kernel)).output.2
    ⟨_, _, L, _, _, out, P, ho, c75_fits _ sampleFacts _ xmz_bytes _ _ _ _ P (.inl (by simp)) out ho⟩

/-- A command line of synctext with `-s`. -/
theorem marks_line (a b : String) (ha : 0 ∉ ascii a ∧ 45 ∉ ascii a) (hb : 0 ∉ ascii b ∧ 45 ∉ ascii b) :
    CommandLine [(72, .flag 0), (105, .flag 1), (115, .flag 2), (84, .flag 3)] (ascii "synctext") [ascii "-s", ascii a, ascii b]
      [ascii a, ascii b] [⟨.flag 2, []⟩] :=
  ⟨by decide +kernel, by simp, by
      intro x hx
      simp at hx
      rcases hx with rfl | rfl | rfl
      · decide +kernel
      · exact ha.1
      · exact hb.1, by simp,
    .flag (by unfold Args.Help; decide +kernel) (by decide)
      (.operand (by rintro ⟨c, r, e⟩; rw [e] at ha; simp at ha) (.operand (by rintro ⟨c, r, e⟩; rw [e] at hb; simp at hb) .nil)), by simp [Args.Once]⟩

/-- With `-s`, a marked U+10FFFF leads synctext astray, an unmarked one does not. -/
example : Synctext.synctextMain sampleUnicode [] (threeFiles textX textM textZ) [ascii "synctext", ascii "-s", ascii "x", ascii "y"] = .ub ∧
    ∃ out, Synctext.synctextMain sampleUnicode [] (threeFiles textX textM textZ) [ascii "synctext", ascii "-s", ascii "x", ascii "z"] = .ok out := by
  have L1 := marks_line "x" "y" (by decide +kernel) (by decide +kernel)
  have L2 := marks_line "x" "z" (by decide +kernel) (by decide +kernel)
  refine ⟨(c75_synctext _ lower_sample [] (by simp [Bytes]) _ xmz_bytes _ _ L1.prog L1.many L1.nul).astray.2
      ⟨_, _, L1, [plain "The cat", [⟨false, 65⟩, ⟨true, 0x10FFFF⟩]], ⟨by simp, by simp, ?_⟩,
        .inr ⟨by simp, [⟨false, 65⟩, ⟨true, 0x10FFFF⟩], by simp, ⟨true, 0x10FFFF⟩, by simp, long_m⟩⟩,
    (c75_synctext _ lower_sample [] (by simp [Bytes]) _ xmz_bytes _ _ L2.prog L2.many L2.nul).output.2
      ⟨_, _, L2, [plain "The cat", [⟨false, 99⟩, ⟨false, 0x10FFFF⟩]], ⟨by simp, by simp, ?_⟩,
        fun _ => ⟨⟨ascii "x", by simp, by decide +kernel⟩, ?_⟩, fun _ => ?_⟩⟩
  · exact .cons ⟨_, rfl, of_x⟩ (.cons ⟨_, file_y _ _ _, of_m⟩ .nil)
  · exact .cons ⟨_, rfl, of_x⟩ (.cons ⟨_, file_z _ _ _, of_z⟩ .nil)
  · intro f hf
    have : f.length = 1 := by
      simp only [List.mem_cons, List.not_mem_nil, or_false] at hf
      rcases hf with rfl | rfl <;> decide +kernel
    omega
  · have : ∀ t ∈ [plain "The cat", [⟨false, 99⟩, ⟨false, 0x10FFFF⟩]], ∀ c ∈ t, c.suspect = false := by decide +kernel
    intro t ht c hc hl
    have h := hl.1
    rw [this t ht c hc] at h
    cases h

end Ocr.Ending
