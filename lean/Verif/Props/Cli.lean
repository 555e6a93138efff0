import Verif.Proofs.CliMain
import Verif.Proofs.Presents
import Verif.Props.Bulk
import Verif.Props.Formats

/-! # The command line (C47, C48) -/

namespace Verif.Props

open Spec

variable {s : Sys} {io : Io} {v : CliEnv} {opts : List CliOpt} {input : List UInt8} {m : Method} {p : Params} {fuel : ℕ} {w w' : World} {W H k : ℕ}
  {frames sel : List (List Fl)} {e : RDError} {vb : ℤ}

/-- **C47** An option that ends the command decides its exit status: the first such one. -/
theorem C47_ends {code : ℤ} {input : Option (List UInt8)} (h : Ends io opts code) :
    (code = 0 ∨ code = 1) ∧ ∃ shown, (shown = .info ∨ shown = .nothing) ∧ cliMain s io v fuel opts input w = some (⟨code, shown⟩, w) := by
  rcases options_cases s.cfg io opts with ⟨⟨code', shown⟩, h1, h2, h3, h4⟩ | ⟨st, _, _, hg⟩
  · cases ends_unique h h2
    refine ⟨h3, shown, h4, ?_⟩
    unfold cliMain
    rw [h1]
    rfl
  · exact absurd h (hg.not_ends code)

example : Ends Demo.io [.v (cs "1"), .n (cs "0"), .h] 1 := by
  refine ⟨[.v (cs "1")], .n (cs "0"), [.h], rfl, .count ?_, ?_⟩
  · rintro k hk ⟨neg, n, hn, h⟩
    obtain ⟨_, _, rfl⟩ := number_iff.mp hn
    rcases h with ⟨h, _⟩ | ⟨_, _, h⟩ | ⟨_, _, h, _⟩
    · revert h; decide
    · exact hk h
    · exact h (by decide)
  · rintro b1 o1 a1 c h hend
    cases b1 with
    | nil => simp only [List.nil_append, List.cons.injEq] at h; obtain ⟨rfl, _⟩ := h; cases hend
    | cons => simp at h

/-- **C47** Options that cannot be used, or no file name: exit status 1 and no output. -/
theorem C47_unusable (hw : w.WF) (hg : ∀ code, ¬ Ends io opts code) :
    cliMain s io v fuel opts none w = some (⟨1, .nothing⟩, w) ∧
    ((∀ m p, ¬ Wants s.cfg io v opts input m p) → ∃ w', cliMain s io v fuel opts (some input) w = some (⟨1, .nothing⟩, w')) := by
  refine ⟨?_, fun hn => cliMain_unusable hw hg hn⟩
  rcases options_cases s.cfg io opts with ⟨e, _, h, _⟩ | ⟨st, h1, _, _⟩
  · exact absurd h (hg _)
  · unfold cliMain
    rw [h1]
    rfl

/-- The functions of the C library for examples: no text is a number for `strtod`. -/
def Demo.cliEnv : CliEnv := ⟨fun _ => none, fun _ => "error"⟩

example : Demo.w0.WF ∧ (∀ code, ¬ Ends Demo.io [.m (cs "none")] code) ∧
    ∀ m p, ¬ Wants Demo.sys.cfg Demo.io Demo.cliEnv [.m (cs "none")] (cs "a.pgm") m p := by
  refine ⟨Demo.w0_wf, ?_, ?_⟩
  · refine Goes.not_ends (fun b1 o1 a1 code h hend => ?_)
    cases b1 with
    | nil => simp only [List.nil_append, List.cons.injEq] at h; obtain ⟨rfl, _⟩ := h; cases hend
    | cons => simp at h
  · rintro m p ⟨_, h, _⟩
    rcases h with ⟨h, _⟩ | ⟨h1, h2⟩
    · revert h; decide
    · unfold methods at h1
      simp only [List.mem_cons, List.not_mem_nil, or_false] at h1
      rcases h1 with rfl | rfl | rfl | rfl <;> revert h2 <;> decide

/-- A success: the analysis of an image of this size returned lists, which are printed. -/
structure Success (s : Sys) (m : Method) (p : Params) (W H : ℕ) (vb : ℤ) (ev : List (Call × Obs)) (a : Analysis) (l1 l2 : List Res) (ex : Exit) : Prop where
  returned : Returned s (some m) W H (some p) ev a (some l1) l1.length (some l2) l2.length
  prints : Prints vb W H l1 l2 ex.shown
  code : ex.code = if vb = 0 ∧ l1.length = 1 ∧ l2.length = 1 then 1 else 0

theorem valid_method (hW : Wants s.cfg io v opts input m p) : ValidMethod? (some m) := fun x hx => by cases hx; exact wantsMethod_mem hW.method

theorem valid_params (hs : Build s) (hW : Wants s.cfg io v opts input m p) : ValidParams? s.cfg (some p) := fun q hq => by
  cases hq; exact hW.valid hs.wf

theorem success_of_shown (hs : Build s) (hm : ValidMethod? (some m)) (hp : ValidParams? s.cfg (some p)) {ev : List (Call × Obs)} {a : Analysis}
    {l1 l2 : List Res} {shown : Shown} (hr : Returned s (some m) W H (some p) ev a (some l1) l1.length (some l2) l2.length)
    (h : cliShow s.cfg vb l1 l2 l1.length l2.length = some shown) :
    Success s m p W H vb ev a l1 l2 ⟨if vb = 0 ∧ l1.length = 1 ∧ l2.length = 1 then 1 else 0, shown⟩ := by
  obtain ⟨h1, h2⟩ := C01_sorted_sentinel hs hm hp hr
  obtain ⟨_, i1, e1, _⟩ := h1 l1 rfl
  obtain ⟨_, i2, e2, _⟩ := h2 l2 rfl
  obtain ⟨hreach, c, a', hl, hstep⟩ := hr
  have hinv := reach_inv hs hm hp hreach
  have hlen : l1.length ≤ s.cfg.sizeMax ∧ l2.length ≤ s.cfg.sizeMax := by
    obtain ⟨ptr, _, _, _, _, _, k1, k2, _, _⟩ := results_obs hs hinv.good hl hstep
    have hg := hinv.good
    split at k1
    · split at k2
      · cases k1; cases k2
        exact ⟨dimList_length hs hg.threshold hg.x (le_trans (Nat.le_mul_of_pos_right _ hg.height_pos) hg.pixels) (le_trans hg.sideX sideMax_le),
          dimList_length hs hg.threshold hg.y (le_trans (Nat.le_mul_of_pos_left _ hg.width_pos) hg.pixels) (le_trans hg.sideY sideMax_le)⟩
      · cases k2
    · cases k1
  obtain ⟨out, h3, h4⟩ := cliShow_ok (vb := vb) hlen.1 hlen.2 e1 e2
  rw [h] at h3
  cases h3
  exact ⟨⟨hreach, c, a', hl, hstep⟩, h4, rfl⟩

/-- **C47** Otherwise the command fails with exit status 1 and no output, or the image was opened, every frame read was analysed,
and the lists found are printed; then the exit status is 0, except for `-v 0` when both lists hold only the image's own size. -/
theorem C47_success (hio : io.Contract s.cfg) (hs : Build s) (hw : w.WF) (hW : Wants s.cfg io v opts input m p) (hv : Verbosity s.cfg opts vb)
    {ex : Exit} (h : cliMain s io v fuel opts (some input) w = some (ex, w')) :
    ex = ⟨1, .nothing⟩ ∨ ∃ W H ev a l1 l2, Success s m p W H vb ev a l1 l2 ex ∧ (∀ o ∈ ev, o.2 = .analyzed RDEOK) ∧
      ∃ w1 o w2, w1.WF ∧ opening s io opts input w1 = some (o, w2) ∧ o.error = RDEOK ∧ o.width = W ∧ o.height = H := by
  have hm := valid_method hW
  have hp := valid_params hs hW
  have key : Act True True [] [] (cliMain s io v fuel opts (some input)) (fun ex _ _ =>
      ex = ⟨1, .nothing⟩ ∨ ∃ W H ev a l1 l2, Success s m p W H vb ev a l1 l2 ex ∧ (∀ o ∈ ev, o.2 = .analyzed RDEOK) ∧
        ∃ w1 o w2, w1.WF ∧ opening s io opts input w1 = some (o, w2) ∧ o.error = RDEOK ∧ o.width = W ∧ o.height = H) := by
    refine cliMain_act hW (fun st p0 block hst hp0 => ?_) (fun _ => Or.inl rfl)
    refine Act.mono (cliRun_safe hs hio (wantsMethod_mem hW.method) (by rw [hp0]; exact hp)) ?_
    rintro ex _ _ ⟨_, h | ⟨W, H, ⟨w1, o, w2, h1, h2, h3, h4, h5⟩, hd⟩⟩
    · exact Or.inl h
    · rw [hp0, verbosity_eq hs.wf hst hv] at hd
      rw [cliOpen_eq hst] at h2
      cases hd with
      | ok ev a ct l1 l2 shown hK _ hr hshow =>
        exact Or.inr ⟨W, H, ev, a, l1, l2, success_of_shown hs hm hp hr hshow, hK rfl, w1, o, w2, h1, h2, h3, h4, h5⟩
      | _ => exact Or.inl rfl
  rcases key w w (Own.init hw (fun _ _ => trivial)) with ⟨h1, _⟩ | ⟨a, w1, _, _, h1, _, h2⟩
  · rw [h] at h1; cases h1
  · rw [h] at h1
    cases h1
    exact h2

/-- Options that select the second frame. -/
def Demo.second : List CliOpt := [.v (cs "0"), .o (cs "1"), .n (cs "1")]

/-- The default method. -/
def Demo.sign : Method := ⟨"sign", .sign, binary32.deliver false (55 / 100)⟩

theorem Demo.counts_one : Counts (cs "1") 1 := strtou_iff.mp (by decide)

theorem Demo.second_wants : Wants Demo.sys.cfg Demo.io Demo.cliEnv Demo.second (cs "a.y4m") Demo.sign (defaultParams Demo.sys.cfg) where
  goes := by
    refine Goes.not_ends (fun b1 o1 a1 code h hend => ?_)
    rcases b1 with _ | ⟨_, _ | ⟨_, _ | ⟨_, b1⟩⟩⟩ <;> simp [Demo.second] at h
    · obtain ⟨rfl, _⟩ := h; cases hend
    · obtain ⟨_, rfl, _⟩ := h
      cases hend with
      | offset h => exact h 1 Demo.counts_one
    · obtain ⟨_, _, rfl, _⟩ := h
      cases hend with
      | count h => exact h 1 (by decide) Demo.counts_one
  method := Or.inl ⟨by decide, rfl⟩
  threshold := Or.inl ⟨by decide, rfl⟩
  range := Or.inl ⟨by decide, rfl⟩
  filter := Or.inl ⟨by decide, rfl⟩
  one := Or.inl (by decide)

theorem Demo.second_verbosity : Verbosity Demo.sys.cfg Demo.second 0 :=
  Or.inr ⟨cs "0", false, 0, by decide, number_iff.mpr ⟨by decide, by decide, by decide⟩, Nat.zero_le _, rfl⟩

example : Demo.io.Contract Demo.sys.cfg ∧ Build Demo.sys ∧ Demo.w0.WF ∧
    Wants Demo.sys.cfg Demo.io Demo.cliEnv Demo.second (cs "a.y4m") Demo.sign (defaultParams Demo.sys.cfg) ∧
    Verbosity Demo.sys.cfg Demo.second 0 ∧
    (cliMain Demo.sys Demo.io Demo.cliEnv 3 Demo.second (some (cs "a.y4m")) Demo.w0).map (fun r => (r.1.code, r.1.shown == .nothing)) = some (1, true) :=
  ⟨Demo.io_contract _, Demo.sys_build, Demo.w0_wf, Demo.second_wants, Demo.second_verbosity, by decide +kernel⟩

/-- **C47** An argument of `-v` that is not a number is taken as 0: the command then behaves in every respect as with `-v 0`. -/
theorem C47_verbosity_fails : ∃ a, (∀ neg n, ¬ Number a neg n) ∧ ∀ (s : Sys) (io : Io) (v : CliEnv) (fuel : ℕ) (opts : List CliOpt) (input : Option (List UInt8)),
    s.cfg.WF → cliMain s io v fuel (.v a :: opts) input = cliMain s io v fuel (.v (cs "0") :: opts) input := by
  refine ⟨cs "abc", fun neg n h => (number_iff.mp h).1 (by decide), fun s io v fuel opts input hc => ?_⟩
  have h1 : strtol s.cfg (cs "abc") = strtol s.cfg (cs "0") := by
    unfold strtol
    rw [show subject (cs "abc") = (false, []) by decide, show subject (cs "0") = (false, [48]) by decide]
    simp only [show Stream.decimal [] = 0 by decide, show Stream.decimal [48] = 0 by decide]
  have h2 : cliOptions s.cfg io (.v (cs "abc") :: opts) {} = cliOptions s.cfg io (.v (cs "0") :: opts) {} := by
    simp only [cliOptions, h1]
  unfold cliMain
  rw [h2]

theorem strtol_value {c : Cfg} {a : List UInt8} {neg : Bool} {n : ℕ} (h : Number a neg n) : strtol c a = longValue c neg n := by
  obtain ⟨_, rfl, rfl⟩ := number_iff.mp h
  unfold strtol longValue
  generalize subject a = q
  obtain ⟨neg, ds⟩ := q
  simp only
  split_ifs <;> omega

/-- **C47** Numbers for `-v` that do not fit `int` are taken modulo its range, after those that do not fit `long` were replaced by the nearest one that
does: numbers that are equal then have the same effect in every respect. -/
theorem C47_wraps {a a' : List UInt8} {neg neg' : Bool} {n n' : ℕ} (h : Number a neg n) (h' : Number a' neg' n')
    (heq : longValue s.cfg neg n ≡ longValue s.cfg neg' n' [ZMOD 2 * (s.cfg.intMax + 1)]) {v : CliEnv} {fuel : ℕ} {before after : List CliOpt}
    {input : Option (List UInt8)} :
    cliMain s io v fuel (before ++ .v a :: after) input = cliMain s io v fuel (before ++ .v a' :: after) input := by
  have h1 : toInt s.cfg (strtol s.cfg a) = toInt s.cfg (strtol s.cfg a') := by
    rw [strtol_value h, strtol_value h']
    unfold toInt
    rw [Int.ModEq.add_right _ heq]
  have h2 : ∀ st, cliOptions s.cfg io (before ++ .v a :: after) st = cliOptions s.cfg io (before ++ .v a' :: after) st := by
    induction before with
    | nil => intro st; simp only [List.nil_append, cliOptions, h1]
    | cons o before ih => intro st; cases o <;> simp only [List.cons_append, cliOptions, ih]
  unfold cliMain
  rw [h2]

/-- **C47** With 32 bit `int` and 64 bit `long`, a very large verbosity is like -1, the default, and a very small one is like 0, no output at all. -/
theorem C47_overflow_fails : ∃ (c : Cfg) (a a' : List UInt8) (n : ℕ), c.WF ∧ Number a false n ∧ Number a' true n ∧ c.intMax < n ∧
    ∀ (s : Sys) (io : Io) (v : CliEnv) (fuel : ℕ) (before after : List CliOpt) (input : Option (List UInt8)), s.cfg = c →
      cliMain s io v fuel (before ++ .v a :: after) input = cliMain s io v fuel (before ++ .v (cs "-1") :: after) input ∧
      cliMain s io v fuel (before ++ .v a' :: after) input = cliMain s io v fuel (before ++ .v (cs "0") :: after) input := by
  have n1 : Number (cs "99999999999999999999") false 99999999999999999999 := number_iff.mpr ⟨by decide, by decide, by decide⟩
  have n2 : Number (cs "-99999999999999999999") true 99999999999999999999 := number_iff.mpr ⟨by decide, by decide, by decide⟩
  have n3 : Number (cs "-1") true 1 := number_iff.mpr ⟨by decide, by decide, by decide⟩
  have n4 : Number (cs "0") false 0 := number_iff.mpr ⟨by decide, by decide, by decide⟩
  refine ⟨Demo.sys.cfg, _, _, _, Demo.sys_build.wf, n1, n2, by decide, ?_⟩
  intro s io v fuel before after input hc
  exact ⟨C47_wraps n1 n3 (by rw [hc]; decide), C47_wraps n2 n4 (by rw [hc]; decide)⟩

theorem counts_unique {t : List UInt8} {a b : ℕ} (h1 : Counts t a) (h2 : Counts t b) : a = b := by
  have e1 := (strtou_iff (max := 2 ^ 64 - 1)).mpr h1
  have e2 := (strtou_iff (max := 2 ^ 64 - 1)).mpr h2
  rw [e1] at e2
  exact Option.some.inj e2

theorem offset_eq {st : CliState} (hst : Parsed s.cfg opts st) (hk : Skips opts k) : st.offset = k := by
  rcases hst.offset with ⟨h1, h2⟩ | ⟨a, h1, h2⟩ <;> rcases hk with ⟨h3, h4⟩ | ⟨b, h3, h4⟩
  · rw [h2, h4]
  · rw [h1] at h3; cases h3
  · rw [h1] at h3; cases h3
  · rw [h1] at h3; cases h3
    exact counts_unique h2 h4

theorem window_of_yields {st : CliState} (hio : Inbuilt s io (opening s io opts input)) (hst : Parsed s.cfg opts st)
    (hy : YieldsAfter (opening s io opts input) k W H frames e) :
    ∃ name r Ok x out, Window s io (opening s io opts input) name k W H r Ok x out ∧ out.1 = true ∧ out.2.2.frames s W H = (frames, some e) := by
  obtain ⟨i, buf, w1, h1, _⟩ := hy ⟨[], [], 0, fun _ => true⟩ (by constructor <;> simp) (fun _ => rfl)
  have hu := hio.usable
  rw [← cliOpen_eq hst] at hu h1 hy ⊢
  obtain ⟨name, r, Ok, hb, hop⟩ := cliOpen_with hu (by constructor <;> simp) h1 rfl
  obtain ⟨x, out, h⟩ := window_of_after hb hop hy
  exact ⟨name, r, Ok, x, out, h⟩

open Classical in
/-- The command on a file that yields frames and then `e` after skipping `k`; `F` follows if memory runs out. -/
theorem cli_core {F : Prop} {e0 : RDError} (hs : Build s) (hw : w.WF) (hW : Wants s.cfg io v opts input m p) (hv : Verbosity s.cfg opts vb)
    (hk : Skips opts k) (hx : ∀ st, Parsed s.cfg opts st → ∃ r Ok G G0, Outlook s (opening s io opts input) k W H r Ok F G G0 frames e true e0)
    (hF : LinesTooBig s.cfg W H → F) (hj : ∀ j, w.sched j = false → F)
    (hsel : Selects opts frames sel) (hfuel : frames.length < fuel)
    (hlen : frames.length < s.cfg.sizeMax) (he : e ≠ RDEOK → -(s.cfg.intMax : ℤ) ≤ e ∧ e ≤ resdetGetMaxError) :
    ∃ ex w', cliMain s io v fuel opts (some input) w = some (ex, w') ∧
      (ex = ⟨1, .nothing⟩ ∨ ∃ ev a l1 l2, Success s m p W H vb ev a l1 l2 ex ∧ Fed sel RDEOK ev) ∧
      (¬ F →
        ((expected s W H ≠ RDEOK ∨ frameError W H sel ≠ RDEOK ∨ sel = [] ∨ (e ≠ RDEOK ∧ ¬ ∃ n, Limits opts n ∧ n ≤ frames.length)) → ex = ⟨1, .nothing⟩) ∧
        (¬ (expected s W H ≠ RDEOK ∨ frameError W H sel ≠ RDEOK ∨ sel = [] ∨ (e ≠ RDEOK ∧ ¬ ∃ n, Limits opts n ∧ n ≤ frames.length)) →
          ∃ ev a l1 l2, Success s m p W H vb ev a l1 l2 ex ∧ Fed sel RDEOK ev ∧ ∀ x ∈ ev, Plenty x.1.world)) := by
  have hm := valid_method hW
  have hp := valid_params hs hW
  have nomem : ∀ {P : Prop}, F → ¬ F → P := fun h hn => absurd h hn
  have key : Act False F [] [] (cliMain s io v fuel opts (some input)) (fun ex _ _ =>
      (ex = ⟨1, .nothing⟩ ∨ ∃ ev a l1 l2, Success s m p W H vb ev a l1 l2 ex ∧ Fed sel RDEOK ev) ∧
      (¬ F →
        ((expected s W H ≠ RDEOK ∨ frameError W H sel ≠ RDEOK ∨ sel = [] ∨ (e ≠ RDEOK ∧ ¬ ∃ n, Limits opts n ∧ n ≤ frames.length)) → ex = ⟨1, .nothing⟩) ∧
        (¬ (expected s W H ≠ RDEOK ∨ frameError W H sel ≠ RDEOK ∨ sel = [] ∨ (e ≠ RDEOK ∧ ¬ ∃ n, Limits opts n ∧ n ≤ frames.length)) →
          ∃ ev a l1 l2, Success s m p W H vb ev a l1 l2 ex ∧ Fed sel RDEOK ev ∧ ∀ x ∈ ev, Plenty x.1.world))) := by
    refine cliMain_act hW (fun st p0 block hst hp0 => ?_) (fun h => ⟨Or.inl rfl, fun a => nomem h a⟩)
    obtain ⟨r, Ok, G, G0, hx⟩ := hx st hst
    rw [← offset_eq hst hk, ← cliOpen_eq hst] at hx
    have hlim : sel = (if st.nframes = 0 then frames else frames.take st.nframes) ∧
        ((∃ n, Limits opts n ∧ n ≤ frames.length) ↔ st.nframes ≠ 0 ∧ st.nframes ≤ frames.length) := by
      rcases hst.nframes with ⟨h1, h2⟩ | ⟨a, h1, h2, h3⟩
      · rw [if_pos h2]
        rcases hsel with ⟨_, h4⟩ | ⟨n, ⟨b, h4, _⟩, _⟩
        · refine ⟨h4, ?_⟩
          constructor
          · rintro ⟨n, ⟨b, h5, _⟩, _⟩; rw [h1] at h5; cases h5
          · rintro ⟨h5, _⟩; exact absurd h2 h5
        · rw [h1] at h4; cases h4
      · rw [if_neg h3]
        have huniq : ∀ n, Limits opts n → n = st.nframes := by
          rintro n ⟨b, h5, h6⟩
          rw [h1] at h5; cases h5
          exact counts_unique h6 h2
        rcases hsel with ⟨h4, _⟩ | ⟨n, h4, h5⟩
        · rw [h1] at h4; cases h4
        · rw [huniq n h4] at h5
          refine ⟨h5, ?_⟩
          constructor
          · rintro ⟨n, h6, h7⟩; rw [huniq n h6] at h7; exact ⟨h3, h7⟩
          · rintro ⟨_, h7⟩; exact ⟨_, ⟨a, h1, h2⟩, h7⟩
    refine Act.mono (hx.cliRun_act hs (wantsMethod_mem hW.method) (by rw [hp0]; exact hp)
      hF hfuel hlen (fun _ h => he h) (fun h => by cases h)) ?_
    rintro ex _ _ ⟨_, ⟨rfl, h⟩ | ⟨_, hd⟩⟩
    · refine ⟨Or.inl rfl, fun a => ?_⟩
      rcases h with h | h
      · exact nomem h a
      · cases h
    · rw [hp0, verbosity_eq hs.wf hst hv] at hd
      have hsel' : (if st.nframes = 0 then frames else frames.take (st.nframes + 1 - 1)) = sel := hlim.1.symm
      have ofK : ∀ {e' : RDError} {ct : ℕ} {ev : List (Call × Obs)}, Counted F st.nframes 1 frames e e' ct ev →
          ∃ e1 : ℤ, Fed sel e1 ev ∧ (e1 ≠ 0 → e' = e1 ∧ (e1 = RDENOMEM → F)) ∧ (e1 = 0 → ct = 1 + sel.length ∧
            e' = if ∃ n, Limits opts n ∧ n ≤ frames.length then 0 else e) ∧ ∀ x ∈ ev, ∀ j, x.1.world.sched j = false → F := by
        rintro e' ct ev ⟨e1, h1, h2, h3, h6⟩
        refine ⟨e1, hsel' ▸ h1, fun h => ⟨(h2 h).1.1, (h2 h).2⟩, fun h => ?_, h6⟩
        obtain ⟨h4, h5⟩ := h3 h
        rw [hsel'] at h4
        refine ⟨h4, ?_⟩
        rw [h5]
        by_cases hq : st.nframes ≠ 0 ∧ st.nframes ≤ frames.length
        · rw [if_pos (by simpa using hq), if_pos (hlim.2.mpr hq)]
        · rw [if_neg (by simpa using hq), if_neg (fun h => hq (hlim.2.mp h))]
      cases hd with
      | create e0 L0 L' hc =>
        refine ⟨Or.inl rfl, fun a => ⟨fun _ => rfl, fun h => absurd (Or.inl ?_) h⟩⟩
        have hne : e0 ≠ RDEOK := by cases hc <;> decide
        have key : e0 = expected s W H := by
          unfold expected
          cases hc with
          | zero h => rw [if_pos h]
          | toobig h1 h2 h3 =>
            rw [if_neg (by omega), if_pos]
            rcases h3 with h3 | h3 | h3
            · unfold Fits at h3; omega
            · exact Or.inr (Or.inr (Or.inl h3))
            · exact Or.inr (Or.inr (Or.inr h3))
          | internal h1 h2 h3 h4 h5 h6 h7 =>
            rw [if_neg (by omega), if_neg, if_pos ⟨h6, h7⟩]
            unfold Fits at h3; omega
          | nomem _ h _ => exact nomem h a
        exact key ▸ hne
      | empty ev a hr hK =>
        obtain ⟨e1, hf, h1, h2, _⟩ := ofK hK
        refine ⟨Or.inl rfl, fun hpl => ⟨fun _ => rfl, fun h => absurd (Or.inr ?_) h⟩⟩
        have hfe : e1 = frameError W H sel := (fed_code hs hm hp hr hf).elim
          (fun h => nomem ((h1 (show e1 ≠ 0 by rw [h]; decide)).2 h) hpl) id
        by_cases h0 : e1 = 0
        · have := (h2 h0).1
          exact Or.inr (Or.inl (List.length_eq_zero_iff.mp (by omega)))
        · exact Or.inl (hfe ▸ h0)
      | stopped ev a e0 ct hr hK hne =>
        obtain ⟨e1, hf, h1, h2, _⟩ := ofK hK
        refine ⟨Or.inl rfl, fun hpl => ⟨fun _ => rfl, fun h => absurd (Or.inr ?_) h⟩⟩
        have hfe : e1 = frameError W H sel := (fed_code hs hm hp hr hf).elim
          (fun h => nomem ((h1 (show e1 ≠ 0 by rw [h]; decide)).2 h) hpl) id
        by_cases h0 : e1 = 0
        · have := (h2 h0).2
          split at this
          · exact absurd this hne
          · rename_i hq
            exact Or.inr (Or.inr ⟨this ▸ hne, hq⟩)
        · exact Or.inl (hfe ▸ h0)
      | results ev a ct c e0 o1 cw o2 ch hr hK hct hl hop hstep hne hnm =>
        obtain ⟨e1, hf, h1, h2, _⟩ := ofK hK
        refine ⟨Or.inl rfl, fun hpl => ?_⟩
        have h0 : e1 = 0 := by
          by_contra h
          exact h (h1 h).1.symm
        subst h0
        obtain ⟨f1, f2⟩ := fed_ok hf
        have hn : (analysed ev).length = sel.length := by
          have : analysed ev = ev := by
            refine List.filter_eq_self.mpr fun x hx => ?_
            have := List.mem_map_of_mem (f := fun x => x.2) hx
            rw [f1] at this
            simp [List.eq_of_mem_replicate this]
          rw [this, ← List.length_map (fun x : Call × Obs => x.2), f1, List.length_replicate]
        have hsl : sel.length ≤ frames.length := by
          rw [hlim.1]; split
          · exact le_rfl
          · exact List.length_take_le' _ _
        have hno := C10_noimg_iff hs hm hp hr (by omega) hl hop (fun _ => rfl) (fun _ => rfl) hstep
        rw [← List.length_eq_zero_iff, hn] at hno
        have hct' := (h2 rfl).1
        rcases results_code hs (reach_inv hs hm hp hr).good hl hop hstep with h | h | h | h
        · exact absurd h.2 (by decide)
        · exact absurd (hno.mp h) (by omega)
        · exact nomem (hnm h) hpl
        · exact absurd h hne
      | ok ev a ct l1 l2 shown hK hct hr hshow =>
        obtain ⟨e1, hf, h1, h2, hpw⟩ := ofK hK
        have h0 : e1 = 0 := by
          by_contra h
          exact h (h1 h).1.symm
        subst h0
        have hsu := success_of_shown hs hm hp hr hshow
        refine ⟨Or.inr ⟨ev, a, l1, l2, hsu, hf⟩, fun hpl => ?_⟩
        obtain ⟨h3, h4⟩ := h2 rfl
        have hfe : RDEOK = frameError W H sel := (fed_code hs hm hp hr.1 hf).elim (fun h => absurd h (by decide)) id
        refine ⟨?_, fun _ => ⟨ev, a, l1, l2, hsu, hf, fun x hx j => ?_⟩⟩
        swap
        · cases hsc : x.1.world.sched j with
          | true => rfl
          | false => exact nomem (hpw x hx j hsc) hpl
        rintro (h | h | h | ⟨h5, h6⟩)
        · exact absurd (reach_expected hs hm hp hr.1) h
        · exact absurd hfe.symm h
        · rw [h] at h3; exact absurd h3 hct
        · rw [if_neg h6] at h4; exact absurd h4.symm h5
  rcases key w w (Own.init hw hj) with ⟨_, h⟩ | ⟨ex, w', _, _, h1, _, h2⟩
  · exact h.elim
  · exact ⟨ex, w', h1, h2⟩

open Classical in
/-- **C48** The frames analysed are those selected: after skipping `k` frames, the next ones, up to the number given by `-n` or to
the end.  The command does not end in undefined behaviour.  If it prints anything or exits with 0, it has analysed exactly these
frames.  When no allocation fails, it succeeds unless the size is not acceptable, a sample is infinite or not a number, there is no
frame, or the reader fails before the number given by `-n` is reached; memory then suffices throughout. -/
theorem C48_window (hio : Inbuilt s io (opening s io opts input)) (hs : Build s) (hw : w.WF) (hW : Wants s.cfg io v opts input m p) (hv : Verbosity s.cfg opts vb)
    (hk : Skips opts k) (hy : YieldsAfter (opening s io opts input) k W H frames e) (hsel : Selects opts frames sel) (hfuel : frames.length < fuel)
    (hlen : frames.length < s.cfg.sizeMax) (he : e ≠ RDEOK → -(s.cfg.intMax : ℤ) ≤ e ∧ e ≤ resdetGetMaxError) :
    ∃ ex w', cliMain s io v fuel opts (some input) w = some (ex, w') ∧
      (ex = ⟨1, .nothing⟩ ∨ ∃ ev a l1 l2, Success s m p W H vb ev a l1 l2 ex ∧ Fed sel RDEOK ev) ∧
      (Plenty w → ¬ HugeScores s W H →
        ((expected s W H ≠ RDEOK ∨ frameError W H sel ≠ RDEOK ∨ sel = [] ∨ (e ≠ RDEOK ∧ ¬ ∃ n, Limits opts n ∧ n ≤ frames.length)) → ex = ⟨1, .nothing⟩) ∧
        (¬ (expected s W H ≠ RDEOK ∨ frameError W H sel ≠ RDEOK ∨ sel = [] ∨ (e ≠ RDEOK ∧ ¬ ∃ n, Limits opts n ∧ n ≤ frames.length)) →
          ∃ ev a l1 l2, Success s m p W H vb ev a l1 l2 ex ∧ Fed sel RDEOK ev ∧ ∀ x ∈ ev, Plenty x.1.world)) := by
  have huge : LinesTooBig s.cfg W H → HugeScores s W H := by
    rintro (h | h)
    · exact ⟨W, Or.inl rfl, h⟩
    · exact ⟨H, Or.inr rfl, h⟩
  have nomem : Plenty w → ¬ HugeScores s W H → ¬ ((∃ j, w.sched j = false) ∨ HugeScores s W H) := by
    rintro hp hn (⟨j, h⟩ | h)
    · rw [hp j] at h; cases h
    · exact hn h
  obtain ⟨ex, w', h1, h2, h3⟩ := cli_core (F := (∃ j, w.sched j = false) ∨ HugeScores s W H) (e0 := RDEOK) (fuel := fuel) hs hw hW hv hk
    (fun st hst => by
      obtain ⟨name, r, Ok, x, out, hx, hout, hfr⟩ := window_of_yields hio hst hy
      have := hx.outlook (F := (∃ j, w.sched j = false) ∨ HugeScores s W H) (fun _ => hfr)
      rw [hout] at this
      exact ⟨_, _, _, _, this.start_good⟩)
    (fun h => Or.inr (huge h)) (fun j hj => Or.inl ⟨j, hj⟩) hsel hfuel hlen he
  exact ⟨ex, w', h1, h2, fun a b => h3 (nomem a b)⟩

open Classical in
/-- **C48** The same for every reader, JPEG, PNG, ImageMagick and FFmpeg included, when no allocation fails. -/
theorem C48_readers (hs : Build s) (hw : w.WF) (hpl : Plenty w) (hsc : ¬ HugeScores s W H) (hW : Wants s.cfg io v opts input m p)
    (hv : Verbosity s.cfg opts vb) (hk : Skips opts k) (hy : Presents s io (opening s io opts input) k W H frames) (hsel : Selects opts frames sel)
    (hfuel : frames.length < fuel) (hlen : frames.length < s.cfg.sizeMax) :
    ∃ ex w', cliMain s io v fuel opts (some input) w = some (ex, w') ∧
      ((expected s W H ≠ RDEOK ∨ frameError W H sel ≠ RDEOK ∨ sel = []) → ex = ⟨1, .nothing⟩) ∧
      (¬ (expected s W H ≠ RDEOK ∨ frameError W H sel ≠ RDEOK ∨ sel = []) →
        ∃ ev a l1 l2, Success s m p W H vb ev a l1 l2 ex ∧ Fed sel RDEOK ev ∧ ∀ x ∈ ev, Plenty x.1.world) := by
  obtain ⟨ex, w', h1, _, h2⟩ := cli_core (F := False) (fuel := fuel) hs hw hW hv hk (fun _ _ => hy.reveals)
    (by
      rintro (h | h)
      · exact hsc ⟨W, Or.inl rfl, h⟩
      · exact hsc ⟨H, Or.inr rfl, h⟩)
    (fun j hj => by rw [hpl j] at hj; cases hj) hsel hfuel hlen (fun h => absurd rfl h)
  obtain ⟨h2, h3⟩ := h2 (fun h => h)
  have he : (expected s W H ≠ RDEOK ∨ frameError W H sel ≠ RDEOK ∨ sel = [] ∨ (RDEOK ≠ RDEOK ∧ ¬ ∃ n, Limits opts n ∧ n ≤ frames.length)) ↔
      (expected s W H ≠ RDEOK ∨ frameError W H sel ≠ RDEOK ∨ sel = []) := by simp
  rw [he] at h2 h3
  exact ⟨ex, w', h1, h2, h3⟩

/-- An image that plays back a list of frames shows those from `k` on after skipping `k`; more than all cannot be skipped. -/
theorem C48_plays {ok : List IOp → Prop} {m : M Opened} (h : Plays m W H frames ok) :
    (k ≤ frames.length → ok (skipping k ++ List.replicate ((frames.drop k).length + 1) .read) → YieldsAfter m k W H (frames.drop k) RDEOK) ∧
    (frames.length < k → ok [.seek k] → CannotSkip m k RDEOK) := by
  have reads : ∀ (fs : List (List Fl)) (d : List Fl), ∃ last, playback (List.replicate (fs.length + 1) .read) fs d =
      fs.map (.read true RDEOK) ++ [.read false RDEOK last] := by
    intro fs
    induction fs with
    | nil => exact fun d => ⟨d, rfl⟩
    | cons f fs ih =>
      intro d
      obtain ⟨last, hl⟩ := ih f
      exact ⟨last, by rw [List.length_cons, List.replicate_succ, playback, hl]; rfl⟩
  constructor
  · intro hk hok w hw hpl
    obtain ⟨i, buf, w1, h1, _, h3⟩ := h w hw hpl
    obtain ⟨i', buf', w2, h4, _⟩ := h3 _ hok
    obtain ⟨last, hl⟩ := reads (frames.drop k) buf.data
    refine ⟨i, buf, w1, h1, ?_⟩
    by_cases h0 : k = 0
    · subst h0
      exact ⟨[], last, i', some buf', w2, by rw [h4]; simp only [skipping, if_true, List.nil_append]; rw [← hl]; rfl, Or.inl rfl⟩
    · refine ⟨[.seek true RDEOK ((List.range (min k frames.length)).map (· + 1))], last, i', some buf', w2, ?_, Or.inr ⟨_, rfl⟩⟩
      rw [h4]
      simp only [skipping, if_neg h0, List.cons_append, List.nil_append, playback, hl, hk, decide_true]
  · intro hk hok w hw hpl
    obtain ⟨i, buf, w1, h1, _, h3⟩ := h w hw hpl
    obtain ⟨i', buf', w2, h4, _⟩ := h3 _ hok
    refine ⟨i, W, H, buf, w1, h1, (List.range (min k frames.length)).map (· + 1), i', some buf', w2, ?_⟩
    rw [h4]
    simp only [playback, show (k ≤ frames.length) = False by simp; omega, decide_false]

/-- **C48** More frames are to be skipped than there are, or the reader fails while it skips: exit status 1. -/
theorem C48_past_end (hio : Inbuilt s io (opening s io opts input)) (hs : Build s) (hw : w.WF) (hW : Wants s.cfg io v opts input m p)
    (hk : Skips opts k) (h0 : k ≠ 0) (hy : CannotSkip (opening s io opts input) k e) (hfuel : 0 < fuel)
    (he : e ≠ RDEOK → -(s.cfg.intMax : ℤ) ≤ e ∧ e ≤ resdetGetMaxError) (hpl : Plenty w) :
    ∃ w', cliMain s io v fuel opts (some input) w = some (⟨1, .nothing⟩, w') := by
  have hp := valid_params hs hW
  have key : Act False True [] [] (cliMain s io v fuel opts (some input)) (fun ex _ _ => ex = ⟨1, .nothing⟩) := by
    refine cliMain_act hW (fun st p0 block hst hp0 => ?_) (fun _ => rfl)
    have hoff := offset_eq hst hk
    have hu := hio.usable
    rw [← cliOpen_eq hst] at hy hu
    obtain ⟨i, W, H, buf, w1, h1, calls, i', buf', w2, h2⟩ := hy w hw hpl
    obtain ⟨name, r, Ok, hb, hop⟩ := cliOpen_with hu hw h1 rfl
    obtain ⟨x, out, y, o1, o2, hx, e1, e2, e3⟩ := window_of_session hb hop (k := k) (ops := []) hw hpl h1 (by rw [if_neg h0]; exact h2)
    cases e3
    rw [if_neg h0] at e2
    obtain ⟨calls', rfl⟩ := e2
    simp only [List.append_nil, List.cons.injEq, IObs.seek.injEq, and_true] at e1
    obtain ⟨e4, e5, _⟩ := e1
    rw [← hoff] at hx
    refine Act.mono ((hx.outlook (F := True) (frames := []) (e := 0) (fun h => by rw [← e4] at h; cases h)).cliRun_act hs
      (wantsMethod_mem hW.method) (by rw [hp0]; exact hp) (fun _ => trivial) hfuel (hs.wf.pixel_pos.trans_le hs.wf.pixel_le) (fun _ h => absurd rfl h)
      (fun _ h => by rw [← e5] at h ⊢; exact he h)) ?_
    rintro ex _ _ ⟨_, ⟨rfl, _⟩ | ⟨h, _⟩⟩
    · rfl
    · rw [← e4] at h; cases h
  rcases key w w (Own.init hw (fun _ _ => trivial)) with ⟨_, h⟩ | ⟨ex, w', _, _, h1, _, rfl⟩
  · exact h.elim
  · exact ⟨w', h1⟩

theorem Demo.y4m_frames : Plays Demo.openY4m 2 1 (lumas 8 [[0, 255], [255, 0]]) (fun _ => True) :=
  C39_partial rfl Demo.uses_y4m Demo.holds_y4m Demo.y4m_file ⟨by decide, by decide⟩ (by constructor <;> decide) (by decide)

example : Inbuilt Demo.sys Demo.io (opening Demo.sys Demo.io Demo.second (cs "a.y4m")) ∧ Skips Demo.second 1 ∧
    YieldsAfter (opening Demo.sys Demo.io Demo.second (cs "a.y4m")) 1 2 1 (lumas 8 [[255, 0]]) RDEOK ∧
    Selects Demo.second (lumas 8 [[255, 0]]) (lumas 8 [[255, 0]]) :=
  ⟨Or.inl Demo.io_plain, Or.inr ⟨cs "1", by decide, Demo.counts_one⟩, (C48_plays Demo.y4m_frames).1 (by decide) trivial,
    Or.inr ⟨1, ⟨cs "1", by decide, Demo.counts_one⟩, rfl⟩⟩

example : Presents Demo.sys Demo.io (opening Demo.sys Demo.io Demo.second (cs "a.y4m")) 1 2 1 (lumas 8 [[255, 0]]) ∧ ¬ HugeScores Demo.sys 2 1 ∧
    expected Demo.sys 2 1 = RDEOK ∧ frameError 2 1 (lumas 8 [[255, 0]]) = RDEOK :=
  ⟨.native (.y4m rfl Demo.uses_y4m) ((C48_plays Demo.y4m_frames).1 (by decide) trivial),
    by rintro ⟨n, rfl | rfl, h⟩ <;> revert h <;> decide +kernel, by decide +kernel, by decide +kernel⟩

example : CannotSkip (opening Demo.sys Demo.io [.o (cs "3")] (cs "a.y4m")) 3 RDEOK ∧ Skips [.o (cs "3")] 3 ∧ Plenty Demo.w0 :=
  ⟨(C48_plays Demo.y4m_frames).2 (by decide) trivial, Or.inr ⟨cs "3", by decide, strtou_iff.mp (by decide)⟩, fun _ => rfl⟩

end Verif.Props
