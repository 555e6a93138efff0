import Verif.Proofs.AnyFile
import Verif.Spec.DemoImage

/-!
# The built-in readers on any file (C34, C41, C43, C44) and PGM (C31, C32, C42)
-/

namespace Verif.Props

open Spec

variable {s : Sys} {io : Io} {name file : List UInt8} {k : Kind} {m : M Opened} {n : ℕ}

/-- **C34** Whatever the file and the calls: the frames that were read fit in the file, each with all its samples. -/
theorem C34_count (hn : Native s io name m n) (hh : io.fs.Holds name (file, k)) {w w1 w2 : World} {o : Opened} (hw : w.WF)
    (hm : m w = some (o, w1)) (he : o.error = RDEOK) {ops : List IOp} {obs : List IObs} {i : Option RDImage} {b : Option (Buf Fl)}
    (hs : session ops o.image o.buf w1 = some ((obs, i, b), w2)) : obs.countP IObs.got * (n * (o.width * o.height)) ≤ file.length := by
  obtain ⟨x, h1, h2, h3, _, h4⟩ := hn.open hh hw hm he
  rcases h4 ops with ⟨h, _⟩ | ⟨obs', i', b', w2', x', h, hr⟩
  · rw [hs] at h; cases h
  · rw [hs] at h
    cases h
    have := hr.left h3
    rw [h2] at this
    omega

example : Native Demo.sys Demo.io (cs "a.y4m") Demo.openY4m 1 ∧ Demo.io.fs.Holds (cs "a.y4m") (Demo.y4mBytes, true) ∧ Demo.w0.WF ∧
    ((do let o ← Demo.openY4m; let r ← session [.read, .seek 1] o.image o.buf; pure (o.error, r.1)) Demo.w0).map Prod.fst =
    some (RDEOK, [.read true RDEOK [.fin false 0, .fin false 1], .seek true RDEOK [1]]) :=
  ⟨Demo.native_y4m, Demo.holds_y4m, Demo.w0_wf, by decide +kernel⟩

/-- What a seek reports: as many calls as frames skipped, in order, and success exactly if that is what was asked for; only when
memory runs out it may fail without an attempt. -/
inductive Progress (oom : Prop) : IOp → IObs → Prop where
  | read {ret : Bool} {e : RDError} {d : List Fl} : Progress oom .read (.read ret e d)
  | seek {k j : ℕ} {ret : Bool} {e : RDError} : j ≤ k → (ret = true ↔ j = k) → Progress oom (.seek k) (.seek ret e ((List.range j).map (· + 1)))
  | oom {k : ℕ} : oom → Progress oom (.seek k) (.seek false RDENOMEM [])

/-- **C43** Whatever the file and the calls: progress is reported as 1, 2, …, up to the number of frames asked for exactly if
the seek succeeds. -/
theorem C43_progress (hn : Native s io name m n) (hh : io.fs.Holds name (file, k)) {w w1 w2 : World} {o : Opened} (hw : w.WF)
    (hm : m w = some (o, w1)) (he : o.error = RDEOK) {ops : List IOp} {obs : List IObs} {i : Option RDImage} {b : Option (Buf Fl)}
    (hs : session ops o.image o.buf w1 = some ((obs, i, b), w2)) : List.Forall₂ (Progress (∃ j, w.sched j = false)) ops obs := by
  obtain ⟨x, g1, g2, g3, _, h4⟩ := hn.open hh hw hm he
  rcases h4 ops with ⟨h, _⟩ | ⟨obs', i', b', w2', x', h, hr⟩
  · rw [hs] at h; cases h
  · rw [hs] at h
    cases h
    clear hs h4 g1 g2 g3
    induction hr with
    | nil => exact .nil
    | read _ _ _ ih => exact .cons .read ih
    | seek h1 _ ih =>
      obtain ⟨j, h2, rfl, h3⟩ := Ctx.skip_calls h1
      exact .cons (.seek h2 h3) ih
    | oom h1 _ _ ih => exact .cons (.oom h1) ih

example : ((do let o ← Demo.openY4m; let r ← session [.seek 1, .seek 5] o.image o.buf; pure (o.error, r.1)) Demo.w0).map Prod.fst =
    some (RDEOK, [.seek true RDEOK [1], .seek false RDEOK [1]]) := by decide +kernel

/-- **C44** Whatever the file and the calls: after a read has returned false without error all reads do, and no seek skips
anything. -/
theorem C44_end (hn : Native s io name m n) (hh : io.fs.Holds name (file, k)) {w w1 w2 : World} {o : Opened} (hw : w.WF)
    (hm : m w = some (o, w1)) (he : o.error = RDEOK) {ops : List IOp} {before after : List IObs} {d : List Fl} {i : Option RDImage}
    {b : Option (Buf Fl)} (hs : session ops o.image o.buf w1 = some ((before ++ .read false RDEOK d :: after, i, b), w2)) :
    ∀ y ∈ after, (∀ ret e d, y = .read ret e d → ret = false ∧ e = RDEOK) ∧ (∀ ret e c, y = .seek ret e c → c = []) := by
  obtain ⟨x, _, _, _, _, h4⟩ := hn.open hh hw hm he
  rcases h4 ops with ⟨h, _⟩ | ⟨obs', i', b', w2', x', h, hr⟩
  · rw [hs] at h; cases h
  · rw [hs] at h
    cases h
    obtain ⟨ops', ops'', op, x1, x2, rfl, _, h5, h6⟩ := hr.split
    generalize hy : IObs.read false RDEOK d = y at h5
    cases h5 with
    | @read _ x3 _ _ _ o' e' d' g1 g2 g3 =>
      cases g3
      cases o' with
      | none =>
        cases hy
        intro y hy
        have := h6.done (Ctx.step_end g1) y hy
        exact ⟨this.1, fun ret e c h => (this.2 ret e c h).1⟩
      | some f => cases hy
    | seek => cases hy
    | oom => cases hy

example : ((do let o ← Demo.openPgm; let r ← session [.seek 1, .read, .read] o.image o.buf; pure (o.error, r.1.drop 1)) Demo.w0).map Prod.fst =
    some (RDEOK, [] ++ .read false RDEOK [.fin false 0, .fin false 0] :: [.read false RDEOK [.fin false 0, .fin false 0]]) := by decide +kernel

/-- **C41** Whatever the file: once the Y4M reader has accepted it, no sequence of calls has undefined behaviour, such as reading
past the scratch buffer or seeking by more than a `long` holds. -/
theorem C41_safe (ho : io.omitY4m = false) (hu : Uses s io name (cs "y4m") m) {w w1 : World} {o : Opened} (hw : w.WF)
    (hm : m w = some (o, w1)) (he : o.error = RDEOK) (ops : List IOp) : ∃ r, session ops o.image o.buf w1 = some r := by
  rw [uses_y4m hu ho] at hm
  obtain ⟨a, hd⟩ := Builtin.y4m.determined (s := s) (fs := io.fs) name
  obtain ⟨x, _, h2, _, h4⟩ := Builtin.y4m.opened hd hw hm he
  rcases h4 ops with ⟨_, h⟩ | ⟨obs', i', b', w2', x', h, _⟩
  · cases x with
    | y4m x => exact (not_breaks_y4m h).elim
    | _ => exact h2.elim
  · exact ⟨_, h⟩

example : Demo.io.omitY4m = false ∧ Uses Demo.sys Demo.io (cs "a.y4m") (cs "y4m") Demo.openY4m ∧ Demo.w0.WF ∧
    (Demo.openY4m Demo.w0).map (fun r => r.1.error) = some RDEOK := ⟨rfl, Demo.uses_y4m, Demo.w0_wf, by decide +kernel⟩

/-- **C41** The plane sizes of a stream that is accepted are those of the layout, computed without wrapping around: for depth
`d` with `(d + 7) / 8` bytes per sample, the luma plane has `width * height` samples, the chroma planes at most twice that, and
together they fit `size_t`. -/
theorem C41_sizes {c : Cfg} {p : Y4mParams} {y uv d : ℕ} (h : y4mSizes c p = some (.inr (y, uv, d))) :
    8 ≤ d ∧ d ≤ 16 ∧ y = p.width * p.height * ((d + 7) / 8) ∧ y + uv ≤ c.sizeMax ∧ ∃ u, uv = u * ((d + 7) / 8) ∧
      ((p.csp.take 4 = cs "mono" ∧ u = 0) ∨ ((p.csp.take 3 = cs "420" ∨ p.csp.take 3 = cs "411") ∧ u = (p.width + 1) / 2 * ((p.height + 1) / 2) * 2) ∨
        (p.csp.take 3 = cs "422" ∧ u = (p.width + 1) / 2 * p.height * 2) ∨ (p.csp.take 3 = cs "444" ∧ u = p.width * p.height * 2)) := by
  obtain ⟨_, _, _, _, h1, h2, h3, h4, u, _, h5, h6⟩ := y4mSizes_ok h
  refine ⟨h1, h2, h3, h4, u, h6, ?_⟩
  unfold y4mChroma at h5
  split at h5
  · rename_i hc; cases h5; exact Or.inl ⟨hc, rfl⟩
  split at h5
  · rename_i hc; cases h5; exact Or.inr (Or.inl ⟨hc, rfl⟩)
  split at h5
  · rename_i hc; cases h5; exact Or.inr (Or.inr (Or.inl ⟨hc, rfl⟩))
  split at h5
  · rename_i hc; cases h5; exact Or.inr (Or.inr (Or.inr ⟨hc, rfl⟩))
  · cases h5

example : y4mSizes Demo.sys.cfg ⟨3, 5, cs "422p10" ++ [0, 0, 0, 0]⟩ = some (.inr (30, 40, 10)) := by decide +kernel

/-- **C31** A PGM plays its raster, normalised. -/
theorem C31_pgm {W H maxval : ℕ} {raster : List UInt8} (ho : io.omitPgm = false) (hu : Uses s io name (cs "pgm") m)
    (hh : io.fs.Holds name (file, k)) (hf : PgmFile W H maxval raster file) (hw : Within s.cfg W H) :
    Plays m W H [raster.map (fun b => normal maxval b.toNat)] (fun _ => True) := pgm_plays hu ho hh hf hw

example : PgmFile 2 1 255 [0, 255] Demo.pgmBytes ∧ Within Demo.sys.cfg 2 1 ∧ Demo.io.omitPgm = false ∧
    Uses Demo.sys Demo.io (cs "a.pgm") (cs "pgm") Demo.openPgm ∧ Demo.io.fs.Holds (cs "a.pgm") (Demo.pgmBytes, true) :=
  ⟨Demo.pgm_file, by unfold Within; decide, rfl, Demo.uses_pgm, Demo.holds_pgm⟩

/-- **C31** Reading it gives one frame and then the end of the stream. -/
theorem C31_pgm_frames {W H maxval : ℕ} {raster : List UInt8} (ho : io.omitPgm = false) (hu : Uses s io name (cs "pgm") m)
    (hh : io.fs.Holds name (file, k)) (hf : PgmFile W H maxval raster file) (hw : Within s.cfg W H) :
    Yields m W H [raster.map (fun b => normal maxval b.toNat)] RDEOK := (pgm_plays hu ho hh hf hw).yields trivial

/-- **C31** A PGM beyond the limits is rejected as too big. -/
theorem C31_pgm_too_big {W H maxval : ℕ} {raster : List UInt8} (ho : io.omitPgm = false) (hu : Uses s io name (cs "pgm") m)
    (hh : io.fs.Holds name (file, k)) (hf : PgmFile W H maxval raster file) (h1 : W ≤ s.cfg.sizeMax) (h2 : H ≤ s.cfg.sizeMax)
    (hw : ¬ Within s.cfg W H) : Rejects m RDETOOBIG := by
  rw [uses_pgm hu ho]
  cases hf with
  | @mk head tail hp hl =>
    obtain ⟨p, hp⟩ := pgmHeader_eq (c := s.cfg) (k := k) (rest := raster ++ tail) hp h1 h2
    have hd := (pgm_determined (s := s) name).1 _ k hh
    rw [hp] at hd
    exact Builtin.pgm.tooBig hd hw

/-- **C34** A PGM with a good header and too little data gives no frame and an error. -/
theorem C34_pgm {W H maxval : ℕ} {head data : List UInt8} (ho : io.omitPgm = false) (hu : Uses s io name (cs "pgm") m)
    (hh : io.fs.Holds name (head ++ data, k)) (hf : PgmHead W H maxval head) (hl : data.length < W * H) (hw : Within s.cfg W H) :
    Yields m W H [] RDEINVAL := by
  rw [uses_pgm hu ho]
  obtain ⟨hW, hH⟩ := Within.le_size hw
  obtain ⟨p, hp⟩ := pgmHeader_eq (c := s.cfg) (k := k) (rest := data) hf hW hH
  have hd := (pgm_determined (s := s) name).1 _ k hh
  rw [hp] at hd
  refine Builtin.pgm.yields hd hw ?_
  have hst : ∃ x', Ctx.step s W H (.pgm ⟨0, ⟨none, ⟨data, p, k⟩⟩, false, maxval⟩) = some (none, RDEINVAL, x') := by
    simp only [Ctx.step, Bool.false_eq_true, if_false]
    rw [if_neg (by omega)]
    exact ⟨_, rfl⟩
  exact Ctx.frames_stop hst.choose_spec

example : PgmHead 2 1 255 (cs "P5\n# c\n2 1 255\n") ∧ [(7 : UInt8)].length < 2 * 1 := ⟨Demo.pgm_head, by decide⟩

/-- A byte that cannot start a number or a comment. -/
def Stray (b : UInt8) : Prop := ¬ Blank [b] ∧ ¬ Digits [b] ∧ b ≠ ch '#' ∧ b ≠ ch '+' ∧ b ≠ ch '-'

theorem stray {b : UInt8} (h : Stray b) : isspace b = false ∧ isdigit b = false ∧ b ≠ ch '+' ∧ b ≠ ch '-' ∧ b ≠ ch '#' := by
  obtain ⟨h1, h2, h3, h4, h5⟩ := h
  refine ⟨?_, ?_, h4, h5, h3⟩
  · by_contra hc
    exact h1 (by simpa [Blank] using (isspace_iff b).mp (by simpa using hc))
  · by_contra hc
    exact h2 (by simpa [Digits] using (isdigit_iff b).mp (by simpa using hc))

/-- **C32** (partial) Of the files that do not start with P5, those are rejected in which the first byte, or the first after a P,
cannot start a number or a comment.  Missing: all others, see `C32_fails`. -/
theorem C32_partial (ho : io.omitPgm = false) (hu : Uses s io name (cs "pgm") m) (hh : io.fs.Holds name (file, k))
    (hf : (∃ b l, file = b :: l ∧ b ≠ ch 'P' ∧ Stray b) ∨ (∃ b l, file = ch 'P' :: b :: l ∧ b ≠ ch '5' ∧ Stray b) ∨ file = [] ∨ file = [ch 'P']) :
    Rejects m RDEINVAL := by
  rw [uses_pgm hu ho]
  have hd := (pgm_determined (s := s) name).1 _ k hh
  have hp : ∃ st, pgmHeader s.cfg ⟨file, 0, k⟩ = some (none, st) := by
    rcases hf with ⟨b, l, rfl, hb, hs⟩ | ⟨b, l, rfl, hb, hs⟩ | hf
    · obtain ⟨h1, h2, h3, h4, h5⟩ := stray hs
      exact pgmHeader_other h1 h2 h3 h4 h5 (Or.inl ⟨rfl, hb⟩)
    · obtain ⟨h1, h2, h3, h4, h5⟩ := stray hs
      exact pgmHeader_other h1 h2 h3 h4 h5 (Or.inr ⟨rfl, hb⟩)
    · exact pgmHeader_short hf
  obtain ⟨st, hp⟩ := hp
  rw [hp] at hd
  exact Builtin.pgm.rejects hd (by decide)

example : ∃ b l, cs "P2 1 1 1 1" = ch 'P' :: b :: l ∧ b ≠ ch '5' ∧ ¬ Stray b :=
  ⟨ch '2', _, rfl, by decide, fun h => absurd (stray h).2.1 (by decide)⟩
example : ∃ b l, cs "GIF89a" = b :: l ∧ b ≠ ch 'P' ∧ Stray b := ⟨ch 'G', _, rfl, by decide, by unfold Stray Blank Digits; decide⟩

/-- No magic number at all. -/
def magicless : List UInt8 := cs "2 1 255\n" ++ [0, 255]

/-- **C32** (negation) A file that does not start with P5 and is read as a PGM all the same. -/
theorem C32_fails (ho : io.omitPgm = false) (hu : Uses Demo.sys io name (cs "pgm") m) (hh : io.fs.Holds name (magicless, k)) :
    ¬ cs "P5" <+: magicless ∧ Yields m 2 1 [[.fin false 0, .fin false 1]] RDEOK := by
  refine ⟨by decide, ?_⟩
  rw [uses_pgm hu ho]
  have hd := (pgm_determined (s := Demo.sys) name).1 _ k hh
  have hp : pgmHeader Demo.sys.cfg ⟨magicless, 0, k⟩ = some (some (2, 1, 255), ⟨[0, 255], 8, k⟩) := by
    rcases k with ⟨_ | _, _ | _⟩ <;> decide +kernel
  rw [hp] at hd
  refine Builtin.pgm.yields hd (by unfold Within; decide) ?_
  rcases k with ⟨_ | _, _ | _⟩ <;> decide +kernel

/-- A finite number from 0 to 1. -/
def InUnit (v : Fl) : Prop := ∃ neg q, v = .fin neg q ∧ 0 ≤ q ∧ q ≤ 1

theorem normal_unit {v m : ℕ} (h0 : 0 < m) (h : v ≤ m) : InUnit (normal m v) := by
  have hm : (0 : ℚ) < m := by exact_mod_cast h0
  refine ⟨false, _, rfl, Fmt.rnd_nonneg _ (by positivity), ?_⟩
  have := Fmt.rnd_le_natCast binary32 binary32_wf (n := 1) (v := (v : ℚ) / m) (by decide) ?_
  · simpa using this
  · rw [Nat.cast_one, div_le_one hm]; exact_mod_cast h

/-- **C33** (partial) PGM: if no byte of the raster is above the maximum, the samples are from 0 to 1.  Missing: files with such
bytes, and a maximum of 0, see `C33_pgm_fails`. -/
theorem C33_pgm_partial {W H maxval : ℕ} {raster : List UInt8} (ho : io.omitPgm = false) (hu : Uses s io name (cs "pgm") m)
    (hh : io.fs.Holds name (file, k)) (hf : PgmFile W H maxval raster file) (hw : Within s.cfg W H) (hr : ∀ b ∈ raster, b.toNat ≤ maxval) :
    ∃ frames, Yields m W H frames RDEOK ∧ ∀ f ∈ frames, f.length = W * H ∧ ∀ v ∈ f, InUnit v := by
  refine ⟨_, C31_pgm_frames ho hu hh hf hw, ?_⟩
  intro f h
  rw [List.mem_singleton.mp h]
  cases hf with
  | mk hp hl =>
    refine ⟨by simpa using hl, fun v hv => ?_⟩
    obtain ⟨b, hb, rfl⟩ := List.mem_map.mp hv
    have : 0 < maxval := by cases hp; omega
    exact normal_unit this (hr b hb)

example : ∀ b ∈ [(0 : UInt8), 255], b.toNat ≤ 255 := by decide

/-- A maximum of 0, which the reader accepts. -/
def zeroMax : List UInt8 := cs "P5 2 1 0\n" ++ [0, 1]

/-- A sample above the maximum. -/
def aboveMax : List UInt8 := cs "P5 2 1 1\n" ++ [0, 2]

/-- **C33** (negation) PGM files whose samples are read as not a number and infinity, and as 2. -/
theorem C33_pgm_fails (ho : io.omitPgm = false) (hu : Uses Demo.sys io name (cs "pgm") m) :
    (io.fs.Holds name (zeroMax, k) → ∃ neg, Yields m 2 1 [[.nan neg, .inf false]] RDEOK) ∧
    (io.fs.Holds name (aboveMax, k) → Yields m 2 1 [[.fin false 0, .fin false 2]] RDEOK) := by
  rw [uses_pgm hu ho]
  constructor
  · intro hh
    have hd := (pgm_determined (s := Demo.sys) name).1 _ k hh
    have hp : pgmHeader Demo.sys.cfg ⟨zeroMax, 0, k⟩ = some (some (2, 1, 0), ⟨[0, 1], 9, k⟩) := by
      rcases k with ⟨_ | _, _ | _⟩ <;> decide +kernel
    rw [hp] at hd
    refine ⟨true, Builtin.pgm.yields hd (by unfold Within; decide) ?_⟩
    rcases k with ⟨_ | _, _ | _⟩ <;> decide +kernel
  · intro hh
    have hd := (pgm_determined (s := Demo.sys) name).1 _ k hh
    have hp : pgmHeader Demo.sys.cfg ⟨aboveMax, 0, k⟩ = some (some (2, 1, 1), ⟨[0, 2], 9, k⟩) := by
      rcases k with ⟨_ | _, _ | _⟩ <;> decide +kernel
    rw [hp] at hd
    refine Builtin.pgm.yields hd (by unfold Within; decide) ?_
    rcases k with ⟨_ | _, _ | _⟩ <;> decide +kernel

/-- **C42** Whatever the file, if the PGM reader opens it every sequence of calls behaves as on a stream of one frame. -/
theorem C42_one_frame (ho : io.omitPgm = false) (hu : Uses s io name (cs "pgm") m) {w w1 : World} {o : Opened} (hw : w.WF)
    (hm : m w = some (o, w1)) (he : o.error = RDEOK) :
    ∃ frame : Option (List Fl), ∀ ops, ∃ obs r w2, session ops o.image o.buf w1 = some ((obs, r), w2) ∧ OneShot frame true ops obs := by
  rw [uses_pgm hu ho] at hm
  obtain ⟨x, heof, h4⟩ : ∃ x : PgmCtx, x.eof = false ∧ ∀ ops, (session ops o.image o.buf w1 = none ∧ Breaks s o.width o.height (.pgm x) ops) ∨
      ∃ obs i b w2 x', session ops o.image o.buf w1 = some ((obs, some i, some b), w2) ∧
        Runs s o.width o.height (∃ j, w.sched j = false) (.pgm x) ops obs x' := by
    rcases holds_or io.fs name with ⟨d, k, hh⟩ | ⟨hn, e, hf⟩
    · obtain ⟨x, ha, _, _, h4⟩ := Builtin.pgm.opened ((pgm_determined (s := s) name).1 d k hh) hw hm he
      split at ha
      · cases ha
      · cases ha
      · rename_i W H depth st _
        simp only [Option.some.injEq, Prod.mk.injEq] at ha
        rw [← ha.1] at h4
        refine ⟨⟨0, ⟨none, st⟩, false, depth⟩, rfl, fun ops => ?_⟩
        rcases h4 ops with h | ⟨obs, i, b, w2, x', h, hr, _⟩
        · exact Or.inl h
        · exact Or.inr ⟨obs, i, b, w2, _, h, hr⟩
    · obtain ⟨x, ha, _⟩ := Builtin.pgm.opened ((pgm_determined (s := s) name).2 e hn hf) hw hm he
      cases ha
  refine ⟨x.frame (o.width * o.height), fun ops => ?_⟩
  rcases h4 ops with ⟨_, h⟩ | ⟨obs, i, b, w2, x', h, hr⟩
  · exact (not_breaks_pgm h).elim
  · have := hr.oneShot (fun _ => rfl)
    rw [heof] at this
    exact ⟨obs, _, w2, h, this⟩

example : OneShot (some [.fin false 1]) true [.seek 0, .read, .seek 2, .read] [.seek true RDEOK [], .read true RDEOK [.fin false 1], .seek false RDEOK [],
    .read false RDEOK [.fin false 1]] := .stay (.good rfl (.beyond (.done (.nil _))))

end Verif.Props
