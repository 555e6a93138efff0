import Verif.Props.Video
import Verif.Props.Resample
import Verif.Proofs.Rounded

/-! # Pictures enlarged or scaled by interpolation, rounded to the samples of a file, from the command line to the printed result (C82) -/

namespace Verif.Props

open Spec

variable {s : Sys} {io : Io} {v : CliEnv} {permute : Bool} {words operands : List (List UInt8)} {opts : List CliOpt} {input : List UInt8} {m : Method}
  {p : Params} {fuel : ℕ} {w : World} {W H : ℕ} {vb : ℤ} {u B d δ : ℝ} {offset : ℕ} {pics : List (ℕ → ℕ → ℝ)} {ex : Exit} {t : ℚ}

/-! ## C82 -/

/-- An entry for a size with a sure share of at least `t` in all spectra. -/
theorem _root_.Verif.Spec.MeanList.sure {ε ε' th : ℚ} {range len n N : ℕ} {Xs : List (ℕ → ℕ → ℝ)} {l : List Res}
    (hl : MeanList d ε ε' th range len n Xs l) (t0 : 0 ≤ t) (htf : binary32.rnd t = t) (ht : th ≤ t) (h1 : range ≤ N) (h2 : N + range < len)
    (hs : ∀ X ∈ Xs, t ≤ sureShare d X n range N) : ∃ q, (⟨N, .fin false q⟩ : Res) ∈ l ∧ t ≤ q ∧ q ≤ 1 := by
  obtain ⟨a, b, _⟩ := hl.between N h1 h2 t 1 t0 le_rfl htf (binary32.rnd_one binary32_wf) (fun X hX => ⟨hs X hX, possible_le⟩)
  obtain ⟨c, hm⟩ := b ht
  obtain ⟨q, rfl, q1, q2⟩ := a c hm
  exact ⟨q, hm, q1, q2⟩

/-- The size found is printed. -/
theorem reports_width (hr : Reports s m p W H vb d pics ex) (t0 : 0 ≤ t) (htf : binary32.rnd t = t) (ht : val (effParams s.cfg m (some p)).threshold ≤ t)
    {N : ℕ} (h1 : p.range ≤ N) (h2 : N + p.range < W) (hs : ∀ pic ∈ pics, t ≤ sureShare d (fun y x => dct2 W H pic x y) H p.range N) :
    ex.code = 0 ∧ ∃ q, t ≤ q ∧ q ≤ 1 ∧ ListsWidth vb ⟨N, .fin false q⟩ (cliText ex.shown) := by
  obtain ⟨l1, l2, e2, e3, e4, _⟩ := hr
  obtain ⟨q, hm, q1, q2⟩ := e4.sure t0 htf ht h1 h2 (by
    intro X hX
    obtain ⟨pic, hp, rfl⟩ := List.mem_map.mp hX
    exact hs pic hp)
  obtain ⟨hd, hne⟩ := e4.before hm
  exact ⟨by rw [e3, if_neg (fun h => hne h.2.1)], q, q1, q2, legible_width e2 hm hd⟩

@[inherit_doc reports_width]
theorem reports_height (hr : Reports s m p W H vb d pics ex) (t0 : 0 ≤ t) (htf : binary32.rnd t = t) (ht : val (effParams s.cfg m (some p)).threshold ≤ t)
    {N : ℕ} (h1 : p.range ≤ N) (h2 : N + p.range < H) (hs : ∀ pic ∈ pics, t ≤ sureShare d (fun x y => dct2 W H pic x y) W p.range N) :
    ex.code = 0 ∧ ∃ q, t ≤ q ∧ q ≤ 1 ∧ ListsHeight vb ⟨N, .fin false q⟩ (cliText ex.shown) := by
  obtain ⟨l1, l2, e2, e3, _, e4⟩ := hr
  obtain ⟨q, hm, q1, q2⟩ := e4.sure t0 htf ht h1 h2 (by
    intro X hX
    obtain ⟨pic, hp, rfl⟩ := List.mem_map.mp hX
    exact hs pic hp)
  obtain ⟨hd, hne⟩ := e4.before hm
  exact ⟨by rw [e3, if_neg (fun h => hne h.2.2)], q, q1, q2, legible_height e2 hm hd⟩

/-- **C82** The files hold pictures enlarged in one direction by a symmetric filter, from `N` samples.  If of the pairs of coefficients about `N` at
least the share `t` is at least the error `d`, in every picture, then `N` is printed, with a confidence of at least `t`. -/
theorem C82_enlarged (h : Job s io v permute words opts input m p w W H vb u B) (hd : 0 < d) (hr : Reports s m p W H vb d pics ex)
    (htf : binary32.rnd t = t) (ht : val (effParams s.cfg m (some p)).threshold ≤ t) (t0 : 0 ≤ t) {k N : ℕ} {F : Kernel k} (hF : F.Even N p.range) (hN : p.range ≤ N) :
    (W = k * N → N + p.range < W → (∀ pic ∈ pics, RowsEnlarged F N H pic ∧
        t * (H * p.range) ≤ clearPairs d (fun y x => dct2 W H pic x y) H p.range N) →
      ex.code = 0 ∧ ∃ q, t ≤ q ∧ q ≤ 1 ∧ ListsWidth vb ⟨N, .fin false q⟩ (cliText ex.shown)) ∧
    (H = k * N → N + p.range < H → (∀ pic ∈ pics, ColsEnlarged F N W pic ∧
        t * (W * p.range) ≤ clearPairs d (fun x y => dct2 W H pic x y) W p.range N) →
      ex.code = 0 ∧ ∃ q, t ≤ q ∧ q ≤ 1 ∧ ListsHeight vb ⟨N, .fin false q⟩ (cliText ex.shown)) := by
  have r0 := h.range_pos
  obtain ⟨w0, h0⟩ := h.positive
  constructor
  · intro hW hlt hall
    refine reports_width hr t0 htf ht hN hlt fun pic hp => sure_flips hd h0 r0 ?_ (hall pic hp).2
    subst hW
    exact rows_flip (by omega) (Nat.pos_of_mul_pos_right w0) hF hN (hall pic hp).1
  · intro hH hlt hall
    refine reports_height hr t0 htf ht hN hlt fun pic hp => sure_flips hd w0 r0 ?_ (hall pic hp).2
    subst hH
    exact cols_flip (by omega) (Nat.pos_of_mul_pos_right h0) hF hN (hall pic hp).1

/-- **C82** The files hold pictures scaled in one direction from `N` samples to any number, by an interpolation curve; the coefficients of the
originals are at most `C`, and the curve lets through at most `A` of the indistinguishable frequencies.  If of the pairs of coefficients about `N`
at least the share `t` is at least the error `d` plus the effect of these frequencies, then `N` is printed, with a confidence of at least `t`. -/
theorem C82_scaled (h : Job s io v permute words opts input m p w W H vb u B) (hd : 0 < d) (hr : Reports s m p W H vb d pics ex)
    (htf : binary32.rnd t = t) (ht : val (effParams s.cfg m (some p)).threshold ≤ t) (t0 : 0 ≤ t) {N : ℕ} {κ : Curve} {A C : ℝ} (hκ : κ.Tame N)
    (hF : κ.Even N p.range) (hN : p.range ≤ N) (hC : 0 ≤ C) :
    (N + p.range < W → (∀ k, N - p.range ≤ k → k ≤ N + p.range → κ.alias N W k ≤ A) → (∀ pic ∈ pics, RowsScaled κ N W H C pic ∧
        t * (H * p.range) ≤ clearPairs (d + 2 * H * (W / N * (C * A))) (fun y x => dct2 W H pic x y) H p.range N) →
      ex.code = 0 ∧ ∃ q, t ≤ q ∧ q ≤ 1 ∧ ListsWidth vb ⟨N, .fin false q⟩ (cliText ex.shown)) ∧
    (N + p.range < H → (∀ k, N - p.range ≤ k → k ≤ N + p.range → κ.alias N H k ≤ A) → (∀ pic ∈ pics, ColsScaled κ N H W C pic ∧
        t * (W * p.range) ≤ clearPairs (d + 2 * W * (H / N * (C * A))) (fun x y => dct2 W H pic x y) W p.range N) →
      ex.code = 0 ∧ ∃ q, t ≤ q ∧ q ≤ 1 ∧ ListsHeight vb ⟨N, .fin false q⟩ (cliText ex.shown)) := by
  have r0 := h.range_pos
  obtain ⟨w0, h0⟩ := h.positive
  constructor
  · intro hlt hA hall
    have hA0 : 0 ≤ A := le_trans (alias_nonneg κ) (hA N (Nat.sub_le _ _) (Nat.le_add_right _ _))
    exact reports_width hr t0 htf ht hN hlt fun pic hp => sure_near hd (by positivity) h0 r0
      (rows_near (by omega) w0 hκ hF hN hA hC (hall pic hp).1) (hall pic hp).2
  · intro hlt hA hall
    have hA0 : 0 ≤ A := le_trans (alias_nonneg κ) (hA N (Nat.sub_le _ _) (Nat.le_add_right _ _))
    exact reports_height hr t0 htf ht hN hlt fun pic hp => sure_near hd (by positivity) w0 r0
      (cols_near (by omega) h0 hκ hF hN hA hC (hall pic hp).1) (hall pic hp).2

/-- The samples of a PGM depict its gray values. -/
theorem gray_depicts {maxval : ℕ} {raster : List UInt8} (m1 : 1 ≤ maxval) (hlen : raster.length = W * H) (hv : ∀ b ∈ raster, b.toNat ≤ maxval) :
    Depicts 1 (2 ^ (-24 : ℤ)) W H (raster.map (fun b => normal maxval b.toNat)) (gray W maxval raster) := by
  have key : ∀ i j, i < W → j < H → ∃ q : ℚ, (raster.map (fun b => normal maxval b.toNat))[j * W + i]? = some (.fin false q) ∧ |(q : ℝ)| ≤ 1 ∧
      |(q : ℝ) - gray W maxval raster i j| ≤ 2 ^ (-24 : ℤ) := by
    intro i j hi hj
    have hlt : j * W + i < raster.length := by
      rw [hlen]
      calc j * W + i < j * W + W := by omega
        _ = (j + 1) * W := by ring
        _ ≤ H * W := Nat.mul_le_mul_right W hj
        _ = W * H := mul_comm _ _
    obtain ⟨q, e, q1, q2⟩ := normal_near m1 (hv _ (List.getElem_mem hlt))
    refine ⟨q, ?_, q1, ?_⟩
    · rw [List.getElem?_map, List.getElem?_eq_getElem hlt, ← e]; rfl
    · unfold gray
      rw [List.getElem?_eq_getElem hlt]
      exact q2
  refine ⟨fun i j hi hj => ?_, fun i j hi hj => ?_⟩
  · obtain ⟨q, e, q1, _⟩ := key i j hi hj
    exact ⟨false, q, e, q1⟩
  · obtain ⟨q, e, _, q2⟩ := key i j hi hj
    unfold pixel
    rw [e]
    exact q2

/-- **C82** A PGM whose gray values differ from a picture by at most `δ`, as after rounding: what is printed is what exact arithmetic gives for that
picture, with coefficients known up to `totalError`. -/
theorem C82_pgm (h : Job s io v permute words opts input m p w W H vb u 1) {maxval : ℕ} {raster file : List UInt8} {k : Bool} {pic : ℕ → ℕ → ℝ}
    (ho : io.omitPgm = false) (hu : Uses s io input (cs "pgm") (opening s io opts input)) (hh : io.fs.Holds input (file, k))
    (hf : PgmFile W H maxval raster file) (hw : Verif.Within s.cfg W H) (hv : ∀ b ∈ raster, b.toNat ≤ maxval)
    (hpic : Near δ W H (gray W maxval raster) pic) (hk : Skips opts 0) (hsel : Chosen opts [raster] [raster]) (hexact : Exact s.cfg 1) (hfuel : 1 < fuel) :
    ∃ ex w', cliCommand s io v fuel permute words w = some (ex, w') ∧ Reports s m p W H vb (totalError u 1 (2 ^ (-24 : ℤ) + δ) W H) [pic] ex := by
  obtain ⟨m1, hlen⟩ : 1 ≤ maxval ∧ raster.length = W * H := by
    cases hf with
    | mk h3 h4 => cases h3; exact ⟨by assumption, h4⟩
  have hpl := C31_pgm ho hu hh hf hw
  have hy := (C48_plays hpl (k := 0)).1 (by simp) trivial
  rw [List.drop_zero] at hy
  have hone : 1 < s.cfg.sizeMax := by
    obtain ⟨a1, a2, _, a4⟩ := hw
    have := Nat.mul_pos a1 a2
    omega
  have hdep := gray_depicts m1 hlen hv
  have hall : List.Forall₂ (Depicts 1 (2 ^ (-24 : ℤ) + δ) W H) [raster.map (fun b => normal maxval b.toNat)] [pic] := .cons (depicts_near hdep hpic) .nil
  have hch := chosen_map (fun r : List UInt8 => r.map fun b => normal maxval b.toNat) hsel
  rw [List.map_singleton] at hch
  generalize raster.map (fun b => normal maxval b.toNat) = image at *
  exact C81_any h hk (.native (.pgm ho hu) hy) hch (List.cons_ne_nil _ _) hall hexact hone hfuel

/-- **C82** (partial) The same for the frames of a Y4M stream.  Missing: what is missing in `C81_y4m_partial`. -/
theorem C82_y4m_partial (h : Job s io v permute words opts input m p w W H vb u 1) {x : Sampling} {depth : ℕ} {frames sel : List (List ℕ)} {file : List UInt8}
    {k : Bool} (ho : io.omitY4m = false) (hu : Uses s io input (cs "y4m") (opening s io opts input)) (hh : io.fs.Holds input (file, k))
    (hf : Y4mFile W H x depth frames file) (hx : Skippable W H x) (hs : Feasible s.cfg W H x depth) (hlong : k = true → file.length ≤ s.cfg.longMax)
    (hk : Skips opts offset) (hpics : List.Forall₂ (fun l pic => Near δ W H (lumaPicture W depth l) pic) sel pics) (hle : offset ≤ frames.length)
    (hsel : Chosen opts (frames.drop offset) sel) (hne : sel ≠ []) (hexact : Exact s.cfg sel.length) (hlen : frames.length < s.cfg.sizeMax)
    (hfuel : frames.length < fuel) :
    ∃ ex w', cliCommand s io v fuel permute words w = some (ex, w') ∧ Reports s m p W H vb (totalError u 1 (2 ^ (-24 : ℤ) + δ) W H) pics ex :=
  y4m_reports h ho hu hh hf hx hs hlong hk hpics hle hsel hne hexact hlen hfuel

/-- **C82** (partial) The same for PFM images.  Missing: what is missing in `C81_pfm_partial`. -/
theorem C82_pfm_partial (h : Job s io v permute words opts input m p w W H vb u B) {images sel : List PfmImage} {file : List UInt8} {k : Bool}
    (ho : io.omitPfm = false) (hu : Uses s io input (cs "pfm") (opening s io opts input)) (hh : io.fs.Holds input (file, k))
    (hf : PfmFile W H images file) (hw : Verif.Within s.cfg W H) (hlong : k = true → file.length ≤ s.cfg.longMax) (hk : Skips opts offset)
    (hkind : offset = 0 ∨ ∃ colour, (∀ i ∈ images, i.colour = colour) ∧ 4 * (if colour then 3 else 1) * W * H ≤ s.cfg.sizeMax)
    (hpics : List.Forall₂ (fun i pic => Near δ W H (pixel W i.samples) pic) sel pics) (hle : offset ≤ images.length)
    (hsel : Chosen opts (images.drop offset) sel) (hne : sel ≠ []) (hb : ∀ i ∈ sel, Sampled B W H i.samples)
    (hexact : Exact s.cfg sel.length) (hlen : images.length < s.cfg.sizeMax) (hfuel : images.length < fuel) :
    ∃ ex w', cliCommand s io v fuel permute words w = some (ex, w') ∧ Reports s m p W H vb (totalError u B δ W H) pics ex :=
  pfm_reports h ho hu hh hf hw hlong hk hkind hpics hle hsel hne hb hexact hlen hfuel

/-! ## Examples: width 2, scaled to 4 and to 9, in PGM files -/

namespace Demo

/-- resdet -v3 -r1 file -/
def plainWords (name : List UInt8) : List (List UInt8) := [cs "-v3", cs "-r1", name]

theorem plain_line {name : List UInt8} (hn : Operand name) : CommandLine true (plainWords name) (rowOpts "3") [name] := by
  have j : ∀ {c : Char} {f : List UInt8 → CliOpt} {a : List UInt8}, (c, f) ∈ valued → a ≠ [] → Phrase [ch '-' :: ([] ++ ch c :: a)] ([] ++ [f a]) :=
    fun h1 h2 => .joined .nil h1 h2
  exact .phrase (j (c := 'v') (a := cs "3") (by simp [valued]) (by decide)) (.phrase (j (c := 'r') (a := cs "1") (by simp [valued]) (by decide))
    (.operand rfl hn .nil))

theorem plain_job {W : ℕ} (hW : 1 < W) (hb : W < 100) (hmod : Moderate Demo.sysN (2 ^ (-24 : ℤ)) 1 W 1) (io : Io)
    {name : List UInt8} (hn : Operand name) : Job Demo.sysN io Demo.cliEnv true (plainWords name) (rowOpts "3") name Demo.sign { defaultParams Demo.sysN.cfg with range := 1 } Demo.w0 W 1 3
      (2 ^ (-24 : ℤ)) 1 where
  build := Demo.lp64_build _ _
  bundled := rfl
  precise := show Precise (lp64 .kiss) from ⟨by decide +kernel, by decide +kernel⟩
  accurate := Demo.sysN_accurate
  moderate := hmod
  heap := Demo.w0_wf
  memory := fun _ => rfl
  scores := by
    have hc : Demo.sysN.cfg = lp64 .kiss := rfl
    have e : (lp64 .kiss).sizeMax = 2 ^ 64 - 1 ∧ (lp64 .kiss).szInter = 8 := by decide +kernel
    rintro ⟨side, rfl | rfl, h⟩
    all_goals
      rw [hc, e.1, e.2] at h
      omega
  pixels := le_trans (show W * 1 ≤ 100 by omega) (show 100 ≤ 2 ^ (lp64 .kiss).inter.p by decide +kernel)
  size := by
    have hc : Demo.sysN.cfg = lp64 .kiss := rfl
    have e : (lp64 .kiss).sizeMax = 2 ^ 64 - 1 ∧ (lp64 .kiss).szCoeff = 4 ∧ 100 ≤ (lp64 .kiss).pixelMax ∧ 100 ≤ sideMax (lp64 .kiss) := by decide +kernel
    unfold expected
    rw [hc, if_neg (by omega), if_neg (by rw [e.1, e.2.1]; have := e.2.2; omega), if_neg (fun h => by cases h.1)]
  line := ⟨[], plain_line hn⟩
  wants := row_wants _ _ _
  sign := rfl
  unfiltered := rfl
  verbosity := verb "3" 3 (number_iff.mpr ⟨by decide, by decide, by decide⟩) (by decide +kernel)

/-- A ramp of 4 samples. -/
def file4 : List UInt8 := cs "P5\n4 1 255\n" ++ [255, 191, 64, 0]

/-- A ramp of 9 samples. -/
def file9 : List UInt8 := cs "P5\n9 1 255\n" ++ [255, 255, 241, 184, 128, 71, 14, 0, 0]

theorem file4_pgm : PgmFile 4 1 255 [255, 191, 64, 0] file4 := by
  have hh : PgmHead 4 1 255 (cs "P5\n4 1 255\n") := by
    refine PgmHead.mk (s0 := cs "\n") (s1 := []) (nW := cs "4") (s2 := cs " ") (nH := cs "1") (s3 := cs " ") (nM := cs "255") (lines := [])
      (sp := ch '\n') ?_ ?_ ?_ ?_ ?_ ?_ ?_ ?_ ?_ ?_ ?_ ?_ ?_ ?_ <;> (try simp only [Blank, Numeral, Digits, OneLine]) <;> decide
  exact PgmFile.mk (tail := []) hh rfl

theorem file9_pgm : PgmFile 9 1 255 [255, 255, 241, 184, 128, 71, 14, 0, 0] file9 := by
  have hh : PgmHead 9 1 255 (cs "P5\n9 1 255\n") := by
    refine PgmHead.mk (s0 := cs "\n") (s1 := []) (nW := cs "9") (s2 := cs " ") (nH := cs "1") (s3 := cs " ") (nM := cs "255") (lines := [])
      (sp := ch '\n') ?_ ?_ ?_ ?_ ?_ ?_ ?_ ?_ ?_ ?_ ?_ ?_ ?_ ?_ <;> (try simp only [Blank, Numeral, Digits, OneLine]) <;> decide
  exact PgmFile.mk (tail := []) hh rfl

theorem file4_near : Near (1 / 1020) 4 1 (gray 4 255 [255, 191, 64, 0]) (pixel 4 ramp4) := by
  intro i j hi hj
  obtain rfl : j = 0 := by omega
  have e : (255 : UInt8).toNat = 255 ∧ (191 : UInt8).toNat = 191 ∧ (64 : UInt8).toNat = 64 := by decide
  interval_cases i <;> norm_num [gray, pixel, ramp4, val, abs_le, e]

theorem file9_near : Near (1 / 510) 9 1 (gray 9 255 [255, 255, 241, 184, 128, 71, 14, 0, 0]) ramp9 := by
  intro i j hi hj
  obtain rfl : j = 0 := by omega
  have e : (255 : UInt8).toNat = 255 ∧ (241 : UInt8).toNat = 241 ∧ (184 : UInt8).toNat = 184 ∧ (128 : UInt8).toNat = 128 ∧ (71 : UInt8).toNat = 71 ∧
    (14 : UInt8).toNat = 14 := by decide
  interval_cases i <;> norm_num [gray, ramp9, abs_le, e]

theorem error4 : totalError (2 ^ (-24 : ℤ)) 1 (2 ^ (-24 : ℤ) + 1 / 1020) 4 1 ≤ 1 / 10 := by
  unfold totalError errorBound
  rw [primeSum_four, primeSum_one]
  norm_num

theorem error9 : totalError (2 ^ (-24 : ℤ)) 1 (2 ^ (-24 : ℤ) + 1 / 510) 9 1 ≤ 8 / 100 := by
  unfold totalError errorBound
  rw [primeSum_nine, primeSum_one]
  norm_num

theorem error_pos {u B e : ℝ} {W H : ℕ} (hu : 0 ≤ u) (hB : 0 ≤ B) (he : 0 < e) (hW : 0 < W) (hH : 0 < H) : 0 < totalError u B e W H := by
  unfold totalError errorBound
  positivity

end Demo

/-- The hypotheses of C82 for enlarged pictures can be met: width 2 doubled by linear interpolation and rounded to 8 bits. -/
example : ∃ ex w', cliCommand Demo.sysN (Demo.disk Demo.file4 true) Demo.cliEnv 2 true (Demo.plainWords (cs "a.pgm")) Demo.w0 = some (ex, w') ∧
    ex.code = 0 ∧ ∃ q, 1 ≤ q ∧ q ≤ 1 ∧ ListsWidth 3 ⟨2, .fin false q⟩ (cliText ex.shown) := by
  have hc : Demo.sysN.cfg = lp64 .kiss := rfl
  have hj := Demo.plain_job (W := 4) (by norm_num) (by norm_num) demoN_moderate (Demo.disk Demo.file4 true) (Or.inl (by decide) : Operand (cs "a.pgm"))
  obtain ⟨ex, w', h1, h2⟩ := C82_pgm (fuel := 2) hj rfl
    (.byType (ext := cs "pgm") (.suffix (cs "a") (cs "pgm") (by decide) (by decide)) (Or.inr (by decide)) rfl) (Demo.disk_holds (by decide)) Demo.file4_pgm
    (by rw [hc]; constructor <;> decide +kernel) (by decide) Demo.file4_near (Or.inl ⟨rfl, rfl⟩) (Or.inl ⟨rfl, rfl⟩)
    (show Exact (lp64 .kiss) 1 from ⟨by decide +kernel, by decide +kernel⟩) (by norm_num)
  refine ⟨ex, w', h1, (C82_enlarged (t := 1) (k := 2) (N := 2) (F := linear 2) hj (Demo.error_pos (by positivity) zero_le_one (by positivity) (by norm_num) one_pos) h2
    (by decide +kernel) hj.threshold_le zero_le_one (C74_linear (by norm_num) (by decide)).2 (by decide)).1 rfl (by decide) ?_⟩
  intro pic hp
  obtain rfl := List.mem_singleton.mp hp
  have := ramp4_pairs Demo.error4
  refine ⟨ramp4_enlarged, le_of_eq ?_⟩
  refine Eq.trans ?_ (congrArg Nat.cast this.symm)
  show (1 : ℚ) * ((1 : ℕ) * (1 : ℕ)) = (1 : ℕ)
  norm_num

/-- The hypotheses of C82 for scaled pictures can be met: width 2 scaled to 9 by linear interpolation and rounded to 8 bits. -/
example : ∃ ex w', cliCommand Demo.sysN (Demo.disk Demo.file9 true) Demo.cliEnv 2 true (Demo.plainWords (cs "a.pgm")) Demo.w0 = some (ex, w') ∧
    ex.code = 0 ∧ ∃ q, 1 ≤ q ∧ q ≤ 1 ∧ ListsWidth 3 ⟨2, .fin false q⟩ (cliText ex.shown) := by
  have hc : Demo.sysN.cfg = lp64 .kiss := rfl
  have hj := Demo.plain_job (W := 9) (by norm_num) (by norm_num) demoN_moderate9 (Demo.disk Demo.file9 true) (Or.inl (by decide) : Operand (cs "a.pgm"))
  obtain ⟨ex, w', h1, h2⟩ := C82_pgm (fuel := 2) hj rfl
    (.byType (ext := cs "pgm") (.suffix (cs "a") (cs "pgm") (by decide) (by decide)) (Or.inr (by decide)) rfl) (Demo.disk_holds (by decide)) Demo.file9_pgm
    (by rw [hc]; constructor <;> decide +kernel) (by decide) Demo.file9_near (Or.inl ⟨rfl, rfl⟩) (Or.inl ⟨rfl, rfl⟩)
    (show Exact (lp64 .kiss) 1 from ⟨by decide +kernel, by decide +kernel⟩) (by norm_num)
  refine ⟨ex, w', h1, (C82_scaled (t := 1) (N := 2) (κ := linearCurve) (C := 2) (A := (2 / Real.pi) ^ 2 * (2 : ℕ) ^ 2 / 72) hj
    (Demo.error_pos (by positivity) zero_le_one (by positivity) (by norm_num) one_pos) h2
    (by decide +kernel) hj.threshold_le zero_le_one (C76_curves (by norm_num : 1 < 2) (by norm_num : 0 < 1)).1.1
    (C76_curves (by decide) (by norm_num : 0 < 1)).1.2.1 (by decide) zero_le_two).1 (by decide) ?_ ?_⟩
  · intro k _ h4
    have h4 : k ≤ 2 + 1 := h4
    refine le_trans (C76_curves (by norm_num : 1 < 2) (by omega : k < 9)).1.2.2 ?_
    have hk : (k : ℝ) ≤ 3 := by exact_mod_cast h4
    have k0 : (0 : ℝ) ≤ k := by positivity
    refine div_le_div_of_nonneg_left (by positivity) (by norm_num) ?_
    push_cast
    nlinarith
  · intro pic hp
    obtain rfl := List.mem_singleton.mp hp
    have hq : (2 / Real.pi) ^ 2 ≤ 41 / 100 := by
      rw [div_pow, div_le_div_iff₀ (by positivity) (by norm_num)]
      nlinarith [Real.pi_gt_d2]
    have := Demo.error9
    have := ramp9_pairs (d := totalError (2 ^ (-24 : ℤ)) 1 (2 ^ (-24 : ℤ) + 1 / 510) 9 1 +
      2 * (1 : ℕ) * ((9 : ℕ) / (2 : ℕ) * (2 * ((2 / Real.pi) ^ 2 * (2 : ℕ) ^ 2 / 72)))) (by push_cast; linarith)
    refine ⟨ramp9_scaled, le_of_eq ?_⟩
    refine Eq.trans ?_ (congrArg Nat.cast this.symm)
    show (1 : ℚ) * ((1 : ℕ) * (1 : ℕ)) = (1 : ℕ)
    norm_num

end Verif.Props
