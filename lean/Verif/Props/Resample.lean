import Verif.Props.Interpolate
import Verif.Proofs.Curves

/-! # Images scaled to any size by interpolation (C76) -/

namespace Verif.Props

open Spec

variable {s : Sys} {m : Option Method} {p : Option Params} {w h : ℕ} {ev : List (Call × Obs)} {a : Analysis}
  {rw rh : Option (List Res)} {cw ch : ℕ}

/-! ## C76 -/

/-- **C76** The exact coefficients of a sequence scaled from `N` to any number `M` of samples: those of the original, continued, times the
response of the curve, summed over the frequencies that `M` samples cannot distinguish. -/
theorem C76_spectrum {κ : Curve} {N M : ℕ} (hN : 0 < N) (hM : 0 < M) (hs : κ.Tame N) {o x : ℕ → ℝ} (hx : Scaled κ N M o x) {C : ℝ}
    (hC : ∀ n, |dct N o n| ≤ C) (k : ℕ) :
    HasSum (fun j : ℤ => M / N * ((-1) ^ j * κ.response ((k + 2 * M * j : ℤ) / N) * dct N o (k + 2 * M * j : ℤ).natAbs)) (dct M x k) ∧
    |dct M x k - M / N * (κ.response (k / N) * dct N o k)| ≤ M / N * (C * κ.alias N M k) :=
  ⟨dct_scaled κ hN hM hs hx hC k, dct_main κ hN hM hs hx hC k⟩

/-- **C76** Linear and cubic interpolation: the frequencies add up, all frequencies below twice the original size are treated alike, and
little is let through of the indistinguishable ones. -/
theorem C76_curves {N M k range : ℕ} (hr : range < N) (hk : k < M) :
    (linearCurve.Tame N ∧ linearCurve.Even N range ∧ linearCurve.alias N M k ≤ (2 / Real.pi) ^ 2 * N ^ 2 / ((M : ℝ) ^ 2 - k ^ 2)) ∧
    (cubicCurve.Tame N ∧ cubicCurve.Even N range ∧ cubicCurve.alias N M k ≤ 20 / Real.pi ^ 2 * N ^ 2 / ((M : ℝ) ^ 2 - k ^ 2)) := by
  have hN : 0 < N := by omega
  exact ⟨⟨linear_tame hN, linear_curve_even hr, alias_bound (fun _ => linear_bound) hN hk⟩,
    cubic_tame hN, cubic_curve_even hr, alias_bound (fun _ => cubic_bound) hN hk⟩

/-- **C76** For every curve whose slope does not change abruptly the frequencies add up, and the share of the indistinguishable ones falls
with the square of the factor. -/
theorem C76_smooth (κ : Curve) {slope : ℝ → ℝ} {L : ℝ} (hd : ∀ t, HasDerivAt κ.weight (slope t) t)
    (hl : ∀ t u, |slope t - slope u| ≤ L * |t - u|) :
    ∃ V, ∀ N M k : ℕ, 0 < N → k < M → κ.Tame N ∧ κ.alias N M k ≤ V * N ^ 2 / ((M : ℝ) ^ 2 - k ^ 2) := by
  obtain ⟨V, hV⟩ := smooth_bound κ hd hl
  exact ⟨V, fun N M k hN hk => ⟨tame_of_bound κ hN hV, alias_bound hV hN hk⟩⟩

/-- **C76** Every curve that does not remove the highest frequency of the original treats frequencies close to it alike. -/
theorem C76_any (κ : Curve) (h : κ.response 1 ≠ 0) : ∃ δ > 0, ∀ N range : ℕ, (range : ℝ) ≤ δ * N → κ.Even N range := curve_near κ h

/-- **C76** Sign method, no filter.  Let every frame be (close to) an image scaled in one direction, from `N` samples with coefficients of at
most `C`, and let the curve let through at most `A` of the indistinguishable frequencies.  If near `N` the computed coefficients are less than
`d` away from those of the ideal image, and at least the share `t` of the pairs of these is at least `d` plus the effect of the
indistinguishable frequencies, then `N` is reported with a confidence of at least `t`. -/
theorem C76_sign (hs : Build s) (hpr : Precise s.cfg) (hm : ValidMethod? m) (hp : ValidParams? s.cfg p)
    (hsign : (effMethod m).func = .sign) (hno : NoOom ev) (hk : (analysed ev).length ≤ s.cfg.sizeMax)
    (hx : Exact s.cfg (analysed ev).length) (hpix : w * h ≤ 2 ^ s.cfg.inter.p)
    (hf : (effParams s.cfg (effMethod m) p).compressionFilter = 0)
    (hr : Returned s m w h p ev a rw cw rh ch) {fs : List (List Fl)} (hfs : Spectra s a ev fs)
    {t : ℚ} (t0 : 0 ≤ t) (t1 : t ≤ 1) (htf : binary32.rnd t = t) (ht : val (effParams s.cfg (effMethod m) p).threshold ≤ t)
    {N : ℕ} {κ : Curve} {A C : ℝ} (hκ : κ.Tame N) (hF : κ.Even N (effParams s.cfg (effMethod m) p).range)
    (hN : (effParams s.cfg (effMethod m) p).range ≤ N) (hC : 0 ≤ C) :
    let range := (effParams s.cfg (effMethod m) p).range
    (∀ l, rw = some l → N + range < w → (∀ k, N - range ≤ k → k ≤ N + range → κ.alias N w k ≤ A) →
      (∀ f ∈ fs, ∃ y d, RowsScaled κ N w h C y ∧ Computed d (rows f w) (fun v u => dct2 w h y u v) h range N ∧
        t * (h * range) ≤ clearPairs (d + 2 * h * (w / N * (C * A))) (fun v u => dct2 w h y u v) h range N) →
      ∃ r ∈ l, r.index = N ∧ ∃ v, r.confidence = .fin false v ∧ t ≤ v ∧ v ≤ 1) ∧
    (∀ l, rh = some l → N + range < h → (∀ k, N - range ≤ k → k ≤ N + range → κ.alias N h k ≤ A) →
      (∀ f ∈ fs, ∃ y d, ColsScaled κ N h w C y ∧ Computed d (cols f w) (fun u v => dct2 w h y u v) w range N ∧
        t * (w * range) ≤ clearPairs (d + 2 * w * (h / N * (C * A))) (fun u v => dct2 w h y u v) w range N) →
      ∃ r ∈ l, r.index = N ∧ ∃ v, r.confidence = .fin false v ∧ t ≤ v ∧ v ≤ 1) := by
  intro range
  obtain ⟨w0, h0, _, _, r0, _⟩ := returned_sizes hs hpr hm hp hr
  have r0 : 0 < range := r0
  have hN : range ≤ N := hN
  obtain ⟨h1, h2⟩ := C75_listed hs hpr hm hp hno hk hx hpix hr hfs t0 le_rfl htf (binary32.rnd_one binary32_wf) hf ht
  have conv : ∀ {g : ℕ → ℕ → Fl} {n c : ℕ}, 0 < n → t * (n * range) ≤ c → c ≤ signMatches g n range N →
      t ≤ evidence s .sign g n range N ∧ evidence s .sign g n range N ≤ 1 := by
    intro g n c hn h3 h4
    have hpos : (0 : ℚ) < n * range := by exact_mod_cast Nat.mul_pos hn r0
    have h5 : signMatches g n range N ≤ n * range := signMatches_le g n range N
    constructor
    · show t ≤ _ / _
      rw [le_div_iff₀ hpos]
      have : (c : ℚ) ≤ signMatches g n range N := by exact_mod_cast h4
      linarith
    · show _ / _ ≤ (1 : ℚ)
      rw [div_le_one hpos]
      exact_mod_cast h5
  constructor
  · intro l hl hlt hA hall
    refine h1 l hl N hN hlt (fun f hfm => ?_)
    obtain ⟨y, d, q1, q2, q3⟩ := hall f hfm
    rw [hsign]
    exact conv h0 q3 (near_signs (rows_near (by omega) w0 hκ hF hN hA hC q1) q2)
  · intro l hl hlt hA hall
    refine h2 l hl N hN hlt (fun f hfm => ?_)
    obtain ⟨y, d, q1, q2, q3⟩ := hall f hfm
    rw [hsign]
    exact conv w0 q3 (near_signs (cols_near (by omega) h0 hκ hF hN hA hC q1) q2)

/-- **C76** Zero crossing method, no filter: likewise, with the pairs of neighbours of `N` at least `2 * d` plus that effect. -/
theorem C76_zerox (hs : Build s) (hpr : Precise s.cfg) (hm : ValidMethod? m) (hp : ValidParams? s.cfg p)
    (hz : (effMethod m).func = .zerox) (hno : NoOom ev) (hk : (analysed ev).length ≤ s.cfg.sizeMax)
    (hx : Exact s.cfg (analysed ev).length) (hpix : w * h ≤ 2 ^ s.cfg.inter.p)
    (hf : (effParams s.cfg (effMethod m) p).compressionFilter = 0)
    (hr : Returned s m w h p ev a rw cw rh ch) {fs : List (List Fl)} (hfs : Spectra s a ev fs)
    {t : ℚ} (t0 : 0 ≤ t) (t1 : t ≤ 1) (htf : binary32.rnd t = t) (ht : val (effParams s.cfg (effMethod m) p).threshold ≤ t)
    {N : ℕ} {κ : Curve} {A C : ℝ} (hκ : κ.Tame N) (hF : κ.Even N 1) (hN : 1 ≤ N) (hC : 0 ≤ C) :
    (∀ l, rw = some l → N + 1 < w → (∀ k, N - 1 ≤ k → k ≤ N + 1 → κ.alias N w k ≤ A) →
      (∀ f ∈ fs, ∃ y d, RowsScaled κ N w h C y ∧ Computed d (rows f w) (fun v u => dct2 w h y u v) h 1 N ∧
        t * h ≤ clearPairs (2 * d + 2 * h * (w / N * (C * A))) (fun v u => dct2 w h y u v) h 1 N) →
      ∃ r ∈ l, r.index = N ∧ ∃ v, r.confidence = .fin false v ∧ t ≤ v ∧ v ≤ 1) ∧
    (∀ l, rh = some l → N + 1 < h → (∀ k, N - 1 ≤ k → k ≤ N + 1 → κ.alias N h k ≤ A) →
      (∀ f ∈ fs, ∃ y d, ColsScaled κ N h w C y ∧ Computed d (cols f w) (fun u v => dct2 w h y u v) w 1 N ∧
        t * w ≤ clearPairs (2 * d + 2 * w * (h / N * (C * A))) (fun u v => dct2 w h y u v) w 1 N) →
      ∃ r ∈ l, r.index = N ∧ ∃ v, r.confidence = .fin false v ∧ t ≤ v ∧ v ≤ 1) := by
  obtain ⟨w0, h0, _, _, r0, _⟩ := returned_sizes hs hpr hm hp hr
  have hr1 : (effParams s.cfg (effMethod m) p).range = 1 := by
    unfold effParams; simp only; rw [if_pos hz]
  obtain ⟨h1, h2⟩ := C75_listed hs hpr hm hp hno hk hx hpix hr hfs t0 le_rfl htf (binary32.rnd_one binary32_wf) hf ht
  have conv : ∀ {g : ℕ → ℕ → Fl} {n c r : ℕ}, 0 < n → t * n ≤ c → c ≤ crossings g n N →
      t ≤ evidence s .zerox g n r N ∧ evidence s .zerox g n r N ≤ 1 := by
    intro g n c r hn h3 h4
    have hpos : (0 : ℚ) < n := by exact_mod_cast hn
    constructor
    · show t ≤ _ / _
      rw [le_div_iff₀ hpos]
      have : (c : ℚ) ≤ crossings g n N := by exact_mod_cast h4
      linarith
    · show _ / _ ≤ (1 : ℚ)
      rw [div_le_one hpos]
      exact_mod_cast crossings_le g n N
  constructor
  · intro l hl hlt hA hall
    refine h1 l hl N (by omega) (by omega) (fun f hfm => ?_)
    obtain ⟨y, d, q1, q2, q3⟩ := hall f hfm
    rw [hz]
    exact conv h0 q3 (near_crossings (rows_near hN w0 hκ hF hN hA hC q1) q2)
  · intro l hl hlt hA hall
    refine h2 l hl N (by omega) (by omega) (fun f hfm => ?_)
    obtain ⟨y, d, q1, q2, q3⟩ := hall f hfm
    rw [hz]
    exact conv w0 q3 (near_crossings (cols_near hN h0 hκ hF hN hA hC q1) q2)

/-- **C76** Sign method with the bundled transform, no filter.  Let the samples of every frame differ by at most `e` from an image scaled in
one direction from `N` samples to any size.  If at least the share `t` of the pairs of coefficients of these ideal images about `N` is at
least `totalError` plus the effect of the indistinguishable frequencies, then `N` is reported with a confidence of at least `t`. -/
theorem C76_bundled (hs : Build s) (hb : s.cfg.backend = .kiss) (hpr : Precise s.cfg) (hm : ValidMethod? m) (hp : ValidParams? s.cfg p)
    (hsign : (effMethod m).func = .sign) (hno : NoOom ev) (hk : (analysed ev).length ≤ s.cfg.sizeMax)
    (hx : Exact s.cfg (analysed ev).length) (hpix : w * h ≤ 2 ^ s.cfg.inter.p)
    (hf : (effParams s.cfg (effMethod m) p).compressionFilter = 0)
    (hr : Returned s m w h p ev a rw cw rh ch) {u M e : ℝ} (ha : Accurate s u) (hmod : Moderate s u M w h)
    (hsafe : (Smooth w ∧ Smooth h) ∨ ∀ x ∈ analysed ev, Plenty x.1.world)
    {t : ℚ} (t0 : 0 ≤ t) (t1 : t ≤ 1) (htf : binary32.rnd t = t) (ht : val (effParams s.cfg (effMethod m) p).threshold ≤ t)
    {N : ℕ} {κ : Curve} {A C : ℝ} (hκ : κ.Tame N) (hF : κ.Even N (effParams s.cfg (effMethod m) p).range)
    (hN : (effParams s.cfg (effMethod m) p).range ≤ N) (hC : 0 ≤ C) :
    let range := (effParams s.cfg (effMethod m) p).range
    (∀ l, rw = some l → N + range < w → (∀ k, N - range ≤ k → k ≤ N + range → κ.alias N w k ≤ A) →
      (∀ x ∈ analysed ev, ∃ image, x.1.op = .analyze (some image) ∧ Sampled M w h image ∧
        ∃ y, (∀ i j, i < w → j < h → |pixel w image i j - y i j| ≤ e) ∧ RowsScaled κ N w h C y ∧
          t * (h * range) ≤ clearPairs (totalError u M e w h + 2 * h * (w / N * (C * A))) (fun v u => dct2 w h y u v) h range N) →
      ∃ r ∈ l, r.index = N ∧ ∃ v, r.confidence = .fin false v ∧ t ≤ v ∧ v ≤ 1) ∧
    (∀ l, rh = some l → N + range < h → (∀ k, N - range ≤ k → k ≤ N + range → κ.alias N h k ≤ A) →
      (∀ x ∈ analysed ev, ∃ image, x.1.op = .analyze (some image) ∧ Sampled M w h image ∧
        ∃ y, (∀ i j, i < w → j < h → |pixel w image i j - y i j| ≤ e) ∧ ColsScaled κ N h w C y ∧
          t * (w * range) ≤ clearPairs (totalError u M e w h + 2 * w * (h / N * (C * A))) (fun u v => dct2 w h y u v) w range N) →
      ∃ r ∈ l, r.index = N ∧ ∃ v, r.confidence = .fin false v ∧ t ≤ v ∧ v ≤ 1) := by
  intro range
  obtain ⟨fs, hfs, _⟩ := (reach_inv hs hm hp hr.1).scores hno
  obtain ⟨h1, h2⟩ := C76_sign hs hpr hm hp hsign hno hk hx hpix hf hr hfs t0 t1 htf ht hκ hF hN hC (A := A)
  constructor
  · intro l hl hlt hA hall
    refine h1 l hl hlt hA (fun f hfm => ?_)
    obtain ⟨x, _, image, _, ⟨y, q1, q2, q3⟩, q4⟩ := C57_sign.forall₂_right
      (history_accuracy hs hb hm hp hr.1 ha hmod hsafe hfs (Q := fun image => ∃ y, (∀ i j, i < w → j < h → |pixel w image i j - y i j| ≤ e) ∧
        RowsScaled κ N w h C y ∧
          t * (h * range) ≤ clearPairs (totalError u M e w h + 2 * h * (w / N * (C * A))) (fun v u => dct2 w h y u v) h range N) hall) f hfm
    exact ⟨y, _, q2, fun v hv i _ hi2 => within_shift (q4 i v (lt_of_le_of_lt hi2 hlt) hv) (dct2_apart q1 i v), q3⟩
  · intro l hl hlt hA hall
    refine h2 l hl hlt hA (fun f hfm => ?_)
    obtain ⟨x, _, image, _, ⟨y, q1, q2, q3⟩, q4⟩ := C57_sign.forall₂_right
      (history_accuracy hs hb hm hp hr.1 ha hmod hsafe hfs (Q := fun image => ∃ y, (∀ i j, i < w → j < h → |pixel w image i j - y i j| ≤ e) ∧
        ColsScaled κ N h w C y ∧
          t * (w * range) ≤ clearPairs (totalError u M e w h + 2 * w * (h / N * (C * A))) (fun u v => dct2 w h y u v) w range N) hall) f hfm
    exact ⟨y, _, q2, fun v hv i _ hi2 => within_shift (q4 v i hv (lt_of_le_of_lt hi2 hlt)) (dct2_apart q1 v i), q3⟩

/-- Width 2 scaled to 9 by linear interpolation. -/
noncomputable def ramp9 (i _j : ℕ) : ℝ := (([1, 1, 17 / 18, 13 / 18, 1 / 2, 5 / 18, 1 / 18, 0, 0] : List ℝ)[i]?).getD 0

/-- The same, rounded to multiples of 1/1024. -/
def ramp9im : List Fl := [1, 1, 967 / 1024, 739 / 1024, 1 / 2, 284 / 1024, 57 / 1024, 0, 0].map (fun q : ℚ => .fin false q)

theorem ramp9_sampled : Sampled 1 9 1 ramp9im := by
  intro i j hi hj
  obtain rfl : j = 0 := by omega
  interval_cases i <;> exact ⟨false, _, rfl, by norm_num [abs_of_pos]⟩

theorem ramp9_near : ∀ i j, i < 9 → j < 1 → |pixel 9 ramp9im i j - ramp9 i j| ≤ 1 / 1024 := by
  intro i j hi hj
  obtain rfl : j = 0 := by omega
  interval_cases i <;> norm_num [pixel, ramp9im, ramp9, val, abs_le]

theorem ramp9_scaled : RowsScaled linearCurve 2 9 1 2 ramp9 := by
  intro j hj
  obtain rfl : j = 0 := by omega
  refine ⟨fun i => if i = 0 then 1 else 0, fun n => ?_, fun i hi => ?_⟩
  · unfold dct
    rw [Finset.sum_range_succ, Finset.sum_range_one]
    show |2 * ((1 : ℝ) * _ + (0 : ℝ) * _)| ≤ 2
    rw [one_mul, zero_mul, add_zero, abs_mul, abs_two]
    have := Real.abs_cos_le_one (Real.pi * (((0 : ℕ) : ℝ) + 1 / 2) * n / (2 : ℕ))
    linarith
  · have hsub : ∀ q : ℝ, -1 < q → q < 2 → linearCurve.at 2 (fun i => if i = 0 then 1 else 0) q =
        ∑ j ∈ ({-1, 0, 1, 2} : Finset ℤ), max 0 (1 - |q - j|) * mirrored 2 (fun i => if i = 0 then 1 else 0) j := by
      intro q h1 h2
      refine Finset.sum_subset ?_ ?_
      · intro j hj
        rw [Finset.mem_Icc, Int.ceil_le, Int.le_floor] at hj
        have hj1 : q - 1 ≤ j := by simpa [linearCurve] using hj.1
        have hj2 : (j : ℝ) ≤ q + 1 := by simpa [linearCurve] using hj.2
        have a1 : (-2 : ℝ) < j := by linarith
        have a2 : (j : ℝ) < 3 := by linarith
        have b1 : -2 < j := by exact_mod_cast a1
        have b2 : j < 3 := by exact_mod_cast a2
        simp only [Finset.mem_insert, Finset.mem_singleton]
        omega
      · intro j _ hj
        rw [Finset.mem_Icc, Int.ceil_le, Int.le_floor, not_and_or, not_le, not_le] at hj
        have hj' : (j : ℝ) < q - 1 ∨ q + 1 < j := by simpa [linearCurve] using hj
        show max 0 (1 - |q - j|) * _ = 0
        rw [max_eq_left, zero_mul]
        rcases hj' with h | h
        · rw [abs_of_pos (by linarith)]; linarith
        · rw [abs_of_neg (by linarith)]; linarith
    rw [hsub _ (by have : (0 : ℝ) ≤ i := by positivity
                   push_cast; linarith) (by have : (i : ℝ) ≤ 8 := by exact_mod_cast (by omega : i ≤ 8)
                                            push_cast; linarith)]
    rw [Finset.sum_insert (by decide), Finset.sum_insert (by decide), Finset.sum_insert (by decide), Finset.sum_singleton]
    interval_cases i <;>
      norm_num [mirrored, ramp9, abs_of_pos, abs_of_neg, max_eq_left, max_eq_right] <;> decide

theorem primeSum_nine : primeSum 9 = 6 := by
  unfold primeSum
  rw [show (9 : ℕ) = 3 * 3 by norm_num, (Nat.perm_primeFactorsList_mul three_ne_zero three_ne_zero).sum_eq,
    Nat.primeFactorsList_prime Nat.prime_three]
  rfl

theorem demoN_moderate9 : Moderate Demo.sysN (2 ^ (-24 : ℤ)) 1 9 1 := by
  have e1 : pow2 (Demo.sysN.cfg.kiss.qmin - 1) = 1 / 2 ^ 150 := by show pow2 ((lp64 .kiss).kiss.qmin - 1) = _; decide +kernel
  have e2 : pow2 (Demo.sysN.cfg.kiss.emax - 1) = 2 ^ 127 := by show pow2 ((lp64 .kiss).kiss.emax - 1) = _; decide +kernel
  refine ⟨?_, ?_, ?_, ?_⟩
  · rw [e1]; norm_num
  · rw [e2]; norm_num
  · rw [primeSum_nine]; norm_num
  · rw [primeSum_one]; norm_num

theorem ramp9_pairs {d : ℝ} (hE : d ≤ 1 / 2) : clearPairs d (fun v u => dct2 9 1 ramp9 u v) 1 1 2 = 1 := by
  have hd : ∀ u, dct2 9 1 ramp9 u 0 = 4 * (Real.cos (Real.pi * u / 18) + Real.cos (3 * Real.pi * u / 18) +
      17 / 18 * Real.cos (5 * Real.pi * u / 18) + 13 / 18 * Real.cos (7 * Real.pi * u / 18) + 1 / 2 * Real.cos (9 * Real.pi * u / 18) +
      5 / 18 * Real.cos (11 * Real.pi * u / 18) + 1 / 18 * Real.cos (13 * Real.pi * u / 18)) := by
    intro u
    have e : ∀ i c : ℝ, 2 * i + 1 = c → Real.pi * (i + 1 / 2) * u / (9 : ℕ) = c * Real.pi * u / 18 := by
      intro i c h; rw [← h]; push_cast; ring
    unfold dct2 dct
    rw [Finset.sum_range_one]
    simp only [Finset.sum_range_succ, Finset.sum_range_zero, ramp9, Nat.cast_zero, Nat.cast_one, Nat.cast_ofNat]
    have e0 := e 0 1 (by norm_num)
    have e1 := e 1 3 (by norm_num)
    have e2 := e 2 5 (by norm_num)
    have e3 := e 3 7 (by norm_num)
    have e4 := e 4 9 (by norm_num)
    have e5 := e 5 11 (by norm_num)
    have e6 := e 6 13 (by norm_num)
    simp only [Nat.cast_ofNat, one_mul] at e0 e1 e2 e3 e4 e5 e6
    rw [e0, e1, e2, e3, e4, e5, e6]
    norm_num
    ring
  have hpi := Real.pi_pos
  have h3a : (1.7 : ℝ) < √3 := by rw [Real.lt_sqrt (by norm_num)]; norm_num
  have X1 : 3 ≤ dct2 9 1 ramp9 1 0 := by
    rw [hd]
    have f3 : Real.cos (3 * Real.pi * (1 : ℕ) / 18) = √3 / 2 := by
      rw [← Real.cos_pi_div_six]; congr 1; push_cast; ring
    have f9 : Real.cos (9 * Real.pi * (1 : ℕ) / 18) = 0 := by
      rw [← Real.cos_pi_div_two]; congr 1; push_cast; ring
    have f11 : Real.cos (11 * Real.pi * (1 : ℕ) / 18) = -Real.cos (7 * Real.pi * (1 : ℕ) / 18) := by
      rw [← Real.cos_pi_sub]; congr 1; push_cast; ring
    have f13 : Real.cos (13 * Real.pi * (1 : ℕ) / 18) = -Real.cos (5 * Real.pi * (1 : ℕ) / 18) := by
      rw [← Real.cos_pi_sub]; congr 1; push_cast; ring
    have p1 : 0 ≤ Real.cos (Real.pi * (1 : ℕ) / 18) := Real.cos_nonneg_of_mem_Icc ⟨by push_cast; linarith, by push_cast; linarith⟩
    have p5 : 0 ≤ Real.cos (5 * Real.pi * (1 : ℕ) / 18) := Real.cos_nonneg_of_mem_Icc ⟨by push_cast; linarith, by push_cast; linarith⟩
    have p7 : 0 ≤ Real.cos (7 * Real.pi * (1 : ℕ) / 18) := Real.cos_nonneg_of_mem_Icc ⟨by push_cast; linarith, by push_cast; linarith⟩
    rw [f3, f9, f11, f13]
    linarith
  have X3 : dct2 9 1 ramp9 3 0 ≤ -1 := by
    rw [hd]
    have g1 : Real.cos (Real.pi * (3 : ℕ) / 18) = √3 / 2 := by
      rw [← Real.cos_pi_div_six]; congr 1; push_cast; ring
    have g3 : Real.cos (3 * Real.pi * (3 : ℕ) / 18) = 0 := by
      rw [← Real.cos_pi_div_two]; congr 1; push_cast; ring
    have g5 : Real.cos (5 * Real.pi * (3 : ℕ) / 18) = -(√3 / 2) := by
      rw [← Real.cos_pi_div_six, ← Real.cos_pi_sub]; congr 1; push_cast; ring
    have g7 : Real.cos (7 * Real.pi * (3 : ℕ) / 18) = -(√3 / 2) := by
      rw [← Real.cos_pi_div_six, ← Real.cos_add_pi]; congr 1; push_cast; ring
    have g9 : Real.cos (9 * Real.pi * (3 : ℕ) / 18) = 0 := by
      rw [← neg_zero, ← Real.cos_pi_div_two, ← Real.cos_add_pi]; congr 1; push_cast; ring
    have g11 : Real.cos (11 * Real.pi * (3 : ℕ) / 18) = √3 / 2 := by
      rw [← Real.cos_pi_div_six, ← Real.cos_two_pi_sub]; congr 1; push_cast; ring
    have g13 : Real.cos (13 * Real.pi * (3 : ℕ) / 18) = √3 / 2 := by
      rw [← Real.cos_pi_div_six, ← Real.cos_add_two_pi (Real.pi / 6)]; congr 1; push_cast; ring
    rw [g1, g3, g5, g7, g9, g11, g13]
    linarith
  unfold clearPairs
  rw [Finset.filter_true_of_mem]
  · simp
  · intro p hp
    simp only [Finset.range_one, Finset.mem_product, Finset.mem_singleton, Finset.Icc_self] at hp
    rw [hp.1, hp.2]
    show _ ≤ |dct2 9 1 ramp9 1 0| ∧ _ ≤ |dct2 9 1 ramp9 3 0|
    constructor
    · refine le_trans hE ?_
      rw [le_abs]; left; linarith
    · refine le_trans hE ?_
      rw [le_abs]; right; linarith

theorem ramp9_clear : clearPairs (totalError (2 ^ (-24 : ℤ)) 1 (1 / 1024) 9 1 +
    2 * (1 : ℕ) * ((9 : ℕ) / (2 : ℕ) * (2 * ((2 / Real.pi) ^ 2 * (2 : ℕ) ^ 2 / 72)))) (fun v u => dct2 9 1 ramp9 u v) 1 1 2 = 1 := by
  have hE : totalError (2 ^ (-24 : ℤ)) 1 (1 / 1024) 9 1 + 2 * (1 : ℕ) * ((9 : ℕ) / (2 : ℕ) * (2 * ((2 / Real.pi) ^ 2 * (2 : ℕ) ^ 2 / 72))) ≤ 1 / 2 := by
    have hq : (2 / Real.pi) ^ 2 ≤ 4 / 9 := by
      rw [div_pow, div_le_div_iff₀ (by positivity) (by norm_num)]
      nlinarith [Real.pi_gt_three]
    have ht : totalError (2 ^ (-24 : ℤ)) 1 (1 / 1024) 9 1 ≤ 1 / 25 := by
      unfold totalError errorBound
      rw [primeSum_nine, primeSum_one]
      norm_num
    push_cast
    linarith
  exact ramp9_pairs hE

/-- The hypotheses of C76 can be met: width 2 scaled to 9, that is by 4.5, by linear interpolation, with samples rounded to multiples of
1/1024, on a platform with accurate tables. -/
example : ∃ a c lw cw lh ch, Returned Demo.sysN none 9 1 (some Demo.params) [(c, .analyzed RDEOK)] a (some lw) cw (some lh) ch ∧
    ∃ r ∈ lw, r.index = 2 ∧ ∃ v, r.confidence = .fin false v ∧ 1 ≤ v ∧ v ≤ 1 := by
  have hb : Build Demo.sysN := Demo.lp64_build _ _
  have hv : ValidParams? Demo.sysN.cfg (some Demo.params) := by
    intro q hq
    obtain ⟨h1, h2, h3, h4⟩ := Demo.params_valid q hq
    exact ⟨h1, h2, h3, h4⟩
  have hr1 : (effParams Demo.sysN.cfg (effMethod none) (some Demo.params)).range = 1 := by
    show (effParams (lp64 .kiss) (effMethod none) (some Demo.params)).range = 1
    decide +kernel
  obtain ⟨a, c, f, lw, lh, cw, ch, hret, hop, hspec⟩ := single_run (s := Demo.sysN) (wd := Demo.w0) (w := 9) (h := 1)
    hb Demo.none_method (p := some Demo.params) hv (by decide) (by norm_num) (by norm_num)
    (show 9 * 1 ≤ (lp64 .kiss).pixelMax ∧ 9 * 1 * (lp64 .kiss).szCoeff ≤ (lp64 .kiss).sizeMax from ⟨by decide +kernel, by decide +kernel⟩)
    (show 9 ≤ sideMax (lp64 .kiss) by decide +kernel) (show 1 ≤ sideMax (lp64 .kiss) by decide +kernel) (fun h => by cases h)
    (by rw [hr1]; show ¬ ScoresTooBig (lp64 .kiss) 9 1 1; unfold ScoresTooBig; decide +kernel)
    (image := ramp9im) (by decide) (by unfold AllFinite; decide +kernel) Demo.w0_wf (fun _ => rfl)
  have han : analysed [(c, Obs.analyzed RDEOK)] = [(c, Obs.analyzed RDEOK)] := by simp [analysed]
  refine ⟨a, c, lw, cw, lh, ch, hret, ?_⟩
  have hpr : Precise Demo.sysN.cfg := show Precise (lp64 .kiss) from ⟨by decide +kernel, by decide +kernel⟩
  refine (C76_bundled (s := Demo.sysN) (N := 2) (t := 1) (e := 1 / 1024) (κ := linearCurve) (C := 2)
    (A := (2 / Real.pi) ^ 2 * (2 : ℕ) ^ 2 / 72) hb rfl hpr Demo.none_method hv rfl
    demo4_noOom (by rw [han]; exact (by decide +kernel : 1 ≤ (lp64 .kiss).sizeMax))
    (by rw [han]; exact ⟨show 1 * 2 ^ 24 ≤ 2 ^ (lp64 .kiss).inter.p by decide +kernel, show (lp64 .kiss).inter.qmin ≤ -149 by decide +kernel⟩)
    (show 9 * 1 ≤ 2 ^ (lp64 .kiss).inter.p by decide +kernel) rfl hret
    Demo.sysN_accurate demoN_moderate9 (Or.inl ⟨?_, ?_⟩) zero_le_one le_rfl (by decide +kernel)
    (show val (effParams (lp64 .kiss) (effMethod none) (some Demo.params)).threshold ≤ 1 by decide +kernel)
    (C76_curves (by norm_num : 1 < 2) (by norm_num : 0 < 1)).1.1 (by rw [hr1]; exact (C76_curves (by norm_num) (by norm_num : 0 < 1)).1.2.1)
    (by rw [hr1]; norm_num) zero_le_two).1 lw rfl (by rw [hr1]; norm_num) ?_ ?_
  · intro q hq hd
    have := (Nat.Prime.dvd_mul hq).mp (show q ∣ 3 * 3 from hd)
    have := Nat.le_of_dvd (by norm_num) (this.elim id id)
    omega
  · intro q _ hd
    have := Nat.le_of_dvd (by norm_num) hd
    omega
  · rw [hr1]
    intro k h1 h2
    refine le_trans (C76_curves (by norm_num : 1 < 2) (by omega : k < 9)).1.2.2 ?_
    have hk : (k : ℝ) ≤ 3 := by exact_mod_cast h2
    have k0 : (0 : ℝ) ≤ k := by positivity
    refine div_le_div_of_nonneg_left (by positivity) (by norm_num) ?_
    push_cast
    nlinarith
  · rw [han, hr1]
    intro x hx
    rw [List.mem_singleton] at hx
    subst hx
    refine ⟨_, hop, ramp9_sampled, ramp9, ramp9_near, ramp9_scaled, ?_⟩
    rw [ramp9_clear]
    norm_num

theorem hinge_deriv (x : ℝ) : HasDerivAt (fun x : ℝ => max 0 x ^ 2) (2 * max 0 x) x := by
  have hr : ∀ x : ℝ, 0 ≤ x → HasDerivWithinAt (fun x : ℝ => max 0 x ^ 2) (2 * max 0 x) (Set.Ici 0) x := by
    intro x hx
    have h : HasDerivWithinAt (fun x : ℝ => x ^ 2) (2 * x) (Set.Ici 0) x := by
      simpa using (hasDerivAt_pow 2 x).hasDerivWithinAt
    rw [max_eq_right hx]
    exact h.congr (fun y hy => by rw [max_eq_right hy]) (by rw [max_eq_right hx])
  have hl : ∀ x : ℝ, x ≤ 0 → HasDerivWithinAt (fun x : ℝ => max 0 x ^ 2) (2 * max 0 x) (Set.Iic 0) x := by
    intro x hx
    have h : HasDerivWithinAt (fun _ : ℝ => (0 : ℝ)) 0 (Set.Iic 0) x := hasDerivWithinAt_const x _ _
    rw [max_eq_left hx, mul_zero]
    exact h.congr (fun y hy => by rw [max_eq_left hy]; norm_num) (by rw [max_eq_left hx]; norm_num)
  rcases lt_trichotomy x 0 with h | h | h
  · exact (hl x h.le).hasDerivAt (Iic_mem_nhds h)
  · have := (hl x h.le).union (hr x h.ge)
    rw [Set.Iic_union_Ici] at this
    exact hasDerivWithinAt_univ.mp this
  · exact (hr x h.le).hasDerivAt (Ici_mem_nhds h)

/-- A smooth bell. -/
noncomputable def bell : Curve where
  weight t := max 0 (1 - t ^ 2) ^ 2
  reach := 1
  continuous := by fun_prop
  symmetric := by intro t; rw [neg_sq]
  vanishes := by
    intro t ht
    rw [Nat.cast_one] at ht
    have : 1 ≤ t ^ 2 := by rw [← sq_abs]; nlinarith
    rw [max_eq_left (by linarith)]
    norm_num

/-- The hypotheses of C76 on smooth curves can be met. -/
example : ∃ (slope : ℝ → ℝ) (L : ℝ), (∀ t, HasDerivAt bell.weight (slope t) t) ∧ ∀ t u, |slope t - slope u| ≤ L * |t - u| := by
  refine ⟨fun t => 2 * max 0 (1 - t ^ 2) * (-(2 * t)), 8, fun t => ?_, fun s t => ?_⟩
  · have h : HasDerivAt (fun t : ℝ => 1 - t ^ 2) (-(2 * t)) t := by
      simpa using (hasDerivAt_pow 2 t).const_sub 1
    exact HasDerivAt.comp (h₂ := fun x : ℝ => max 0 x ^ 2) (h := fun t : ℝ => 1 - t ^ 2) t (hinge_deriv (1 - t ^ 2)) h
  · have one : ∀ s t : ℝ, |s| < 1 → 1 ≤ |t| → |2 * max 0 (1 - s ^ 2) * (-(2 * s)) - 2 * max 0 (1 - t ^ 2) * (-(2 * t))| ≤ 8 * |s - t| := by
      intro s t hs ht
      have hs2 : s ^ 2 < 1 := by rw [← sq_abs]; nlinarith [abs_nonneg s]
      have ht2 : 1 ≤ t ^ 2 := by rw [← sq_abs]; nlinarith
      rw [max_eq_right (by linarith), max_eq_left (by linarith), mul_zero, zero_mul, sub_zero]
      have e : |2 * (1 - s ^ 2) * (-(2 * s))| = 4 * (1 - |s| ^ 2) * |s| := by
        rw [abs_mul, abs_mul, abs_neg, abs_mul, abs_two, abs_of_pos (by linarith : 0 < 1 - s ^ 2), sq_abs]; ring
      rw [e]
      have h1 : 1 - |s| ≤ |s - t| := by
        have := abs_sub_abs_le_abs_sub t s
        rw [abs_sub_comm] at this
        linarith
      have h0 := abs_nonneg s
      nlinarith [mul_nonneg h0 (by linarith : 0 ≤ 1 - |s|)]
    show |2 * max 0 (1 - s ^ 2) * (-(2 * s)) - 2 * max 0 (1 - t ^ 2) * (-(2 * t))| ≤ 8 * |s - t|
    rcases lt_or_ge |s| 1 with hs | hs <;> rcases lt_or_ge |t| 1 with ht | ht
    · have hs2 : s ^ 2 < 1 := by rw [← sq_abs]; nlinarith [abs_nonneg s]
      have ht2 : t ^ 2 < 1 := by rw [← sq_abs]; nlinarith [abs_nonneg t]
      rw [max_eq_right (by linarith), max_eq_right (by linarith)]
      have e : 2 * (1 - s ^ 2) * (-(2 * s)) - 2 * (1 - t ^ 2) * (-(2 * t)) = (-4 * (1 - (s ^ 2 + s * t + t ^ 2))) * (s - t) := by ring
      rw [e, abs_mul]
      refine mul_le_mul_of_nonneg_right ?_ (abs_nonneg _)
      rw [abs_le]
      constructor <;> nlinarith [sq_nonneg (s + t), sq_nonneg (s - t)]
    · exact one s t hs ht
    · have := one t s ht hs
      rwa [abs_sub_comm, abs_sub_comm t s] at this
    · have hs2 : 1 ≤ s ^ 2 := by rw [← sq_abs]; nlinarith
      have ht2 : 1 ≤ t ^ 2 := by rw [← sq_abs]; nlinarith
      rw [max_eq_left (by linarith), max_eq_left (by linarith)]
      simp

end Verif.Props
