import Verif.Props.Accuracy
import Verif.Props.Evidence
import Verif.Proofs.Linear

/-! # Images enlarged by interpolation (C74) -/

namespace Verif.Props

open Spec

variable {s : Sys} {m : Option Method} {p : Option Params} {w h : ℕ} {ev : List (Call × Obs)} {a : Analysis}
  {rw rh : Option (List Res)} {cw ch : ℕ}

/-! ## C74 -/

/-- **C74** The exact spectrum of an image enlarged `k` times in one direction by a symmetric filter, from an original of `N` samples: it
vanishes at `N`, and coefficients at equal distances from `N` have opposite signs, if the filter treats both frequencies alike. -/
theorem C74_spectrum {N k range : ℕ} (hN : 0 < N) (hk : 0 < k) (hr : range ≤ N) {F : Kernel k} (hF : F.Even N range) {y : ℕ → ℕ → ℝ} :
    (RowsEnlarged F N h y → ∀ v < h, dct2 (k * N) h y N v = 0 ∧
      ∀ i, 1 ≤ i → i ≤ range → (0 < dct2 (k * N) h y (N - i) v ↔ dct2 (k * N) h y (N + i) v < 0) ∧
        (dct2 (k * N) h y (N - i) v < 0 ↔ 0 < dct2 (k * N) h y (N + i) v)) ∧
    (ColsEnlarged F N w y → ∀ u < w, dct2 w (k * N) y u N = 0 ∧
      ∀ i, 1 ≤ i → i ≤ range → (0 < dct2 w (k * N) y u (N - i) ↔ dct2 w (k * N) y u (N + i) < 0) ∧
        (dct2 w (k * N) y u (N - i) < 0 ↔ 0 < dct2 w (k * N) y u (N + i))) := by
  have key : ∀ {c x z : ℝ}, 0 < c → z = -c * x → (0 < x ↔ z < 0) ∧ (x < 0 ↔ 0 < z) := by
    intro c x z hc hz
    rw [hz]
    refine ⟨⟨fun h => by nlinarith, fun h => ?_⟩, ⟨fun h => by nlinarith, fun h => ?_⟩⟩
    · by_contra hx; nlinarith
    · by_contra hx; nlinarith
  constructor
  · intro hy v hv
    have hf := rows_flip hN hk hF hr hy
    refine ⟨hf.middle v hv, fun i h1 h2 => ?_⟩
    obtain ⟨c, c0, hc⟩ := hf.sides v hv i h1 h2
    exact key c0 hc
  · intro hy u hu
    have hf := cols_flip hN hk hF hr hy
    refine ⟨hf.middle u hu, fun i h1 h2 => ?_⟩
    obtain ⟨c, c0, hc⟩ := hf.sides u hu i h1 h2
    exact key c0 hc

/-- **C74** Repetition and linear interpolation treat all frequencies below twice the original size alike. -/
theorem C74_linear {N k range : ℕ} (hk : 0 < k) (hr : range < N) : (nearest k).Even N range ∧ (linear k).Even N range :=
  ⟨nearest_even' hk hr, linear_even' hk hr⟩

/-- **C74** Every symmetric filter that does not remove the highest frequency of the original treats frequencies close to it alike. -/
theorem C74_any {k : ℕ} (F : Kernel k) (h : F.curve 1 ≠ 0) :
    ∃ δ > 0, ∀ N range : ℕ, (range : ℝ) ≤ δ * N → F.Even N range := even_near F h

/-- **C74** Sign method, no filter.  Let every frame be (close to) an image enlarged in one direction by a symmetric filter from an
original of `N` samples.  If near `N` the computed coefficients are less than `d` away from those of the ideal image, and at least the share
`t` of the pairs of these is at least `d`, then `N` is reported with a confidence of at least `t`. -/
theorem C74_sign (hs : Build s) (hpr : Precise s.cfg) (hm : ValidMethod? m) (hp : ValidParams? s.cfg p)
    (hsign : (effMethod m).func = .sign) (hno : NoOom ev) (hk : (analysed ev).length ≤ s.cfg.sizeMax)
    (hx : Exact s.cfg (analysed ev).length) (hpix : w * h ≤ 2 ^ s.cfg.inter.p)
    (hf : (effParams s.cfg (effMethod m) p).compressionFilter = 0)
    (hr : Returned s m w h p ev a rw cw rh ch) {fs : List (List Fl)} (hfs : Spectra s a ev fs)
    {t : ℚ} (t0 : 0 ≤ t) (t1 : t ≤ 1) (htf : binary32.rnd t = t) (ht : val (effParams s.cfg (effMethod m) p).threshold ≤ t)
    {N k : ℕ} {F : Kernel k} (hF : F.Even N (effParams s.cfg (effMethod m) p).range)
    (hN : (effParams s.cfg (effMethod m) p).range ≤ N) :
    let range := (effParams s.cfg (effMethod m) p).range
    (∀ l, rw = some l → w = k * N → N + range < w →
      (∀ f ∈ fs, ∃ y d, RowsEnlarged F N h y ∧ Computed d (rows f w) (fun v u => dct2 w h y u v) h range N ∧
        t * (h * range) ≤ clearPairs d (fun v u => dct2 w h y u v) h range N) →
      ∃ r ∈ l, r.index = N ∧ ∃ v, r.confidence = .fin false v ∧ t ≤ v ∧ v ≤ 1) ∧
    (∀ l, rh = some l → h = k * N → N + range < h →
      (∀ f ∈ fs, ∃ y d, ColsEnlarged F N w y ∧ Computed d (cols f w) (fun u v => dct2 w h y u v) w range N ∧
        t * (w * range) ≤ clearPairs d (fun u v => dct2 w h y u v) w range N) →
      ∃ r ∈ l, r.index = N ∧ ∃ v, r.confidence = .fin false v ∧ t ≤ v ∧ v ≤ 1) := by
  intro range
  obtain ⟨w0, h0, _, _, r0, _⟩ := returned_sizes hs hpr hm hp hr
  have r0 : 0 < range := r0
  have hN : range ≤ N := hN
  obtain ⟨h1, h2⟩ := C75_listed hs hpr hm hp hno hk hx hpix hr hfs t0 le_rfl htf (binary32.rnd_one binary32_wf) hf ht
  have conv : ∀ {g : ℕ → ℕ → Fl} {n c : ℕ}, 0 < n → t * (n * range) ≤ c → c ≤ signMatches g n range N →
      t ≤ evidence s .sign g n range N ∧ evidence s .sign g n range N ≤ 1 := by
    intro g n c hn h3 h4
    have hpos : (0 : ℚ) < n * range := by exact_mod_cast Nat.mul_pos hn r0
    have h5 : signMatches g n range N ≤ n * range := signMatches_le g n range N
    constructor
    · show t ≤ _ / _
      rw [le_div_iff₀ hpos]
      have : (c : ℚ) ≤ signMatches g n range N := by exact_mod_cast h4
      linarith
    · show _ / _ ≤ (1 : ℚ)
      rw [div_le_one hpos]
      exact_mod_cast h5
  constructor
  · rintro l hl rfl hlt hall
    have hkpos : 0 < k := by rcases Nat.eq_zero_or_pos k with rfl | h <;> omega
    refine h1 l hl N hN hlt (fun f hfm => ?_)
    obtain ⟨y, d, q1, q2, q3⟩ := hall f hfm
    rw [hsign]
    exact conv h0 q3 (clear_signs (rows_flip (by omega) hkpos hF hN q1) q2)
  · rintro l hl rfl hlt hall
    have hkpos : 0 < k := by rcases Nat.eq_zero_or_pos k with rfl | h <;> omega
    refine h2 l hl N hN hlt (fun f hfm => ?_)
    obtain ⟨y, d, q1, q2, q3⟩ := hall f hfm
    rw [hsign]
    exact conv w0 q3 (clear_signs (cols_flip (by omega) hkpos hF hN q1) q2)

/-- **C74** Zero crossing method, no filter: likewise, if at least the share `t` of the pairs of neighbours of `N` is at least `2 * d`. -/
theorem C74_zerox (hs : Build s) (hpr : Precise s.cfg) (hm : ValidMethod? m) (hp : ValidParams? s.cfg p)
    (hz : (effMethod m).func = .zerox) (hno : NoOom ev) (hk : (analysed ev).length ≤ s.cfg.sizeMax)
    (hx : Exact s.cfg (analysed ev).length) (hpix : w * h ≤ 2 ^ s.cfg.inter.p)
    (hf : (effParams s.cfg (effMethod m) p).compressionFilter = 0)
    (hr : Returned s m w h p ev a rw cw rh ch) {fs : List (List Fl)} (hfs : Spectra s a ev fs)
    {t : ℚ} (t0 : 0 ≤ t) (t1 : t ≤ 1) (htf : binary32.rnd t = t) (ht : val (effParams s.cfg (effMethod m) p).threshold ≤ t)
    {N k : ℕ} {F : Kernel k} (hF : F.Even N 1) (hN : 1 ≤ N) :
    (∀ l, rw = some l → w = k * N → N + 1 < w →
      (∀ f ∈ fs, ∃ y d, RowsEnlarged F N h y ∧ Computed d (rows f w) (fun v u => dct2 w h y u v) h 1 N ∧
        t * h ≤ clearPairs (2 * d) (fun v u => dct2 w h y u v) h 1 N) →
      ∃ r ∈ l, r.index = N ∧ ∃ v, r.confidence = .fin false v ∧ t ≤ v ∧ v ≤ 1) ∧
    (∀ l, rh = some l → h = k * N → N + 1 < h →
      (∀ f ∈ fs, ∃ y d, ColsEnlarged F N w y ∧ Computed d (cols f w) (fun u v => dct2 w h y u v) w 1 N ∧
        t * w ≤ clearPairs (2 * d) (fun u v => dct2 w h y u v) w 1 N) →
      ∃ r ∈ l, r.index = N ∧ ∃ v, r.confidence = .fin false v ∧ t ≤ v ∧ v ≤ 1) := by
  obtain ⟨w0, h0, _, _, r0, _⟩ := returned_sizes hs hpr hm hp hr
  have hr1 : (effParams s.cfg (effMethod m) p).range = 1 := by
    unfold effParams; simp only; rw [if_pos hz]
  obtain ⟨h1, h2⟩ := C75_listed hs hpr hm hp hno hk hx hpix hr hfs t0 le_rfl htf (binary32.rnd_one binary32_wf) hf ht
  have conv : ∀ {g : ℕ → ℕ → Fl} {n c r : ℕ}, 0 < n → t * n ≤ c → c ≤ crossings g n N →
      t ≤ evidence s .zerox g n r N ∧ evidence s .zerox g n r N ≤ 1 := by
    intro g n c r hn h3 h4
    have hpos : (0 : ℚ) < n := by exact_mod_cast hn
    constructor
    · show t ≤ _ / _
      rw [le_div_iff₀ hpos]
      have : (c : ℚ) ≤ crossings g n N := by exact_mod_cast h4
      linarith
    · show _ / _ ≤ (1 : ℚ)
      rw [div_le_one hpos]
      exact_mod_cast crossings_le g n N
  constructor
  · rintro l hl rfl hlt hall
    have hkpos : 0 < k := by rcases Nat.eq_zero_or_pos k with rfl | h <;> omega
    refine h1 l hl N (by omega) (by omega) (fun f hfm => ?_)
    obtain ⟨y, d, q1, q2, q3⟩ := hall f hfm
    rw [hz]
    exact conv h0 q3 (clear_crossings (rows_flip hN hkpos hF hN q1) q2)
  · rintro l hl rfl hlt hall
    have hkpos : 0 < k := by rcases Nat.eq_zero_or_pos k with rfl | h <;> omega
    refine h2 l hl N (by omega) (by omega) (fun f hfm => ?_)
    obtain ⟨y, d, q1, q2, q3⟩ := hall f hfm
    rw [hz]
    exact conv w0 q3 (clear_crossings (cols_flip hN hkpos hF hN q1) q2)

/-- The error of a coefficient relative to the ideal image: that of the transform and that of samples rounded by at most `e`. -/
noncomputable def totalError (u M e : ℝ) (w h : ℕ) : ℝ := errorBound u M w h + 4 * (w * h * e)

/-- **C74** Sign method with the bundled transform, no filter.  Let the samples of every frame differ by at most `e` from an image
enlarged in one direction by a symmetric filter from an original of `N` samples.  If at least the share `t` of the pairs of coefficients of
these ideal images about `N` is at least `totalError`, then `N` is reported with a confidence of at least `t`. -/
theorem C74_bundled (hs : Build s) (hb : s.cfg.backend = .kiss) (hpr : Precise s.cfg) (hm : ValidMethod? m) (hp : ValidParams? s.cfg p)
    (hsign : (effMethod m).func = .sign) (hno : NoOom ev) (hk : (analysed ev).length ≤ s.cfg.sizeMax)
    (hx : Exact s.cfg (analysed ev).length) (hpix : w * h ≤ 2 ^ s.cfg.inter.p)
    (hf : (effParams s.cfg (effMethod m) p).compressionFilter = 0)
    (hr : Returned s m w h p ev a rw cw rh ch) {u M e : ℝ} (ha : Accurate s u) (hmod : Moderate s u M w h)
    (hsafe : (Smooth w ∧ Smooth h) ∨ ∀ x ∈ analysed ev, Plenty x.1.world)
    {t : ℚ} (t0 : 0 ≤ t) (t1 : t ≤ 1) (htf : binary32.rnd t = t) (ht : val (effParams s.cfg (effMethod m) p).threshold ≤ t)
    {N k : ℕ} {F : Kernel k} (hF : F.Even N (effParams s.cfg (effMethod m) p).range)
    (hN : (effParams s.cfg (effMethod m) p).range ≤ N) :
    let range := (effParams s.cfg (effMethod m) p).range
    (∀ l, rw = some l → w = k * N → N + range < w →
      (∀ x ∈ analysed ev, ∃ image, x.1.op = .analyze (some image) ∧ Sampled M w h image ∧
        ∃ y, (∀ i j, i < w → j < h → |pixel w image i j - y i j| ≤ e) ∧ RowsEnlarged F N h y ∧
          t * (h * range) ≤ clearPairs (totalError u M e w h) (fun v u => dct2 w h y u v) h range N) →
      ∃ r ∈ l, r.index = N ∧ ∃ v, r.confidence = .fin false v ∧ t ≤ v ∧ v ≤ 1) ∧
    (∀ l, rh = some l → h = k * N → N + range < h →
      (∀ x ∈ analysed ev, ∃ image, x.1.op = .analyze (some image) ∧ Sampled M w h image ∧
        ∃ y, (∀ i j, i < w → j < h → |pixel w image i j - y i j| ≤ e) ∧ ColsEnlarged F N w y ∧
          t * (w * range) ≤ clearPairs (totalError u M e w h) (fun u v => dct2 w h y u v) w range N) →
      ∃ r ∈ l, r.index = N ∧ ∃ v, r.confidence = .fin false v ∧ t ≤ v ∧ v ≤ 1) := by
  intro range
  obtain ⟨fs, hfs, _⟩ := (reach_inv hs hm hp hr.1).scores hno
  obtain ⟨h1, h2⟩ := C74_sign hs hpr hm hp hsign hno hk hx hpix hf hr hfs t0 t1 htf ht hF hN
  constructor
  · intro l hl hw hlt hall
    refine h1 l hl hw hlt (fun f hfm => ?_)
    obtain ⟨x, _, image, _, ⟨y, q1, q2, q3⟩, q4⟩ := C57_sign.forall₂_right
      (history_accuracy hs hb hm hp hr.1 ha hmod hsafe hfs (Q := fun image => ∃ y, (∀ i j, i < w → j < h → |pixel w image i j - y i j| ≤ e) ∧
        RowsEnlarged F N h y ∧ t * (h * range) ≤ clearPairs (totalError u M e w h) (fun v u => dct2 w h y u v) h range N) hall) f hfm
    exact ⟨y, _, q2, fun v hv i _ hi2 => within_shift (q4 i v (lt_of_le_of_lt hi2 hlt) hv) (dct2_apart q1 i v), q3⟩
  · intro l hl hh hlt hall
    refine h2 l hl hh hlt (fun f hfm => ?_)
    obtain ⟨x, _, image, _, ⟨y, q1, q2, q3⟩, q4⟩ := C57_sign.forall₂_right
      (history_accuracy hs hb hm hp hr.1 ha hmod hsafe hfs (Q := fun image => ∃ y, (∀ i j, i < w → j < h → |pixel w image i j - y i j| ≤ e) ∧
        ColsEnlarged F N w y ∧ t * (w * range) ≤ clearPairs (totalError u M e w h) (fun u v => dct2 w h y u v) w range N) hall) f hfm
    exact ⟨y, _, q2, fun v hv i _ hi2 => within_shift (q4 v i hv (lt_of_le_of_lt hi2 hlt)) (dct2_apart q1 v i), q3⟩

/-- A width of 2 doubled by linear interpolation. -/
def ramp4 : List Fl := [1, 3 / 4, 1 / 4, 0].map (fun q : ℚ => .fin false q)

theorem ramp4_sampled : Sampled 1 4 1 ramp4 := by
  intro i j hi hj
  obtain rfl : j = 0 := by omega
  interval_cases i
  · exact ⟨false, 1, rfl, by norm_num⟩
  · exact ⟨false, 3 / 4, rfl, by norm_num [abs_of_pos]⟩
  · exact ⟨false, 1 / 4, rfl, by norm_num [abs_of_pos]⟩
  · exact ⟨false, 0, rfl, by norm_num⟩

theorem ramp4_enlarged : RowsEnlarged (linear 2) 2 1 (pixel 4 ramp4) := by
  intro j hj
  obtain rfl : j = 0 := by omega
  refine ⟨fun i => if i = 0 then 1 else 0, ?_⟩
  intro a ha b hb
  show pixel 4 ramp4 (2 * a + b) 0 = ∑ t ∈ ({-1, 0, 1} : Finset ℤ), (max 0 (1 - |((b : ℝ) + 1 / 2) / (2 : ℕ) - 1 / 2 - t|) : ℝ) * mirrored 2 _ (a + t)
  rw [Finset.sum_insert (by decide), Finset.sum_insert (by decide), Finset.sum_singleton]
  interval_cases a <;> interval_cases b <;>
    norm_num [mirrored, pixel, ramp4, val, abs_of_pos, abs_of_neg, max_eq_left, max_eq_right]
  decide

theorem ramp4_pairs {d : ℝ} (hE : d ≤ 1 / 10) : clearPairs d (fun v u => dct2 4 1 (pixel 4 ramp4) u v) 1 1 2 = 1 := by
  have hd : ∀ u, dct2 4 1 (pixel 4 ramp4) u 0 =
      4 * (Real.cos (Real.pi * u / 8) + 3 / 4 * Real.cos (3 * Real.pi * u / 8) + 1 / 4 * Real.cos (5 * Real.pi * u / 8)) := by
    intro u
    unfold dct2 dct pixel
    simp only [Finset.sum_range_succ, Finset.sum_range_zero, ramp4, val]
    norm_num
    have e1 : Real.pi * (1 / 2) * u / 4 = Real.pi * u / 8 := by ring
    have e2 : Real.pi * (1 + 1 / 2) * u / 4 = 3 * Real.pi * u / 8 := by ring
    have e3 : Real.pi * (2 + 1 / 2) * u / 4 = 5 * Real.pi * u / 8 := by ring
    norm_num at e1 e2 e3
    rw [e1, e2, e3]
    ring
  have s2a : (1.414 : ℝ) < √2 := by rw [Real.lt_sqrt (by norm_num)]; norm_num
  have s2b : √2 < (1.415 : ℝ) := by rw [Real.sqrt_lt' (by norm_num)]; norm_num
  have ca : (0.92 : ℝ) < Real.cos (Real.pi / 8) := by
    rw [Real.cos_pi_div_eight]
    have : (1.84 : ℝ) < √(2 + √2) := by rw [Real.lt_sqrt (by norm_num)]; norm_num; linarith
    linarith
  have sa : (0.38 : ℝ) < Real.sin (Real.pi / 8) := by
    rw [Real.sin_pi_div_eight]
    have : (0.76 : ℝ) < √(2 - √2) := by rw [Real.lt_sqrt (by norm_num)]; norm_num; linarith
    linarith
  have sb : Real.sin (Real.pi / 8) < (0.39 : ℝ) := by
    rw [Real.sin_pi_div_eight]
    have : √(2 - √2) < (0.78 : ℝ) := by rw [Real.sqrt_lt' (by norm_num)]; norm_num; linarith
    linarith
  have c3 : Real.cos (3 * Real.pi / 8) = Real.sin (Real.pi / 8) := by
    rw [← Real.cos_pi_div_two_sub]; congr 1; ring
  have c5 : Real.cos (5 * Real.pi / 8) = -Real.sin (Real.pi / 8) := by
    rw [← c3, ← Real.cos_pi_sub]; congr 1; ring
  have c9 : Real.cos (9 * Real.pi / 8) = -Real.cos (Real.pi / 8) := by
    rw [← Real.cos_add_pi]; congr 1; ring
  have c15 : Real.cos (15 * Real.pi / 8) = Real.cos (Real.pi / 8) := by
    rw [← Real.cos_two_pi_sub]; congr 1; ring
  have X1 : dct2 4 1 (pixel 4 ramp4) 1 0 = 4 * (Real.cos (Real.pi / 8) + 1 / 2 * Real.sin (Real.pi / 8)) := by
    rw [hd]
    have e1 : Real.pi * (1 : ℕ) / 8 = Real.pi / 8 := by push_cast; ring
    have e2 : 3 * Real.pi * (1 : ℕ) / 8 = 3 * Real.pi / 8 := by push_cast; ring
    have e3 : 5 * Real.pi * (1 : ℕ) / 8 = 5 * Real.pi / 8 := by push_cast; ring
    rw [e1, e2, e3, c3, c5]; ring
  have X3 : dct2 4 1 (pixel 4 ramp4) 3 0 = 4 * (Real.sin (Real.pi / 8) - 1 / 2 * Real.cos (Real.pi / 8)) := by
    rw [hd]
    have e1 : Real.pi * (3 : ℕ) / 8 = 3 * Real.pi / 8 := by push_cast; ring
    have e2 : 3 * Real.pi * (3 : ℕ) / 8 = 9 * Real.pi / 8 := by push_cast; ring
    have e3 : 5 * Real.pi * (3 : ℕ) / 8 = 15 * Real.pi / 8 := by push_cast; ring
    rw [e1, e2, e3, c3, c9, c15]; ring
  unfold clearPairs
  rw [Finset.filter_true_of_mem]
  · simp
  · intro p hp
    simp only [Finset.range_one, Finset.mem_product, Finset.mem_singleton, Finset.Icc_self] at hp
    rw [hp.1, hp.2]
    show _ ≤ |dct2 4 1 (pixel 4 ramp4) 1 0| ∧ _ ≤ |dct2 4 1 (pixel 4 ramp4) 3 0|
    rw [X1, X3]
    constructor
    · refine le_trans hE ?_
      rw [le_abs]; left; linarith
    · refine le_trans hE ?_
      rw [le_abs]; right; linarith

theorem ramp4_clear : clearPairs (totalError (2 ^ (-24 : ℤ)) 1 (1 / 1024) 4 1) (fun v u => dct2 4 1 (pixel 4 ramp4) u v) 1 1 2 = 1 := by
  have hE : totalError (2 ^ (-24 : ℤ)) 1 (1 / 1024) 4 1 ≤ 1 / 10 := by
    unfold totalError errorBound
    rw [primeSum_four, primeSum_one]
    norm_num
  exact ramp4_pairs hE

/-- The hypotheses of C74 can be met: width 2 doubled by linear interpolation, with samples allowed to be off by 1/1024, on a platform with
accurate tables. -/
example : ∃ a c lw cw lh ch, Returned Demo.sysN none 4 1 (some Demo.params) [(c, .analyzed RDEOK)] a (some lw) cw (some lh) ch ∧
    ∃ r ∈ lw, r.index = 2 ∧ ∃ v, r.confidence = .fin false v ∧ 1 ≤ v ∧ v ≤ 1 := by
  have hb : Build Demo.sysN := Demo.lp64_build _ _
  have hv : ValidParams? Demo.sysN.cfg (some Demo.params) := by
    intro q hq
    obtain ⟨h1, h2, h3, h4⟩ := Demo.params_valid q hq
    exact ⟨h1, h2, h3, h4⟩
  have hr1 : (effParams Demo.sysN.cfg (effMethod none) (some Demo.params)).range = 1 := by
    show (effParams (lp64 .kiss) (effMethod none) (some Demo.params)).range = 1
    decide +kernel
  obtain ⟨a, c, f, lw, lh, cw, ch, hret, hop, hspec⟩ := single_run (s := Demo.sysN) (wd := Demo.w0) (w := 4) (h := 1)
    hb Demo.none_method (p := some Demo.params) hv (by decide) (by norm_num) (by norm_num)
    (show 4 * 1 ≤ (lp64 .kiss).pixelMax ∧ 4 * 1 * (lp64 .kiss).szCoeff ≤ (lp64 .kiss).sizeMax from ⟨by decide +kernel, by decide +kernel⟩)
    (show 4 ≤ sideMax (lp64 .kiss) by decide +kernel) (show 1 ≤ sideMax (lp64 .kiss) by decide +kernel) (fun h => by cases h)
    (by rw [hr1]; show ¬ ScoresTooBig (lp64 .kiss) 4 1 1; unfold ScoresTooBig; decide +kernel)
    (image := ramp4) (by decide) (by unfold AllFinite; decide +kernel) Demo.w0_wf (fun _ => rfl)
  have han : analysed [(c, Obs.analyzed RDEOK)] = [(c, Obs.analyzed RDEOK)] := by simp [analysed]
  refine ⟨a, c, lw, cw, lh, ch, hret, ?_⟩
  have hpr : Precise Demo.sysN.cfg := show Precise (lp64 .kiss) from ⟨by decide +kernel, by decide +kernel⟩
  refine (C74_bundled (s := Demo.sysN) (k := 2) (N := 2) (t := 1) (e := 1 / 1024) (F := linear 2) hb rfl hpr Demo.none_method hv rfl
    demo4_noOom (by rw [han]; exact (by decide +kernel : 1 ≤ (lp64 .kiss).sizeMax))
    (by rw [han]; exact ⟨show 1 * 2 ^ 24 ≤ 2 ^ (lp64 .kiss).inter.p by decide +kernel, show (lp64 .kiss).inter.qmin ≤ -149 by decide +kernel⟩)
    (show 4 * 1 ≤ 2 ^ (lp64 .kiss).inter.p by decide +kernel) rfl hret
    Demo.sysN_accurate demoN_moderate (Or.inl ⟨?_, ?_⟩) zero_le_one le_rfl (by decide +kernel)
    (show val (effParams (lp64 .kiss) (effMethod none) (some Demo.params)).threshold ≤ 1 by decide +kernel)
    (by rw [hr1]; exact (C74_linear (by norm_num) (by norm_num)).2) (by rw [hr1]; norm_num)).1 lw rfl rfl (by rw [hr1]; norm_num) ?_
  · intro q _ hd
    have := Nat.le_of_dvd (by norm_num) hd
    omega
  · intro q _ hd
    have := Nat.le_of_dvd (by norm_num) hd
    omega
  · rw [han, hr1]
    intro x hx
    rw [List.mem_singleton] at hx
    subst hx
    refine ⟨_, hop, ramp4_sampled, pixel 4 ramp4, fun i j _ _ => by rw [sub_self, abs_zero]; norm_num, ramp4_enlarged, ?_⟩
    rw [ramp4_clear]
    norm_num

end Verif.Props
