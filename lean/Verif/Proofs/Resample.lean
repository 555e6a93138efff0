import Verif.Spec.Resample
import Verif.Proofs.Linear
import Mathlib.Analysis.Fourier.PoissonSummation

/-! The cosine transform of a sequence scaled to any length. -/

namespace Verif
open Spec Real MeasureTheory FourierTransform

theorem curve_compact (κ : Curve) : HasCompactSupport κ.weight := by
  refine HasCompactSupport.intro (K := Set.Icc (-(κ.reach : ℝ)) κ.reach) isCompact_Icc (fun t ht => κ.vanishes t ?_)
  by_contra h
  rw [not_le, abs_lt] at h
  exact ht ⟨h.1.le, h.2.le⟩

theorem curve_integrable (κ : Curve) {g : ℝ → ℝ} (hg : Continuous g) : Integrable (fun t => κ.weight t * g t) :=
  (κ.continuous.mul hg).integrable_of_hasCompactSupport ((curve_compact κ).mul_right)

theorem odd_integral {g : ℝ → ℝ} (hg : ∀ t, g (-t) = -g t) : ∫ t, g t = 0 := by
  have h := integral_neg_eq_self g volume
  simp only [hg] at h
  rw [integral_neg] at h
  linarith

/-- The response as a Fourier transform. -/
theorem response_fourier (κ : Curve) {N : ℕ} (hN : 0 < N) (n : ℤ) :
    𝓕 (fun t : ℝ => (κ.weight (2 * N * t) : ℂ)) (n : ℝ) = ((1 / (2 * N) * κ.response (n / N) : ℝ) : ℂ) := by
  have hN' : (N : ℝ) ≠ 0 := by exact_mod_cast hN.ne'
  rw [fourier_real_eq_integral_exp_smul]
  have e : (fun v : ℝ => Complex.exp (↑(-2 * π * v * n) * Complex.I) • (κ.weight (2 * N * v) : ℂ)) =
      fun v : ℝ => (fun u : ℝ => Complex.exp (↑(-π * (n / N) * u) * Complex.I) • (κ.weight u : ℂ)) (2 * N * v) := by
    funext v
    simp only
    congr 3
    push_cast
    have : (N : ℂ) ≠ 0 := by exact_mod_cast hN.ne'
    field_simp
  rw [e, Measure.integral_comp_mul_left (fun u : ℝ => Complex.exp (↑(-π * (n / N) * u) * Complex.I) • (κ.weight u : ℂ)) (2 * N)]
  have e2 : (fun u : ℝ => Complex.exp (↑(-π * (n / N) * u) * Complex.I) • (κ.weight u : ℂ)) =
      fun u : ℝ => ((κ.weight u * cos (π * (n / N) * u) : ℝ) : ℂ) + ((κ.weight u * -sin (π * (n / N) * u) : ℝ) : ℂ) * Complex.I := by
    funext u
    rw [Complex.exp_mul_I, ← Complex.ofReal_cos, ← Complex.ofReal_sin, show -π * (n / N) * u = -(π * (n / N) * u) by ring, cos_neg, sin_neg]
    rw [smul_eq_mul]
    push_cast
    ring
  rw [e2, integral_add, integral_mul_const, integral_complex_ofReal, integral_complex_ofReal]
  · rw [odd_integral (g := fun u => κ.weight u * -sin (π * (n / N) * u))]
    · rw [abs_of_pos (by positivity)]
      unfold Curve.response
      rw [Complex.ofReal_zero, zero_mul, add_zero, Complex.real_smul]
      push_cast
      rw [one_div]
    · intro t
      rw [κ.symmetric, mul_neg (π * (n / N)) t, sin_neg]
      ring
  · exact (curve_integrable κ (g := fun u => cos (π * (n / N) * u)) (by fun_prop)).ofReal
  · exact (curve_integrable κ (g := fun u => -sin (π * (n / N) * u)) (by fun_prop)).ofReal.mul_const _

/-- The sum of the weights of all copies of a sample. -/
theorem poisson (κ : Curve) {N : ℕ} (hN : 0 < N) (hs : κ.Tame N) (x : ℝ) :
    HasSum (fun n : ℤ => 1 / (2 * N) * κ.response (n / N) * cos (π * n * x / N)) (∑' l : ℤ, κ.weight (x + 2 * N * l)) := by
  have hN' : (N : ℝ) ≠ 0 := by exact_mod_cast hN.ne'
  let f : ℝ → ℂ := fun t => (κ.weight (2 * N * t) : ℂ)
  have hc : Continuous f := by
    have := κ.continuous
    fun_prop
  have hO : f =O[Filter.cocompact ℝ] fun x : ℝ => |x| ^ (-2 : ℝ) := by
    have hcs : HasCompactSupport f := by
      have : HasCompactSupport (fun t : ℝ => κ.weight (2 * N * t)) :=
        (curve_compact κ).comp_homeomorph (Homeomorph.mulLeft₀ (2 * N : ℝ) (by positivity))
      exact this.comp_left (g := fun r : ℝ => (r : ℂ)) Complex.ofReal_zero
    have := hasCompactSupport_iff_eventuallyEq.mp hcs
    rw [Filter.coclosedCompact_eq_cocompact] at this
    exact this.trans_isBigO (Asymptotics.isBigO_zero _ _)
  have hF : Summable fun n : ℤ => 𝓕 f n := by
    have : (fun n : ℤ => 𝓕 f (n : ℝ)) = fun n : ℤ => ((1 / (2 * N) * κ.response (n / N) : ℝ) : ℂ) := by
      funext n; exact response_fourier κ hN n
    rw [this]
    exact Complex.ofRealCLM.summable (hs.mul_left _)
  have hp := Real.tsum_eq_tsum_fourier_of_rpow_decay_of_summable hc (b := 2) (by norm_num) hO hF (x / (2 * N))
  have hsum : Summable fun n : ℤ => 𝓕 f n * fourier n ((x / (2 * N) : ℝ) : UnitAddCircle) := by
    refine Summable.of_norm ?_
    have : (fun n : ℤ => ‖𝓕 f n * fourier n ((x / (2 * N) : ℝ) : UnitAddCircle)‖) = fun n : ℤ => ‖𝓕 f n‖ := by
      funext n
      rw [norm_mul, fourier_apply, Circle.norm_coe, mul_one]
    rw [this]
    exact hF.norm
  have hh := hsum.hasSum
  rw [← hp] at hh
  have hr := Complex.hasSum_re hh
  have e1 : (∑' n : ℤ, f (x / (2 * N) + n)).re = ∑' l : ℤ, κ.weight (x + 2 * N * l) := by
    have : (fun n : ℤ => f (x / (2 * N) + n)) = fun n : ℤ => ((κ.weight (x + 2 * N * n) : ℝ) : ℂ) := by
      funext n
      show ((κ.weight _ : ℝ) : ℂ) = _
      congr 2
      field_simp
    rw [this, ← Complex.ofReal_tsum, Complex.ofReal_re]
  rw [e1] at hr
  convert hr using 1
  funext n
  show _ = (𝓕 (fun t : ℝ => (κ.weight (2 * N * t) : ℂ)) (n : ℝ) * _).re
  rw [response_fourier κ hN n, Complex.re_ofReal_mul, fourier_coe_apply]
  congr 1
  have : (2 * π * Complex.I * n * ((x / (2 * N) : ℝ) : ℂ) / (1 : ℝ) : ℂ) = ((π * n * x / N : ℝ) : ℂ) * Complex.I := by
    push_cast
    have : (N : ℂ) ≠ 0 := by exact_mod_cast hN.ne'
    field_simp
  rw [this, Complex.exp_ofReal_mul_I_re]

/-- A sum over the integers, residue by residue. -/
theorem hasSum_residues {n : ℕ} (hn : 0 < n) {g : ℤ → ℝ} {S : ℕ → ℝ} (h : ∀ r < n, HasSum (fun l : ℤ => g (r + n * l)) (S r)) :
    HasSum g (∑ r ∈ Finset.range n, S r) := by
  have hn' : (0 : ℤ) < n := by exact_mod_cast hn
  have key : ∀ r ∈ Finset.range n, HasSum (fun j : ℤ => if j % n = r then g j else 0) (S r) := by
    intro r hr
    have hr : r < n := by simpa using hr
    have inj : Function.Injective (fun l : ℤ => (r : ℤ) + n * l) := by
      intro a b hab
      simp only at hab
      have : (n : ℤ) * a = n * b := by linarith
      exact mul_left_cancel₀ hn'.ne' this
    rw [← inj.hasSum_iff]
    · refine (h r hr).congr_fun ?_
      intro l
      show (if ((r : ℤ) + n * l) % n = r then _ else _) = _
      rw [if_pos]
      rw [Int.add_mul_emod_self_left, Int.emod_eq_of_lt (by omega) (by omega)]
    · intro j hj
      rw [if_neg]
      intro he
      refine hj ⟨j / n, ?_⟩
      have := Int.emod_add_mul_ediv j n
      simp only
      omega
  refine (hasSum_sum key).congr_fun ?_
  intro j
  have h0 : 0 ≤ j % n := Int.emod_nonneg _ hn'.ne'
  have h1 : j % n < n := Int.emod_lt_of_pos _ hn'
  rw [Finset.sum_eq_single (j % n).toNat]
  · rw [if_pos (by omega)]
  · intro r _ hne
    rw [if_neg (by omega)]
  · intro hmem
    exfalso
    apply hmem
    rw [Finset.mem_range]
    omega

theorem mirrored_shift {N : ℕ} (o : ℕ → ℝ) (j l : ℤ) : mirrored N o (j + (2 * N : ℕ) * l) = mirrored N o j := by
  unfold mirrored
  rw [Int.add_mul_emod_self_left]

/-- The value at a point as a sum over one period of the mirrored sequence. -/
theorem at_period (κ : Curve) {N : ℕ} (hN : 0 < N) (o : ℕ → ℝ) (p : ℝ) :
    κ.at N o p = ∑ r ∈ Finset.range (2 * N), mirrored N o r * ∑' l : ℤ, κ.weight (r - p + 2 * N * l) := by
  have hN' : (0 : ℝ) < N := by exact_mod_cast hN
  have out : ∀ j : ℤ, j ∉ Finset.Icc ⌈p - κ.reach⌉ ⌊p + κ.reach⌋ → κ.weight (p - j) * mirrored N o j = 0 := by
    intro j hj
    rw [Finset.mem_Icc, Int.ceil_le, Int.le_floor, not_and_or, not_le, not_le] at hj
    rw [κ.vanishes, zero_mul]
    rcases hj with h | h
    · rw [le_abs]; left; linarith
    · rw [le_abs]; right; linarith
  have h1 : HasSum (fun j : ℤ => κ.weight (p - j) * mirrored N o j) (κ.at N o p) := hasSum_sum_of_ne_finset_zero out
  refine h1.unique (hasSum_residues (by omega) ?_)
  intro r _
  have fin : HasSum (fun l : ℤ => κ.weight (r - p + 2 * N * l)) (∑' l : ℤ, κ.weight (r - p + 2 * N * l)) := by
    refine Summable.hasSum ?_
    refine summable_of_hasFiniteSupport ?_
    refine Set.Finite.subset (Set.finite_Icc ⌊(p - r - κ.reach) / (2 * N)⌋ ⌈(p - r + κ.reach) / (2 * N)⌉) ?_
    intro l hl
    rw [Function.mem_support] at hl
    have hlt : |(r : ℝ) - p + 2 * N * l| < κ.reach := by
      by_contra hc
      exact hl (κ.vanishes _ (not_lt.mp hc))
    rw [abs_lt] at hlt
    constructor
    · have : (⌊(p - r - κ.reach) / (2 * N)⌋ : ℝ) ≤ l := by
        refine le_trans (Int.floor_le _) ?_
        rw [div_le_iff₀ (by positivity)]
        linarith
      exact_mod_cast this
    · have : (l : ℝ) ≤ ⌈(p - r + κ.reach) / (2 * N)⌉ := by
        refine le_trans ?_ (Int.le_ceil _)
        rw [le_div_iff₀ (by positivity)]
        linarith
      exact_mod_cast this
  refine (fin.mul_left (mirrored N o r)).congr_fun ?_
  intro l
  rw [mirrored_shift, mul_comm]
  congr 1
  rw [← κ.symmetric]
  congr 1
  push_cast
  ring

/-- The coefficient for a frequency of either direction. -/
noncomputable def coef (N : ℕ) (o : ℕ → ℝ) (n : ℤ) : ℝ := dct N o n.natAbs

theorem cos_natAbs (n : ℤ) (x : ℝ) : cos (x * (n.natAbs : ℝ)) = cos (x * n) := by
  rw [Nat.cast_natAbs, Int.cast_abs]
  rcases abs_choice (n : ℝ) with h | h <;> rw [h]
  rw [mul_neg, cos_neg]

theorem coef_period {N : ℕ} (hN : 0 < N) (o : ℕ → ℝ) (n : ℤ) (q : ℝ) :
    ∑ r ∈ Finset.range (2 * N), mirrored N o r * cos (π * n * (r - (q - 1 / 2)) / N) = coef N o n * cos (π * n * q / N) := by
  have hN' : (N : ℝ) ≠ 0 := by exact_mod_cast hN.ne'
  have hc : coef N o n = ∑ r ∈ Finset.range (2 * N), mirrored N o r * cos (π * ((r : ℝ) + 1 / 2) * n / N) := by
    unfold coef
    rw [← dct_period hN]
    refine Finset.sum_congr rfl (fun r _ => ?_)
    congr 1
    have := cos_natAbs n (π * ((r : ℝ) + 1 / 2) / N)
    rw [show π * ((r : ℝ) + 1 / 2) * n.natAbs / N = π * ((r : ℝ) + 1 / 2) / N * n.natAbs by ring, this]
    congr 1
    ring
  have hs : ∑ r ∈ Finset.range (2 * N), mirrored N o r * sin (π * ((r : ℝ) + 1 / 2) * n / N) = 0 := by
    have e : ∑ r ∈ Finset.range (2 * N), mirrored N o r * sin (π * ((r : ℝ) + 1 / 2) * n / N) =
        -∑ r ∈ Finset.range (2 * N), mirrored N o r * sin (π * ((r : ℝ) + 1 / 2) * n / N) := by
      conv_lhs => rw [← Finset.sum_range_reflect]
      rw [← Finset.sum_neg_distrib]
      refine Finset.sum_congr rfl (fun r hr => ?_)
      have hr : r < 2 * N := by simpa using hr
      have c : ((2 * N - 1 - r : ℕ) : ℤ) = 2 * N - 1 - r := by omega
      have c' : ((2 * N - 1 - r : ℕ) : ℝ) = 2 * N - 1 - r := by exact_mod_cast c
      rw [c, mirrored_mirror hN, ← mul_neg, ← sin_neg, ← sin_add_int_mul_two_pi (-(π * ((r : ℝ) + 1 / 2) * n / N)) n, c']
      congr 2
      field_simp
      ring
    linarith
  have e : ∀ r : ℕ, mirrored N o r * cos (π * n * (r - (q - 1 / 2)) / N) =
      mirrored N o r * cos (π * ((r : ℝ) + 1 / 2) * n / N) * cos (π * n * q / N) +
        mirrored N o r * sin (π * ((r : ℝ) + 1 / 2) * n / N) * sin (π * n * q / N) := by
    intro r
    have : π * n * (r - (q - 1 / 2)) / N = π * ((r : ℝ) + 1 / 2) * n / N - π * n * q / N := by ring
    rw [this, cos_sub]
    ring
  rw [Finset.sum_congr rfl (fun r _ => e r), Finset.sum_add_distrib, ← Finset.sum_mul, ← Finset.sum_mul, hs, ← hc]
  ring

/-- The frequencies of a scaled sequence. -/
theorem at_series (κ : Curve) {N : ℕ} (hN : 0 < N) (hs : κ.Tame N) (o : ℕ → ℝ) (q : ℝ) :
    HasSum (fun n : ℤ => 1 / (2 * N) * κ.response (n / N) * coef N o n * cos (π * n * q / N)) (κ.at N o (q - 1 / 2)) := by
  rw [at_period κ hN]
  have h := hasSum_sum (s := Finset.range (2 * N)) (fun r _ =>
    (poisson κ hN hs ((r : ℝ) - (q - 1 / 2))).mul_left (mirrored N o r))
  refine h.congr_fun ?_
  intro n
  rw [mul_assoc, ← coef_period hN, Finset.mul_sum]
  refine Finset.sum_congr rfl (fun r _ => ?_)
  ring

/-- Sums of a cosine over the samples. -/
theorem cos_total {M : ℕ} (hM : 0 < M) (q : ℤ) :
    (¬ (2 * M : ℤ) ∣ q → ∑ i ∈ Finset.range M, cos (π * q * (i + 1 / 2) / M) = 0) ∧
    (∀ j : ℤ, q = 2 * M * j → ∑ i ∈ Finset.range M, cos (π * q * (i + 1 / 2) / M) = M * (-1) ^ j) := by
  have hM' : (M : ℝ) ≠ 0 := by exact_mod_cast hM.ne'
  constructor
  · intro hq
    have h := sum_cos (π * q / M) 0 M
    have e : (M : ℝ) * (π * q / M) + 0 = q * π := by field_simp; ring
    rw [e, sin_int_mul_pi, sin_zero, sub_zero, ← Finset.mul_sum] at h
    have hs : sin (π * q / M / 2) ≠ 0 := by
      intro h0
      rw [sin_eq_zero_iff] at h0
      obtain ⟨n, hn⟩ := h0
      apply hq
      refine ⟨n, ?_⟩
      have : (q : ℝ) = 2 * M * n := by
        field_simp at hn
        linarith
      exact_mod_cast this
    have h2 : ∑ i ∈ Finset.range M, cos (π * q / M * (i + 1 / 2) + 0) = 0 := by
      rcases mul_eq_zero.mp h with h | h
      · exact absurd h (mul_ne_zero two_ne_zero hs)
      · exact h
    rw [← h2]
    refine Finset.sum_congr rfl (fun i _ => ?_)
    congr 1
    ring
  · rintro j rfl
    have e : ∀ i ∈ Finset.range M, cos (π * ((2 * M * j : ℤ) : ℝ) * (i + 1 / 2) / M) = (-1) ^ j := by
      intro i _
      rw [← cos_int_mul_pi, ← cos_add_int_mul_two_pi (j * π) (j * i)]
      congr 1
      push_cast
      field_simp
      ring
    rw [Finset.sum_congr rfl e, Finset.sum_const, Finset.card_range, nsmul_eq_mul]

theorem response_neg (κ : Curve) (f : ℝ) : κ.response (-f) = κ.response f := by
  unfold Curve.response
  congr 1
  funext t
  rw [← cos_neg (π * f * t)]
  congr 2
  ring

theorem coef_neg (N : ℕ) (o : ℕ → ℝ) (n : ℤ) : coef N o (-n) = coef N o n := by
  unfold coef
  rw [Int.natAbs_neg]

theorem zpow_neg_one_neg (j : ℤ) : ((-1 : ℝ)) ^ (-j) = (-1) ^ j := by
  rw [zpow_neg, ← inv_zpow]
  norm_num

/-- The coefficients of a scaled sequence are those of the original, continued, times the response of the curve, summed over the frequencies
that the new samples cannot distinguish. -/
theorem dct_scaled (κ : Curve) {N M : ℕ} (hN : 0 < N) (hM : 0 < M) (hs : κ.Tame N) {o x : ℕ → ℝ} (hx : Scaled κ N M o x) {C : ℝ}
    (hC : ∀ n, |dct N o n| ≤ C) (k : ℕ) :
    HasSum (fun j : ℤ => M / N * ((-1) ^ j * κ.response ((k + 2 * M * j : ℤ) / N) * coef N o (k + 2 * M * j))) (dct M x k) := by
  have hN' : (N : ℝ) ≠ 0 := by exact_mod_cast hN.ne'
  have hM' : (M : ℝ) ≠ 0 := by exact_mod_cast hM.ne'
  have hM2 : (2 * M : ℤ) ≠ 0 := by omega
  let g : ℤ → ℝ := fun n => 1 / (2 * N) * κ.response (n / N) * coef N o n
  let S : ℤ → ℝ := fun q => ∑ i ∈ Finset.range M, cos (π * q * (i + 1 / 2) / M)
  have gneg : ∀ n, g (-n) = g n := by
    intro n
    show 1 / (2 * N) * κ.response (((-n : ℤ) : ℝ) / N) * coef N o (-n) = 1 / (2 * N) * κ.response (n / N) * coef N o n
    rw [coef_neg, Int.cast_neg, neg_div, response_neg]
  have gsum : Summable g := by
    refine Summable.of_norm_bounded (g := fun n : ℤ => 1 / (2 * N) * |κ.response (n / N)| * C) ((hs.abs.mul_left _).mul_right C) ?_
    intro n
    rw [norm_eq_abs]
    show |1 / (2 * N) * κ.response (n / N) * coef N o n| ≤ _
    rw [abs_mul, abs_mul, abs_of_pos (by positivity : (0 : ℝ) < 1 / (2 * N))]
    exact mul_le_mul_of_nonneg_left (hC _) (by positivity)
  -- the series of the transform
  have h1 : HasSum (fun n : ℤ => g n * S (n - k) + g n * S (n + k)) (dct M x k) := by
    have h := hasSum_sum (s := Finset.range M) (fun i _ =>
      ((at_series κ hN hs o (((i : ℝ) + 1 / 2) * N / M)).mul_left 2).mul_right (cos (π * ((i : ℝ) + 1 / 2) * k / M)))
    have e : ∑ i ∈ Finset.range M, 2 * κ.at N o (((i : ℝ) + 1 / 2) * N / M - 1 / 2) * cos (π * ((i : ℝ) + 1 / 2) * k / M) = dct M x k := by
      unfold dct
      rw [Finset.mul_sum]
      refine Finset.sum_congr rfl (fun i hi => ?_)
      rw [hx i (by simpa using hi)]
      ring
    rw [e] at h
    refine h.congr_fun ?_
    intro n
    show g n * (∑ i ∈ Finset.range M, _) + g n * (∑ i ∈ Finset.range M, _) = _
    rw [← mul_add, ← Finset.sum_add_distrib, Finset.mul_sum]
    refine Finset.sum_congr rfl (fun i _ => ?_)
    have e1 : π * n * (((i : ℝ) + 1 / 2) * N / M) / N = π * n * (i + 1 / 2) / M := by field_simp
    have e2 : π * ((n - k : ℤ) : ℝ) * ((i : ℝ) + 1 / 2) / M = π * n * (i + 1 / 2) / M - π * ((i : ℝ) + 1 / 2) * k / M := by
      push_cast; ring
    have e3 : π * ((n + k : ℤ) : ℝ) * ((i : ℝ) + 1 / 2) / M = π * n * (i + 1 / 2) / M + π * ((i : ℝ) + 1 / 2) * k / M := by
      push_cast; ring
    rw [e1, e2, e3, cos_sub, cos_add]
    show 1 / (2 * N) * κ.response (n / N) * coef N o n * _ = _
    ring
  have part : ∀ k : ℤ, ∀ A, HasSum (fun j : ℤ => M * (-1) ^ j * g (k + 2 * M * j)) A → HasSum (fun n : ℤ => g n * S (n - k)) A := by
    intro k A hA
    have inj : Function.Injective (fun j : ℤ => k + 2 * M * j) := by
      intro a b hab
      simp only at hab
      have : (2 * M : ℤ) * a = 2 * M * b := by linarith
      exact mul_left_cancel₀ hM2 this
    rw [← inj.hasSum_iff]
    · refine hA.congr_fun ?_
      intro j
      show g (k + 2 * M * j) * S (k + 2 * M * j - k) = _
      have := (cos_total hM (k + 2 * M * j - k)).2 j (by ring)
      show _ * (∑ i ∈ Finset.range M, _) = _
      rw [this]
      ring
    · intro n hn
      show _ * (∑ i ∈ Finset.range M, _) = _
      rw [(cos_total hM (n - k)).1, mul_zero]
      rintro ⟨j, hj⟩
      exact hn ⟨j, by simp only; linarith⟩
  obtain ⟨A, hA⟩ : Summable (fun j : ℤ => M * (-1) ^ j * g (k + 2 * M * j)) := by
    have inj : Function.Injective (fun j : ℤ => (k : ℤ) + 2 * M * j) := by
      intro a b hab
      simp only at hab
      have : (2 * M : ℤ) * a = 2 * M * b := by linarith
      exact mul_left_cancel₀ hM2 this
    refine Summable.of_norm_bounded ((gsum.abs.comp_injective inj).mul_left (M : ℝ)) ?_
    intro j
    rw [norm_eq_abs, abs_mul, abs_mul, abs_zpow, abs_neg, abs_one, one_zpow, mul_one, abs_of_nonneg (by positivity : (0 : ℝ) ≤ M)]
    rfl
  have hB : HasSum (fun j : ℤ => M * (-1) ^ j * g (-k + 2 * M * j)) A := by
    rw [← (Equiv.neg ℤ).hasSum_iff] at hA
    refine hA.congr_fun ?_
    intro j
    show _ = M * (-1) ^ (-j) * g (k + 2 * M * -j)
    rw [zpow_neg_one_neg, ← gneg]
    congr 2
    ring
  have h2 : HasSum (fun n : ℤ => g n * S (n - k) + g n * S (n + k)) (A + A) := by
    refine (part k A hA).add ?_
    have := part (-k) A hB
    simpa only [sub_neg_eq_add] using this
  rw [h1.unique h2]
  refine (hA.add hA).congr_fun ?_
  intro j
  show M / N * ((-1) ^ j * κ.response ((k + 2 * M * j : ℤ) / N) * coef N o (k + 2 * M * j)) =
    M * (-1) ^ j * (1 / (2 * N) * κ.response ((k + 2 * M * j : ℤ) / N) * coef N o (k + 2 * M * j)) +
    M * (-1) ^ j * (1 / (2 * N) * κ.response ((k + 2 * M * j : ℤ) / N) * coef N o (k + 2 * M * j))
  field_simp
  ring

/-- The frequencies that the new samples cannot tell apart change a coefficient by a bounded amount. -/
theorem dct_main (κ : Curve) {N M : ℕ} (hN : 0 < N) (hM : 0 < M) (hs : κ.Tame N) {o x : ℕ → ℝ} (hx : Scaled κ N M o x) {C : ℝ}
    (hC : ∀ n, |dct N o n| ≤ C) (k : ℕ) :
    |dct M x k - M / N * (κ.response (k / N) * dct N o k)| ≤ M / N * (C * κ.alias N M k) := by
  have hN' : (0 : ℝ) < N := by exact_mod_cast hN
  have hM2 : (2 * M : ℤ) ≠ 0 := by omega
  have h := dct_scaled κ hN hM hs hx hC k
  set T : ℤ → ℝ := fun j => M / N * ((-1) ^ j * κ.response ((k + 2 * M * j : ℤ) / N) * coef N o (k + 2 * M * j)) with hT
  have hT0 : T 0 = M / N * (κ.response (k / N) * dct N o k) := by
    rw [hT]
    simp [coef]
  have h0 : HasSum (fun j : ℤ => if j = 0 then T 0 else 0) (T 0) := hasSum_ite_eq 0 (T 0)
  have h1 := h.sub h0
  rw [← hT0, ← h1.tsum_eq, ← norm_eq_abs]
  have inj : Function.Injective (fun j : ℤ => (k : ℤ) + 2 * M * j) := by
    intro a b hab
    simp only at hab
    have : (2 * M : ℤ) * a = 2 * M * b := by linarith
    exact mul_left_cancel₀ hM2 this
  have hal : Summable (fun j : ℤ => if j = 0 then 0 else |κ.response ((k + 2 * M * j : ℤ) / N)|) := by
    refine Summable.of_nonneg_of_le (fun j => ?_) (fun j => ?_) (hs.abs.comp_injective inj)
    · split <;> positivity
    · simp only [Function.comp]
      split
      · positivity
      · exact le_rfl
  have hb := (hal.hasSum.mul_left C).mul_left ((M : ℝ) / N)
  refine tsum_of_norm_bounded hb ?_
  intro j
  rw [norm_eq_abs]
  by_cases hj : j = 0
  · simp [hj]
  · rw [if_neg hj, if_neg hj, sub_zero]
    simp only [hT]
    rw [abs_mul, abs_mul, abs_mul, abs_zpow, abs_neg, abs_one, one_zpow, one_mul, abs_of_nonneg (by positivity : (0 : ℝ) ≤ (M : ℝ) / N)]
    refine mul_le_mul_of_nonneg_left ?_ (by positivity)
    rw [mul_comm]
    exact mul_le_mul_of_nonneg_right (hC _) (abs_nonneg _)

/-! ## Two dimensions -/

/-- The exact spectrum is within `a` of one that changes its sign at `N`. -/
def NearFlips (a : ℝ) (X : ℕ → ℕ → ℝ) (n range N : ℕ) : Prop :=
  ∃ Z : ℕ → ℕ → ℝ, Flips Z n range N ∧ ∀ y < n, ∀ x, N - range ≤ x → x ≤ N + range → |X y x - Z y x| ≤ a

theorem curve_factor {κ : Curve} {N range i : ℕ} (hN : 0 < N) (hF : κ.Even N range) (h1 : 1 ≤ i) (h2 : i ≤ range) (hr : range ≤ N) :
    ∃ c > 0, ∀ o : ℕ → ℝ, κ.response ((N + i : ℕ) / N) * dct N o (N + i) = -c * (κ.response ((N - i : ℕ) / N) * dct N o (N - i)) := by
  have hp := hF i h1 h2
  have e1 : (((N : ℤ) - i : ℤ) : ℝ) = ((N - i : ℕ) : ℝ) := by
    rw [Nat.cast_sub (by omega)]; push_cast; ring
  have e2 : (((N : ℤ) + i : ℤ) : ℝ) = ((N + i : ℕ) : ℝ) := by push_cast; ring
  rw [e1, e2] at hp
  set A := κ.response ((N - i : ℕ) / N)
  set B := κ.response ((N + i : ℕ) / N)
  have hl : A ≠ 0 := by intro h; rw [h, zero_mul] at hp; exact lt_irrefl _ hp
  refine ⟨B / A, ?_, fun o => ?_⟩
  · rw [show B / A = (A * B) / A ^ 2 by field_simp]
    exact div_pos hp (by positivity)
  · rw [dct_antisym hN o (by omega : i ≤ N)]
    field_simp

theorem rows_near {κ : Curve} {N M h range : ℕ} {C A : ℝ} (hN : 0 < N) (hM : 0 < M) (hs : κ.Tame N) (hF : κ.Even N range) (hr : range ≤ N)
    (hA : ∀ k, N - range ≤ k → k ≤ N + range → κ.alias N M k ≤ A) {y : ℕ → ℕ → ℝ} (hC : 0 ≤ C) (hy : RowsScaled κ N M h C y) :
    NearFlips (2 * h * (M / N * (C * A))) (fun v u => dct2 M h y u v) h range N := by
  choose! o ho1 ho2 using hy
  refine ⟨fun v u => dct h (fun j => M / N * (κ.response (u / N) * dct N (o j) u)) v, ⟨fun v _ i h1 h2 => ?_, fun v _ => ?_⟩, ?_⟩
  · obtain ⟨c, c0, hc⟩ := curve_factor hN hF h1 h2 hr
    refine ⟨c, c0, ?_⟩
    refine dct_smul _ _ _ (fun j _ => ?_) v
    rw [hc (o j)]
    ring
  · show dct h _ v = 0
    rw [dct_smul 0 _ (fun _ => 0) (fun j _ => by rw [dct_middle hN, mul_zero, mul_zero, zero_mul]), zero_mul]
  · intro v _ u h1 h2
    refine dct_apart (fun j hj => ?_) v
    refine le_trans (dct_main κ hN hM hs (ho2 j hj) (ho1 j hj) u) ?_
    have := hA u h1 h2
    gcongr

theorem cols_scaled {κ : Curve} {N M w : ℕ} {o y : ℕ → ℕ → ℝ} (ho : ∀ i < w, Scaled κ N M (o i) (fun j => y i j)) (u : ℕ) :
    Scaled κ N M (fun a => dct w (fun i => o i a) u) (fun j => dct w (fun i => y i j) u) := by
  intro j hj
  show dct w (fun i => y i j) u = _
  rw [dct_congr (fun i hi => ho i hi j hj)]
  unfold Curve.at
  simp only [mirrored_dct]
  unfold dct
  simp only [Finset.sum_mul, Finset.mul_sum]
  rw [Finset.sum_comm]
  refine Finset.sum_congr rfl (fun t _ => Finset.sum_congr rfl (fun i _ => ?_))
  ring

theorem cols_near {κ : Curve} {N M w range : ℕ} {C A : ℝ} (hN : 0 < N) (hM : 0 < M) (hs : κ.Tame N) (hF : κ.Even N range) (hr : range ≤ N)
    (hA : ∀ k, N - range ≤ k → k ≤ N + range → κ.alias N M k ≤ A) {y : ℕ → ℕ → ℝ} (hC : 0 ≤ C) (hy : ColsScaled κ N M w C y) :
    NearFlips (2 * w * (M / N * (C * A))) (fun u v => dct2 w M y u v) w range N := by
  choose! o ho1 ho2 using hy
  refine ⟨fun u v => M / N * (κ.response (v / N) * dct N (fun a => dct w (fun i => o i a) u) v), ⟨fun u _ i h1 h2 => ?_, fun u _ => ?_⟩, ?_⟩
  · obtain ⟨c, c0, hc⟩ := curve_factor hN hF h1 h2 hr
    refine ⟨c, c0, ?_⟩
    rw [hc]
    ring
  · rw [dct_middle hN, mul_zero, mul_zero]
  · intro u _ v h1 h2
    have hb : ∀ n, |dct N (fun a => dct w (fun i => o i a) u) n| ≤ 2 * w * C := by
      intro n
      have e : dct N (fun a => dct w (fun i => o i a) u) n = dct w (fun i => dct N (o i) n) u := by
        unfold dct
        simp only [Finset.mul_sum, Finset.sum_mul]
        rw [Finset.sum_comm]
        refine Finset.sum_congr rfl (fun i _ => Finset.sum_congr rfl (fun a _ => ?_))
        ring
      rw [e]
      have := dct_apart (n := w) (x := fun i => dct N (o i) n) (y := fun _ => 0) (e := C) (fun i hi => by rw [sub_zero]; exact ho1 i hi n) u
      have z : dct w (fun _ => 0) u = 0 := by unfold dct; simp
      rw [z, sub_zero] at this
      exact this
    refine le_trans (dct_main κ hN hM hs (cols_scaled ho2 u) hb v) ?_
    have := hA v h1 h2
    calc (M : ℝ) / N * (2 * w * C * κ.alias N M v) ≤ M / N * (2 * w * C * A) := by gcongr
      _ = _ := by ring

theorem same_sign {x z a d : ℝ} (hxz : |x - z| ≤ a) (hd : 0 < d) (hx : d + a ≤ |x|) : (0 < x ↔ 0 < z) ∧ (x < 0 ↔ z < 0) ∧ z ≠ 0 := by
  rw [abs_le] at hxz
  rcases le_or_gt 0 x with h | h
  · rw [abs_of_nonneg h] at hx
    refine ⟨⟨fun _ => by linarith, fun _ => by linarith⟩, ⟨fun _ => by linarith, fun _ => by linarith⟩, ?_⟩
    intro h0; linarith
  · rw [abs_of_neg h] at hx
    refine ⟨⟨fun _ => by linarith, fun _ => by linarith⟩, ⟨fun _ => by linarith, fun _ => by linarith⟩, ?_⟩
    intro h0; linarith

theorem near_signs {a d : ℝ} {g : ℕ → ℕ → Fl} {X : ℕ → ℕ → ℝ} {n range N : ℕ} (hX : NearFlips a X n range N) (h : Computed d g X n range N) :
    clearPairs (d + a) X n range N ≤ signMatches g n range N := by
  classical
  obtain ⟨Z, hZ, hn⟩ := hX
  unfold clearPairs signMatches
  refine Finset.card_le_card ?_
  intro p hp
  rw [Finset.mem_filter] at hp ⊢
  obtain ⟨hm, hl, hr⟩ := hp
  refine ⟨hm, ?_⟩
  rw [Finset.mem_product, Finset.mem_range, Finset.mem_Icc] at hm
  obtain ⟨hy, h1, h2⟩ := hm
  have wl := h p.1 hy (N - p.2) (by omega) (by omega)
  have wr := h p.1 hy (N + p.2) (by omega) (by omega)
  have d0 := within_pos wl
  have nl := hn p.1 hy (N - p.2) (by omega) (by omega)
  have nr := hn p.1 hy (N + p.2) (by omega) (by omega)
  have a0 := le_trans (abs_nonneg _) nl
  rw [within_sign wl (by linarith), within_sign wr (by linarith)]
  obtain ⟨_, sl, zl⟩ := same_sign nl d0 hl
  obtain ⟨_, sr, _⟩ := same_sign nr d0 hr
  obtain ⟨c, c0, hc⟩ := hZ.sides p.1 hy p.2 h1 h2
  have := opposite c0 hc zl
  simpa only [sl, sr] using this

theorem near_crossings {a d : ℝ} {g : ℕ → ℕ → Fl} {X : ℕ → ℕ → ℝ} {n N : ℕ} (hX : NearFlips a X n 1 N) (h : Computed d g X n 1 N) :
    clearPairs (2 * d + a) X n 1 N ≤ crossings g n N := by
  classical
  obtain ⟨Z, hZ, hn⟩ := hX
  unfold clearPairs crossings
  refine Finset.card_le_card_of_injOn Prod.fst ?_ ?_
  · intro p hp
    rw [Finset.mem_coe, Finset.mem_filter] at hp ⊢
    obtain ⟨hm, hl, hr⟩ := hp
    rw [Finset.mem_product, Finset.mem_range, Finset.mem_Icc] at hm
    obtain ⟨hy, h1, h2⟩ := hm
    obtain ⟨y, i⟩ := p
    obtain rfl : i = 1 := by simp only at h1 h2; omega
    simp only at hy hl hr ⊢
    refine ⟨by simpa using hy, ?_⟩
    have wl := h y hy (N - 1) (by omega) (by omega)
    have wm := h y hy N (by omega) (by omega)
    have wr := h y hy (N + 1) (by omega) (by omega)
    have nl := hn y hy (N - 1) (by omega) (by omega)
    have nm := hn y hy N (by omega) (by omega)
    have nr := hn y hy (N + 1) (by omega) (by omega)
    have d0 := within_pos wl
    have a0 := le_trans (abs_nonneg _) nl
    obtain ⟨c, c0, hc⟩ := hZ.sides y hy 1 le_rfl le_rfl
    obtain ⟨pl, sl, zl⟩ := same_sign nl d0 (by linarith)
    obtain ⟨pr, sr, zr⟩ := same_sign nr d0 (by linarith)
    have hs : (g y (N - 1)).signbit ≠ (g y (N + 1)).signbit := by
      rw [within_sign wl (by linarith), within_sign wr (by linarith)]
      simpa only [sl, sr] using opposite c0 hc zl
    rw [hZ.middle y hy, sub_zero] at nm
    obtain ⟨vl, bl, el, _, dl⟩ := wl
    obtain ⟨vm, bm, em, _, dm⟩ := wm
    obtain ⟨vr, br, er, _, dr⟩ := wr
    unfold crosses
    rw [Bool.and_eq_true]
    refine ⟨by simpa using hs, ?_⟩
    rw [el, em, er]
    rw [abs_lt] at dl dm dr
    rw [abs_le] at nm
    simp only [Fl.lt, Bool.or_eq_true, Bool.and_eq_true, decide_eq_true_eq]
    rcases lt_or_gt_of_ne zl with h1 | h1
    · have h2 : 0 < Z y (N + 1) := by rw [hc]; nlinarith
      rw [abs_of_neg (sl.mpr h1)] at hl
      rw [abs_of_pos (pr.mpr h2)] at hr
      left
      constructor
      · have : (vl : ℝ) < vm := by linarith
        exact_mod_cast this
      · have : (vm : ℝ) < vr := by linarith
        exact_mod_cast this
    · have h2 : Z y (N + 1) < 0 := by rw [hc]; nlinarith
      rw [abs_of_pos (pl.mpr h1)] at hl
      rw [abs_of_neg (sr.mpr h2)] at hr
      right
      constructor
      · have : (vm : ℝ) < vl := by linarith
        exact_mod_cast this
      · have : (vr : ℝ) < vm := by linarith
        exact_mod_cast this
  · intro p hp q hq hpq
    rw [Finset.mem_coe, Finset.mem_filter, Finset.mem_product, Finset.mem_Icc, Finset.mem_range] at hp hq
    ext
    · exact hpq
    · have := hp.1.2; have := hq.1.2; omega

end Verif
