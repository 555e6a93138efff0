import Verif.Proofs.Resample
import Mathlib.MeasureTheory.Integral.IntervalIntegral.FundThmCalculus
import Mathlib.Analysis.PSeries
import Mathlib.Analysis.SpecialFunctions.Integrals.Basic

/-! The responses of linear interpolation and of smooth curves. -/

namespace Verif
open Spec Real MeasureTheory

theorem linear_response {f : ℝ} (hf : f ≠ 0) : linearCurve.response f = (2 * sin (π * f / 2) / (π * f)) ^ 2 := by
  have hw : π * f ≠ 0 := mul_ne_zero pi_pos.ne' hf
  set ω := π * f with hω
  have e0 : linearCurve.response f = ∫ t in (-1 : ℝ)..1, max 0 (1 - |t|) * cos (ω * t) := by
    unfold Curve.response
    rw [intervalIntegral.integral_of_le (by norm_num), setIntegral_eq_integral_of_forall_compl_eq_zero]
    · rfl
    · intro t ht
      have : linearCurve.weight t = 0 := by
        refine linearCurve.vanishes t ?_
        show ((1 : ℕ) : ℝ) ≤ |t|
        rw [Nat.cast_one]
        by_contra h
        rw [not_le, abs_lt] at h
        exact ht ⟨h.1, h.2.le⟩
      show linearCurve.weight t * _ = 0
      rw [this, zero_mul]
  have hi : ∀ a b : ℝ, IntervalIntegrable (fun t : ℝ => max 0 (1 - |t|) * cos (ω * t)) volume a b := fun a b =>
    Continuous.intervalIntegrable (by fun_prop) _ _
  have hcos : ∀ c t : ℝ, HasDerivAt (fun t => (1 + c * t) * (sin (ω * t) / ω) + c * (cos (ω * t) / ω ^ 2)) ((1 + c * t) * cos (ω * t)) t := by
    intro c t
    have h1 : HasDerivAt (fun t => ω * t) ω t := by simpa using (hasDerivAt_id t).const_mul ω
    have h2 : HasDerivAt (fun t => sin (ω * t) / ω) (cos (ω * t) * ω / ω) t := ((hasDerivAt_sin _).comp t h1).div_const ω
    have h3 : HasDerivAt (fun t => cos (ω * t) / ω ^ 2) (-sin (ω * t) * ω / ω ^ 2) t := ((hasDerivAt_cos _).comp t h1).div_const _
    have h4 : HasDerivAt (fun t => 1 + c * t) c t := by simpa using ((hasDerivAt_id t).const_mul c).const_add 1
    have h := (h4.mul h2).add (h3.const_mul c)
    refine h.congr_deriv ?_
    field_simp
    ring
  have half : ∀ c a b : ℝ, ∫ t in a..b, (1 + c * t) * cos (ω * t) =
      ((1 + c * b) * (sin (ω * b) / ω) + c * (cos (ω * b) / ω ^ 2)) - ((1 + c * a) * (sin (ω * a) / ω) + c * (cos (ω * a) / ω ^ 2)) := fun c a b =>
    intervalIntegral.integral_eq_sub_of_hasDerivAt (fun t _ => hcos c t) (Continuous.intervalIntegrable (by fun_prop) _ _)
  have e1 : ∫ t in (-1 : ℝ)..0, max 0 (1 - |t|) * cos (ω * t) = ∫ t in (-1 : ℝ)..0, (1 + 1 * t) * cos (ω * t) := by
    refine intervalIntegral.integral_congr (fun t ht => ?_)
    rw [Set.uIcc_of_le (by norm_num)] at ht
    have := ht.1
    rw [abs_of_nonpos ht.2, max_eq_right (by linarith)]
    ring
  have e2 : ∫ t in (0 : ℝ)..1, max 0 (1 - |t|) * cos (ω * t) = ∫ t in (0 : ℝ)..1, (1 + -1 * t) * cos (ω * t) := by
    refine intervalIntegral.integral_congr (fun t ht => ?_)
    rw [Set.uIcc_of_le (by norm_num)] at ht
    have := ht.2
    rw [abs_of_nonneg ht.1, max_eq_right (by linarith)]
    ring
  rw [e0, ← intervalIntegral.integral_add_adjacent_intervals (hi (-1) 0) (hi 0 1), e1, e2, half, half]
  have c2 : cos ω = 1 - 2 * sin (ω / 2) ^ 2 := by
    have := cos_sq' (ω / 2)
    have h := cos_two_mul (ω / 2)
    rw [show 2 * (ω / 2) = ω by ring] at h
    linarith
  have : cos (ω * -1) = cos ω := by rw [mul_neg, mul_one, cos_neg]
  rw [this]
  simp only [mul_zero, mul_one, sin_zero, cos_zero, c2]
  field_simp
  ring

/-- The frequencies that decrease like those of linear interpolation add up. -/
theorem tame_of_bound (κ : Curve) {N : ℕ} (hN : 0 < N) {V : ℝ} (h : ∀ f, f ≠ 0 → |κ.response f| ≤ V / f ^ 2) : κ.Tame N := by
  have hN' : (N : ℝ) ≠ 0 := by exact_mod_cast hN.ne'
  have h1 : Summable (fun n : ℤ => V * N ^ 2 * (1 / (n : ℝ) ^ 2)) := (Real.summable_one_div_int_pow.mpr (by norm_num)).mul_left _
  have h2 : Summable (fun n : ℤ => if n = 0 then |κ.response 0| else 0) := (hasSum_ite_eq 0 |κ.response 0|).summable
  refine Summable.of_norm_bounded (h1.add h2) ?_
  intro n
  rw [norm_eq_abs]
  by_cases hn : n = 0
  · subst hn; simp
  · rw [if_neg hn, add_zero]
    have hn' : (n : ℝ) ≠ 0 := by exact_mod_cast hn
    refine le_trans (h _ (div_ne_zero hn' hN')) (le_of_eq ?_)
    field_simp

theorem linear_bound {f : ℝ} (hf : f ≠ 0) : |linearCurve.response f| ≤ (2 / π) ^ 2 / f ^ 2 := by
  rw [linear_response hf, abs_of_nonneg (sq_nonneg _), ← div_pow, sq_le_sq, abs_div, abs_mul, abs_div, abs_div]
  have h1 := abs_sin_le_one (π * f / 2)
  have h2 : 0 < |f| := abs_pos.mpr hf
  have h3 := pi_pos
  rw [abs_mul, abs_two, abs_of_pos pi_pos, div_div]
  refine div_le_div_of_nonneg_right ?_ (by positivity)
  linarith

theorem linear_tame {N : ℕ} (hN : 0 < N) : linearCurve.Tame N := tame_of_bound _ hN (fun _ hf => linear_bound hf)

theorem linear_curve_even {N range : ℕ} (hr : range < N) : linearCurve.Even N range := by
  intro i h1 h2
  have hN : (0 : ℝ) < N := by exact_mod_cast (by omega : 0 < N)
  have key : ∀ f : ℝ, 0 < f → f < 2 → 0 < linearCurve.response f := by
    intro f f0 f2
    rw [linear_response f0.ne']
    have hs : 0 < sin (π * f / 2) := sin_pos_of_pos_of_lt_pi (by positivity) (by nlinarith [pi_pos])
    have := pi_pos
    positivity
  have hi : (i : ℝ) < N := by exact_mod_cast (by omega : i < N)
  have hi0 : (0 : ℝ) ≤ i := by positivity
  push_cast
  refine mul_pos (key _ ?_ ?_) (key _ ?_ ?_)
  · exact div_pos (by linarith) hN
  · rw [div_lt_iff₀ hN]; linarith
  · exact div_pos (by linarith) hN
  · rw [div_lt_iff₀ hN]; linarith

/-- The indistinguishable frequencies of linear interpolation. -/
theorem alias_bound {κ : Curve} {V : ℝ} (h : ∀ f, f ≠ 0 → |κ.response f| ≤ V / f ^ 2) {N M k : ℕ} (hN : 0 < N) (hk : k < M) :
    κ.alias N M k ≤ V * N ^ 2 / ((M : ℝ) ^ 2 - k ^ 2) := by
  have hN' : (0 : ℝ) < N := by exact_mod_cast hN
  have hM' : (0 : ℝ) < M := by exact_mod_cast (by omega : 0 < M)
  have hk' : (k : ℝ) < M := by exact_mod_cast hk
  have k0 : (0 : ℝ) ≤ k := by positivity
  have V0 : 0 ≤ V := by
    have := le_trans (abs_nonneg _) (h 1 one_ne_zero)
    simpa using this
  set F : ℤ → ℝ := fun j => if j = 0 then 0 else |κ.response ((k + 2 * M * j : ℤ) / N)| with hF
  have F0 : ∀ j, 0 ≤ F j := by intro j; simp only [hF]; split <;> positivity
  set D : ℝ := V * N ^ 2 / (2 * M) with hD
  have D0 : 0 ≤ D := by positivity
  -- one term
  have term : ∀ {m : ℝ}, (M : ℝ) < m → V / (m / N) ^ 2 ≤ D * (1 / (m - M) - 1 / (m + M)) := by
    intro m hm
    have h1 : 0 < m - M := by linarith
    have h2 : 0 < m + M := by linarith
    have h3 : 0 < m := by linarith
    have e : D * (1 / (m - M) - 1 / (m + M)) = V * N ^ 2 / ((m - M) * (m + M)) := by
      rw [hD]; field_simp; ring
    have e2 : V / (m / N) ^ 2 = V * N ^ 2 / m ^ 2 := by field_simp
    rw [e, e2]
    refine div_le_div_of_nonneg_left (by positivity) (by positivity) ?_
    nlinarith
  have pos : ∀ n : ℕ, F (n + 1 : ℕ) ≤ D * (1 / ((2 * n + 1) * M + k) - 1 / ((2 * (n + 1 : ℕ) + 1) * M + k)) := by
    intro n
    simp only [hF]
    rw [if_neg (by omega)]
    have hm : (M : ℝ) < ((k + 2 * M * ((n + 1 : ℕ) : ℤ) : ℤ) : ℝ) := by
      push_cast; nlinarith [(by positivity : (0 : ℝ) ≤ n)]
    have h1 := h (((k + 2 * M * ((n + 1 : ℕ) : ℤ) : ℤ) : ℝ) / N) (by have : (0 : ℝ) < ((k + 2 * M * ((n + 1 : ℕ) : ℤ) : ℤ) : ℝ) := by linarith
                                                                     positivity)
    refine le_trans h1 (le_trans (term hm) (le_of_eq ?_))
    congr 3 <;> · push_cast; ring
  have neg : ∀ n : ℕ, F (-((n : ℤ) + 1)) ≤ D * (1 / ((2 * n + 1) * M - k) - 1 / ((2 * (n + 1 : ℕ) + 1) * M - k)) := by
    intro n
    simp only [hF]
    rw [if_neg (by omega)]
    have e : (((k : ℤ) + 2 * M * -((n : ℤ) + 1) : ℤ) : ℝ) / N = -((2 * M * (n + 1) - k) / N) := by push_cast; ring
    rw [e, response_neg]
    have hm : (M : ℝ) < 2 * M * (n + 1) - k := by nlinarith [(by positivity : (0 : ℝ) ≤ n)]
    have h1 := h ((2 * M * (n + 1) - k) / N) (by have : (0 : ℝ) < 2 * M * (n + 1) - k := by linarith
                                                 positivity)
    refine le_trans h1 (le_trans (term hm) (le_of_eq ?_))
    congr 3 <;> · push_cast; ring
  have s1 : ∀ L : ℕ, ∑ n ∈ Finset.range (L + 1), F n ≤ D * (1 / (M + k) - 1 / ((2 * L + 1) * M + k)) := by
    intro L
    induction L with
    | zero => simp [hF]
    | succ L ih =>
      rw [Finset.sum_range_succ]
      have := pos L
      have e : D * (1 / ((M : ℝ) + k) - 1 / ((2 * (L + 1 : ℕ) + 1) * M + k)) =
        D * (1 / (M + k) - 1 / ((2 * L + 1) * M + k)) + D * (1 / ((2 * L + 1) * M + k) - 1 / ((2 * (L + 1 : ℕ) + 1) * M + k)) := by ring
      rw [e]
      linarith
  have s2 : ∀ L : ℕ, ∑ n ∈ Finset.range L, F (-((n : ℤ) + 1)) ≤ D * (1 / (M - k) - 1 / ((2 * L + 1) * M - k)) := by
    intro L
    induction L with
    | zero => simp
    | succ L ih =>
      rw [Finset.sum_range_succ]
      have := neg L
      have e : D * (1 / ((M : ℝ) - k) - 1 / ((2 * (L + 1 : ℕ) + 1) * M - k)) =
        D * (1 / (M - k) - 1 / ((2 * L + 1) * M - k)) + D * (1 / ((2 * L + 1) * M - k) - 1 / ((2 * (L + 1 : ℕ) + 1) * M - k)) := by ring
      rw [e]
      linarith
  have b1 : ∀ L : ℕ, ∑ n ∈ Finset.range L, F n ≤ D * (1 / (M + k)) := by
    intro L
    refine le_trans (Finset.sum_le_sum_of_subset_of_nonneg (Finset.range_subset_range.mpr (Nat.le_succ L)) (fun n _ _ => F0 n)) ?_
    refine le_trans (s1 L) (mul_le_mul_of_nonneg_left ?_ D0)
    have : (0 : ℝ) ≤ 1 / ((2 * L + 1) * M + k) := by positivity
    linarith
  have b2 : ∀ L : ℕ, ∑ n ∈ Finset.range L, F (-((n : ℤ) + 1)) ≤ D * (1 / (M - k)) := by
    intro L
    refine le_trans (s2 L) (mul_le_mul_of_nonneg_left ?_ D0)
    have : (0 : ℝ) ≤ 1 / ((2 * L + 1) * M - k) := by
      apply div_nonneg zero_le_one
      nlinarith [(by positivity : (0 : ℝ) ≤ L)]
    linarith
  have t1 := Real.tsum_le_of_sum_range_le (fun n : ℕ => F0 n) b1
  have t2 := Real.tsum_le_of_sum_range_le (fun n : ℕ => F0 (-((n : ℤ) + 1))) b2
  have u1 := summable_of_sum_range_le (fun n : ℕ => F0 n) b1
  have u2 := summable_of_sum_range_le (fun n : ℕ => F0 (-((n : ℤ) + 1))) b2
  have e : κ.alias N M k = ∑' j, F j := rfl
  rw [e, tsum_of_nat_of_neg_add_one u1 u2]
  refine le_trans (add_le_add t1 t2) (le_of_eq ?_)
  have h1 : (M : ℝ) - k ≠ 0 := by linarith
  have h2 : (M : ℝ) ^ 2 - k ^ 2 ≠ 0 := by nlinarith
  have h3 : (M : ℝ) + k ≠ 0 := by positivity
  rw [show (M : ℝ) ^ 2 - k ^ 2 = (M - k) * (M + k) by ring, hD]
  field_simp
  ring

/-! ## Cubic interpolation -/

theorem cubic_response {f : ℝ} (hf : f ≠ 0) :
    cubicCurve.response f = sin (π * f / 2) ^ 3 * (3 * sin (π * f / 2) - π * f * cos (π * f / 2)) / (π * f / 2) ^ 4 := by
  have hw : π * f ≠ 0 := mul_ne_zero pi_pos.ne' hf
  set ω := π * f with hω
  let G : ℝ → ℝ := fun t => cubicCurve.weight t * cos (ω * t)
  have hG : Continuous G := cubicCurve.continuous.mul (by fun_prop)
  have e0 : cubicCurve.response f = ∫ t in (-2 : ℝ)..2, G t := by
    unfold Curve.response
    rw [intervalIntegral.integral_of_le (by norm_num), setIntegral_eq_integral_of_forall_compl_eq_zero]
    intro t ht
    have : cubicCurve.weight t = 0 := by
      refine cubicCurve.vanishes t ?_
      show ((2 : ℕ) : ℝ) ≤ |t|
      rw [Nat.cast_ofNat]
      by_contra h
      rw [not_le, abs_lt] at h
      exact ht ⟨h.1, h.2.le⟩
    show cubicCurve.weight t * _ = 0
    rw [this, zero_mul]
  have hi : ∀ a b : ℝ, IntervalIntegrable G volume a b := fun a b => hG.intervalIntegrable _ _
  have esym : ∫ t in (-2 : ℝ)..0, G t = ∫ t in (0 : ℝ)..2, G t := by
    have h := intervalIntegral.integral_comp_neg (a := (0 : ℝ)) (b := 2) G
    rw [neg_zero] at h
    rw [← h]
    refine intervalIntegral.integral_congr (fun t _ => ?_)
    show cubicCurve.weight (-t) * cos (ω * -t) = cubicCurve.weight t * cos (ω * t)
    rw [cubicCurve.symmetric, mul_neg, cos_neg]
  -- antiderivative of a cubic polynomial times the cosine
  let Q : ℝ → ℝ → ℝ → ℝ → ℝ → ℝ := fun a b c d t =>
    (a * t ^ 3 + b * t ^ 2 + c * t + d) * (sin (ω * t) / ω) + (3 * a * t ^ 2 + 2 * b * t + c) * (cos (ω * t) / ω ^ 2) -
      (6 * a * t + 2 * b) * (sin (ω * t) / ω ^ 3) - 6 * a * (cos (ω * t) / ω ^ 4)
  have hQ : ∀ a b c d t : ℝ, HasDerivAt (Q a b c d) ((a * t ^ 3 + b * t ^ 2 + c * t + d) * cos (ω * t)) t := by
    intro a b c d t
    have h1 : HasDerivAt (fun t => ω * t) ω t := by simpa using (hasDerivAt_id t).const_mul ω
    have hs : HasDerivAt (fun t => sin (ω * t)) (cos (ω * t) * ω) t := (hasDerivAt_sin _).comp t h1
    have hc : HasDerivAt (fun t => cos (ω * t)) (-sin (ω * t) * ω) t := (hasDerivAt_cos _).comp t h1
    have p3 : HasDerivAt (fun t => t ^ 3) (3 * t ^ 2) t := by simpa using hasDerivAt_pow 3 t
    have p2 : HasDerivAt (fun t => t ^ 2) (2 * t) t := by simpa using hasDerivAt_pow 2 t
    have p1 : HasDerivAt (fun t => t) 1 t := hasDerivAt_id t
    have hp : HasDerivAt (fun t => a * t ^ 3 + b * t ^ 2 + c * t + d) (a * (3 * t ^ 2) + b * (2 * t) + c * 1) t :=
      (((p3.const_mul a).add (p2.const_mul b)).add (p1.const_mul c)).add_const d
    have hp' : HasDerivAt (fun t => 3 * a * t ^ 2 + 2 * b * t + c) (3 * a * (2 * t) + 2 * b * 1) t :=
      ((p2.const_mul (3 * a)).add (p1.const_mul (2 * b))).add_const c
    have hp'' : HasDerivAt (fun t => 6 * a * t + 2 * b) (6 * a * 1) t := (p1.const_mul (6 * a)).add_const _
    have h := (((hp.mul (hs.div_const ω)).add (hp'.mul (hc.div_const (ω ^ 2)))).sub (hp''.mul (hs.div_const (ω ^ 3)))).sub
      ((hc.div_const (ω ^ 4)).const_mul (6 * a))
    refine h.congr_deriv ?_
    field_simp
    ring
  have piece : ∀ a b c d l r : ℝ, l ≤ r → (∀ t, l ≤ t → t ≤ r → cubicCurve.weight t = a * t ^ 3 + b * t ^ 2 + c * t + d) →
      ∫ t in l..r, G t = Q a b c d r - Q a b c d l := by
    intro a b c d l r hlr hG'
    rw [← intervalIntegral.integral_eq_sub_of_hasDerivAt (fun t _ => hQ a b c d t) (Continuous.intervalIntegrable (by fun_prop) _ _)]
    refine intervalIntegral.integral_congr (fun t ht => ?_)
    rw [Set.uIcc_of_le hlr] at ht
    show cubicCurve.weight t * _ = _
    rw [hG' t ht.1 ht.2]
  have i1 := piece (3 / 2) (-5 / 2) 0 1 0 1 zero_le_one (by
    intro t h0 h1
    show (if |t| ≤ 1 then _ else _) = _
    rw [abs_of_nonneg h0, if_pos h1]
    ring)
  have i2 := piece (-1 / 2) (5 / 2) (-4) 2 1 2 one_le_two (by
    intro t h0 h1
    show (if |t| ≤ 1 then _ else if |t| ≤ 2 then _ else _) = _
    rw [abs_of_nonneg (by linarith), if_pos h1]
    split
    · rename_i h
      rw [le_antisymm h h0]; norm_num
    · ring)
  rw [e0, ← intervalIntegral.integral_add_adjacent_intervals (hi (-2) 0) (hi 0 2), esym,
    ← intervalIntegral.integral_add_adjacent_intervals (hi 0 1) (hi 1 2), i1, i2]
  have s1 : sin ω = 2 * sin (ω / 2) * cos (ω / 2) := by
    have h := sin_two_mul (ω / 2)
    rwa [show 2 * (ω / 2) = ω by ring] at h
  have c1 : cos ω = 1 - 2 * sin (ω / 2) ^ 2 := by
    have := cos_sq' (ω / 2)
    have h := cos_two_mul (ω / 2)
    rw [show 2 * (ω / 2) = ω by ring] at h
    linarith
  have s2 : sin (ω * 2) = 2 * sin ω * cos ω := by rw [mul_comm]; exact sin_two_mul ω
  have c2 : cos (ω * 2) = 2 * cos ω ^ 2 - 1 := by rw [mul_comm]; exact cos_two_mul ω
  simp only [Q, mul_one, mul_zero, sin_zero, cos_zero, s2, c2, s1, c1]
  field_simp
  ring

theorem cubic_bound {f : ℝ} (hf : f ≠ 0) : |cubicCurve.response f| ≤ 20 / π ^ 2 / f ^ 2 := by
  rw [cubic_response hf]
  have hp := pi_pos
  have hx : π * f / 2 ≠ 0 := by positivity
  set x := π * f / 2 with hxd
  have e : π * f = 2 * x := by rw [hxd]; ring
  have e2 : 20 / π ^ 2 / f ^ 2 = 5 / x ^ 2 := by rw [hxd]; field_simp; norm_num
  rw [e, e2, abs_div, abs_mul, abs_pow, abs_of_pos (by positivity : 0 < x ^ 4), div_le_div_iff₀ (by positivity) (by positivity)]
  have h1 : |sin x| ≤ 1 := abs_sin_le_one x
  have h2 : |sin x| ≤ |x| := abs_sin_le_abs
  have h3 : |cos x| ≤ 1 := abs_cos_le_one x
  have hxx : x ^ 2 = |x| ^ 2 := (sq_abs x).symm
  have hx4 : x ^ 4 = |x| ^ 4 := by rw [show x ^ 4 = (x ^ 2) ^ 2 by ring, hxx]; ring
  have s0 : 0 ≤ |sin x| := abs_nonneg _
  have x0 : 0 < |x| := abs_pos.mpr hx
  have h4 : |3 * sin x - 2 * x * cos x| ≤ 3 * |sin x| + 2 * |x| := by
    refine le_trans (abs_sub _ _) ?_
    rw [abs_mul, abs_mul, abs_mul, abs_two, abs_of_pos (by norm_num : (0 : ℝ) < 3)]
    nlinarith
  rw [hxx, hx4]
  have h5 : |sin x| ^ 3 * (3 * |sin x| + 2 * |x|) ≤ 5 * |x| ^ 2 := by
    have a1 : |sin x| ^ 2 ≤ |x| ^ 2 := by gcongr
    have a2 : |sin x| ^ 3 * (3 * |sin x|) ≤ 3 * |x| ^ 2 := by
      have : |sin x| ^ 2 ≤ 1 := by nlinarith
      nlinarith
    have a3 : |sin x| ^ 3 * (2 * |x|) ≤ 2 * |x| ^ 2 := by
      have : |sin x| ^ 3 ≤ |x| := by
        have : |sin x| ^ 2 ≤ 1 := by nlinarith
        nlinarith
      nlinarith
    nlinarith
  have h6 : |sin x| ^ 3 * |3 * sin x - 2 * x * cos x| ≤ 5 * |x| ^ 2 := le_trans (mul_le_mul_of_nonneg_left h4 (by positivity)) h5
  calc |sin x| ^ 3 * |3 * sin x - 2 * x * cos x| * |x| ^ 2 ≤ 5 * |x| ^ 2 * |x| ^ 2 := by gcongr
    _ = 5 * |x| ^ 4 := by ring

theorem cubic_tame {N : ℕ} (hN : 0 < N) : cubicCurve.Tame N := tame_of_bound _ hN (fun _ hf => cubic_bound hf)

theorem cubic_pos {f : ℝ} (f0 : 0 < f) (f2 : f < 2) : 0 < cubicCurve.response f := by
  rw [cubic_response f0.ne']
  have hp := pi_pos
  set x := π * f / 2 with hxd
  have e : π * f = 2 * x := by rw [hxd]; ring
  have x0 : 0 < x := by positivity
  have x1 : x < π := by rw [hxd]; nlinarith
  have s0 : 0 < sin x := sin_pos_of_pos_of_lt_pi x0 x1
  rw [e]
  have : 0 < 3 * sin x - 2 * x * cos x := by
    rcases lt_or_ge x (π / 2) with h | h
    · have hc : 0 < cos x := cos_pos_of_mem_Ioo ⟨by linarith, h⟩
      have ht := lt_tan x0 h
      rw [tan_eq_sin_div_cos, lt_div_iff₀ hc] at ht
      linarith
    · have hc : cos x ≤ 0 := cos_nonpos_of_pi_div_two_le_of_le h (by linarith)
      nlinarith
  positivity

theorem cubic_curve_even {N range : ℕ} (hr : range < N) : cubicCurve.Even N range := by
  intro i h1 h2
  have hN : (0 : ℝ) < N := by exact_mod_cast (by omega : 0 < N)
  have hi : (i : ℝ) < N := by exact_mod_cast (by omega : i < N)
  have hi0 : (0 : ℝ) ≤ i := by positivity
  push_cast
  refine mul_pos (cubic_pos ?_ ?_) (cubic_pos ?_ ?_)
  · exact div_pos (by linarith) hN
  · rw [div_lt_iff₀ hN]; linarith
  · exact div_pos (by linarith) hN
  · rw [div_lt_iff₀ hN]; linarith

/-! ## Smooth curves -/

theorem response_interval (κ : Curve) {R : ℝ} (hR : κ.reach ≤ R) (f : ℝ) :
    κ.response f = ∫ t in (-R)..R, κ.weight t * cos (π * f * t) := by
  have h0 : (0 : ℝ) ≤ κ.reach := by positivity
  unfold Curve.response
  rw [intervalIntegral.integral_of_le (by linarith), setIntegral_eq_integral_of_forall_compl_eq_zero]
  intro t ht
  rw [κ.vanishes, zero_mul]
  by_contra h
  rw [not_le, abs_lt] at h
  exact ht ⟨by linarith, by linarith⟩

theorem response_continuous (κ : Curve) : Continuous κ.response := by
  have : κ.response = fun f => ∫ t in (-(κ.reach : ℝ))..κ.reach, κ.weight t * cos (π * f * t) := by
    funext f; exact response_interval κ le_rfl f
  rw [this]
  have := κ.continuous
  exact intervalIntegral.continuous_parametric_intervalIntegral_of_continuous' (by fun_prop) _ _

theorem curve_near (κ : Curve) (h : κ.response 1 ≠ 0) : ∃ δ > 0, ∀ N range : ℕ, (range : ℝ) ≤ δ * N → κ.Even N range := by
  have hc : Continuous (fun x => κ.response (1 - x) * κ.response (1 + x)) :=
    ((response_continuous κ).comp (by fun_prop)).mul ((response_continuous κ).comp (by fun_prop))
  have h0 : 0 < κ.response (1 - 0) * κ.response (1 + 0) := by
    rw [sub_zero, add_zero]; exact mul_self_pos.mpr h
  obtain ⟨δ, d0, hd⟩ := Metric.mem_nhds_iff.mp (hc.continuousAt.eventually (lt_mem_nhds h0))
  refine ⟨δ / 2, by positivity, ?_⟩
  intro N range hr i h1 h2
  have hN : 0 < N := by
    rcases Nat.eq_zero_or_pos N with rfl | h
    · exfalso
      have : (1 : ℝ) ≤ range := by exact_mod_cast le_trans h1 h2
      simp at hr
      subst hr
      omega
    · exact h
  have hN' : (0 : ℝ) < N := by exact_mod_cast hN
  have hi : (i : ℝ) ≤ δ / 2 * N := le_trans (by exact_mod_cast h2) hr
  have hx : (i : ℝ) / N ≤ δ / 2 := by rw [div_le_iff₀ hN']; exact hi
  have hmem : (i : ℝ) / N ∈ Metric.ball (0 : ℝ) δ := by
    rw [Metric.mem_ball, dist_zero_right, Real.norm_eq_abs, abs_of_nonneg (by positivity)]
    exact lt_of_le_of_lt hx (by linarith)
  have := hd hmem
  have this : 0 < κ.response (1 - i / N) * κ.response (1 + i / N) := this
  push_cast
  rw [show ((N : ℝ) - i) / N = 1 - i / N by field_simp, show ((N : ℝ) + i) / N = 1 + i / N by field_simp]
  exact this

/-- Curves whose slope does not change abruptly. -/
theorem smooth_bound (κ : Curve) {κ' : ℝ → ℝ} {Λ : ℝ} (hd : ∀ t, HasDerivAt κ.weight (κ' t) t)
    (hl : ∀ s t, |κ' s - κ' t| ≤ Λ * |s - t|) : ∃ V, ∀ f, f ≠ 0 → |κ.response f| ≤ V / f ^ 2 := by
  have hpi := pi_pos
  have L0 : 0 ≤ Λ := by
    have := le_trans (abs_nonneg _) (hl 1 0)
    simpa using this
  have hc : Continuous κ' := by
    have : LipschitzWith ⟨Λ, L0⟩ κ' := LipschitzWith.of_dist_le_mul (fun s t => by rw [dist_eq, dist_eq]; exact hl s t)
    exact this.continuous
  have hzero : ∀ t, (κ.reach : ℝ) < |t| → κ' t = 0 := by
    intro t ht
    have h1 : κ.weight =ᶠ[nhds t] fun _ => 0 := by
      filter_upwards [(isOpen_lt continuous_const continuous_abs).mem_nhds ht] with s hs
      exact κ.vanishes s (le_of_lt hs)
    exact (hd t).unique ((hasDerivAt_const t (0 : ℝ)).congr_of_eventuallyEq h1)
  have hcs : HasCompactSupport κ' := by
    refine HasCompactSupport.intro (K := Set.Icc (-(κ.reach : ℝ)) κ.reach) isCompact_Icc (fun t ht => hzero t ?_)
    by_contra h
    rw [not_lt, abs_le] at h
    exact ht h
  set R : ℝ := (κ.reach : ℝ) with hR
  have R0 : 0 ≤ R := by positivity
  have big : ∀ f : ℝ, 1 ≤ f → |κ.response f| ≤ Λ * (2 * R + 1) / (2 * π) / f ^ 2 := by
    intro f hf
    have f0 : 0 < f := by linarith
    set ω := π * f with hω
    have ω0 : 0 < ω := by positivity
    let I : ℝ := ∫ t, κ' t * sin (ω * t)
    have parts : κ.response f = -(1 / ω) * I := by
      have h1 : κ.response f = ∫ t in (-(R + 1))..(R + 1), κ.weight t * cos (ω * t) := response_interval κ (by rw [← hR]; linarith) f
      have h2 : I = ∫ t in (-(R + 1))..(R + 1), κ' t * sin (ω * t) := by
        rw [intervalIntegral.integral_of_le (by linarith), setIntegral_eq_integral_of_forall_compl_eq_zero]
        intro t ht
        rw [hzero, zero_mul]
        by_contra h
        rw [not_lt, abs_le] at h
        exact ht ⟨by linarith, by linarith⟩
      have hs : ∀ t, HasDerivAt (fun t => sin (ω * t) / ω) (cos (ω * t)) t := by
        intro t
        have h1 : HasDerivAt (fun t => ω * t) ω t := by simpa using (hasDerivAt_id t).const_mul ω
        refine (((hasDerivAt_sin _).comp t h1).div_const ω).congr_deriv ?_
        field_simp
      have h3 := intervalIntegral.integral_mul_deriv_eq_deriv_mul (a := -(R + 1)) (b := R + 1) (fun t _ => hd t) (fun t _ => hs t)
        (hc.intervalIntegrable _ _) (Continuous.intervalIntegrable (by fun_prop) _ _)
      rw [κ.vanishes (R + 1) (by rw [abs_of_nonneg (by linarith)]; linarith),
        κ.vanishes (-(R + 1)) (by rw [abs_neg, abs_of_nonneg (by linarith)]; linarith)] at h3
      rw [h1, h3, h2, ← intervalIntegral.integral_const_mul]
      rw [zero_mul, zero_mul, sub_zero, zero_sub, ← intervalIntegral.integral_neg]
      refine intervalIntegral.integral_congr (fun t _ => ?_)
      ring
    have hint : Integrable (fun t => κ' t * sin (ω * t)) :=
      (hc.mul (by fun_prop)).integrable_of_hasCompactSupport (hcs.mul_right)
    have hh : 0 < 1 / f := by positivity
    have hint2 : Integrable (fun t => κ' (t + 1 / f) * sin (ω * t)) := by
      have h1 : HasCompactSupport (fun t : ℝ => κ' (t + 1 / f)) := hcs.comp_homeomorph (Homeomorph.addRight (1 / f))
      exact ((hc.comp (by fun_prop)).mul (by fun_prop)).integrable_of_hasCompactSupport (h1.mul_right)
    have shift : I = -∫ t, κ' (t + 1 / f) * sin (ω * t) := by
      have h1 := integral_add_right_eq_self (μ := volume) (fun t => κ' t * sin (ω * t)) (1 / f)
      have h2 : (fun t => κ' (t + 1 / f) * sin (ω * (t + 1 / f))) = fun t => -(κ' (t + 1 / f) * sin (ω * t)) := by
        funext t
        have : ω * (t + 1 / f) = ω * t + π := by rw [hω]; field_simp
        rw [this, sin_add_pi]
        ring
      rw [h2, integral_neg] at h1
      exact h1.symm
    have twice : 2 * I = ∫ t, (κ' t - κ' (t + 1 / f)) * sin (ω * t) := by
      have : (fun t => (κ' t - κ' (t + 1 / f)) * sin (ω * t)) = fun t => κ' t * sin (ω * t) - κ' (t + 1 / f) * sin (ω * t) := by
        funext t; ring
      rw [this, integral_sub hint hint2]
      have : I = ∫ t, κ' t * sin (ω * t) := rfl
      linarith
    have bound : |2 * I| ≤ Λ * (1 / f) * (2 * R + 1 / f) := by
      rw [twice, ← setIntegral_eq_integral_of_forall_compl_eq_zero (s := Set.Icc (-(R + 1 / f)) R), ← norm_eq_abs]
      · refine le_trans (norm_setIntegral_le_of_norm_le_const (C := Λ * (1 / f)) (by simp) ?_) ?_
        · intro t _
          rw [norm_eq_abs, abs_mul]
          have h1 := hl t (t + 1 / f)
          rw [show t - (t + 1 / f) = -(1 / f) by ring, abs_neg, abs_of_pos hh] at h1
          have h2 := abs_sin_le_one (ω * t)
          have h3 := abs_nonneg (κ' t - κ' (t + 1 / f))
          have h4 : 0 ≤ |sin (ω * t)| := abs_nonneg _
          nlinarith
        · rw [Measure.real, Real.volume_Icc, ENNReal.toReal_ofReal (by linarith)]
          refine le_of_eq ?_
          ring
      · intro t ht
        rw [hzero, hzero, sub_zero, zero_mul]
        · rcases le_or_gt t R with h | h
          · have : t < -(R + 1 / f) := by
              by_contra hc; exact ht ⟨not_lt.mp hc, h⟩
            rw [lt_abs]; right; linarith
          · rw [lt_abs]; left; linarith
        · rcases le_or_gt t R with h | h
          · have : t < -(R + 1 / f) := by
              by_contra hc; exact ht ⟨not_lt.mp hc, h⟩
            rw [lt_abs]; right; linarith
          · rw [lt_abs]; left; linarith
    rw [parts, abs_mul, abs_neg, abs_of_pos (by positivity : (0 : ℝ) < 1 / ω)]
    rw [abs_mul, abs_two] at bound
    have h1 : 1 / f ≤ 1 := by rw [div_le_one f0]; exact hf
    have h2 : Λ * (1 / f) * (2 * R + 1 / f) ≤ Λ * (1 / f) * (2 * R + 1) := by gcongr
    calc 1 / ω * |I| ≤ 1 / ω * (Λ * (1 / f) * (2 * R + 1) / 2) := by gcongr; linarith
      _ = _ := by rw [hω]; field_simp
  have small : ∀ f : ℝ, |κ.response f| ≤ ∫ t, |κ.weight t| := by
    intro f
    unfold Curve.response
    refine le_trans (abs_integral_le_integral_abs) ?_
    refine integral_mono (curve_integrable κ (by fun_prop)).abs ?_ ?_
    · have := (curve_integrable κ (g := fun _ => 1) continuous_const).abs
      simpa using this
    · intro t
      simp only
      rw [abs_mul]
      have := abs_cos_le_one (π * f * t)
      nlinarith [abs_nonneg (κ.weight t)]
  have B0 : 0 ≤ ∫ t, |κ.weight t| := integral_nonneg (fun t => abs_nonneg _)
  have A0 : 0 ≤ Λ * (2 * R + 1) / (2 * π) := by positivity
  refine ⟨Λ * (2 * R + 1) / (2 * π) + ∫ t, |κ.weight t|, ?_⟩
  have pos : ∀ f : ℝ, 0 < f → |κ.response f| ≤ (Λ * (2 * R + 1) / (2 * π) + ∫ t, |κ.weight t|) / f ^ 2 := by
    intro f f0
    rcases le_or_gt 1 f with h | h
    · refine le_trans (big f h) ?_
      gcongr
      linarith
    · refine le_trans (small f) ?_
      rw [le_div_iff₀ (by positivity)]
      have : f ^ 2 ≤ 1 := by nlinarith
      nlinarith
  intro f hf
  rcases lt_or_gt_of_ne hf with h | h
  · have := pos (-f) (by linarith)
    rwa [response_neg, neg_sq] at this
  · exact pos f h

end Verif
