import Verif.Spec.Upscale
import Mathlib.Data.Nat.Factors

/-! # Rounding errors of the bundled transform -/

namespace Verif.Spec

/-- The float `c` is a number at most `u` away from `x`, with the sign bit that belongs to it. -/
def Tabulated (u : ℝ) (c : Fl) (x : ℝ) : Prop := ∃ b, ∃ v : ℚ, c = .fin b v ∧ (v ≠ 0 → b = decide (v < 0)) ∧ |(v : ℝ) - x| ≤ u

/-- `u` bounds the relative error of one operation of the bundled transform and the error of the entries of its tables of
cosines and sines.  Coefficients are stored in a format at least as fine as the one the transform computes in
(configure:213-217: `float` and `float`, `double` and `double`, or `long double` and `double`). -/
structure Accurate (s : Sys) (u : ℝ) : Prop where
  kiss : s.cfg.kiss.WF
  finer : s.cfg.kiss.p ≤ s.cfg.coeff.p ∧ s.cfg.coeff.qmin ≤ s.cfg.kiss.qmin ∧ s.cfg.kiss.emax ≤ s.cfg.coeff.emax
  unit : ((pow2 (-s.cfg.kiss.p) : ℚ) : ℝ) ≤ u
  twiddle : ∀ n k, k < n → Tabulated u (s.env.twiddle n k).r (exact.twiddle n k).r ∧ Tabulated u (s.env.twiddle n k).i (exact.twiddle n k).i
  superTwiddle : ∀ n k, k < n / 2 → Tabulated u (s.env.superTwiddle n k).r (exact.superTwiddle n k).r ∧
    Tabulated u (s.env.superTwiddle n k).i (exact.superTwiddle n k).i
  shift : ∀ n k, k < n → Tabulated u (s.env.shift n k).r (exact.shift n k).r ∧ Tabulated u (s.env.shift n k).i (exact.shift n k).i

/-- The sum of the prime factors of `n`, with multiplicity. -/
def primeSum (n : ℕ) : ℕ := n.primeFactorsList.sum

/-- The bound for the error of a coefficient: samples are at most `M`. -/
noncomputable def errorBound (u M : ℝ) (w h : ℕ) : ℝ := 60 * (primeSum w + primeSum h + 8) * (w * h * M) * u

/-- Sizes and samples for which nothing overflows, nothing underflows to speak of, and the bound is meaningful. -/
structure Moderate (s : Sys) (u M : ℝ) (w h : ℕ) : Prop where
  small : (16 : ℝ) * ((pow2 (s.cfg.kiss.qmin - 1) : ℚ) : ℝ) ≤ u * M
  large : 1200 * (w * h * M) ≤ ((pow2 (s.cfg.kiss.emax - 1) : ℚ) : ℝ)
  width : 512 * ((primeSum w + 4) * u) ≤ 1
  height : 512 * ((primeSum h + 4) * u) ≤ 1

/-- All samples of the `w` x `h` image are numbers of absolute value at most `M`. -/
def Sampled (M : ℝ) (w h : ℕ) (image : List Fl) : Prop :=
  ∀ i j, i < w → j < h → ∃ b, ∃ v : ℚ, image[j * w + i]? = some (.fin b v) ∧ |(v : ℝ)| ≤ M

end Verif.Spec
