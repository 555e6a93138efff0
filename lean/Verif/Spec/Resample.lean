import Verif.Spec.Interpolate
import Mathlib.MeasureTheory.Integral.Bochner.Basic
import Mathlib.MeasureTheory.Measure.Lebesgue.Basic
import Mathlib.Topology.Algebra.InfiniteSum.Defs

/-! # Images scaled to any size by an interpolation curve -/

namespace Verif.Spec

/-- An interpolation curve: the weight of a sample as a function of its distance from the point of interest.  It is continuous, does not
prefer a direction and vanishes from the distance `reach` on. -/
structure Curve where
  weight : ℝ → ℝ
  reach : ℕ
  continuous : Continuous weight
  symmetric : ∀ t, weight (-t) = weight t
  vanishes : ∀ t, (reach : ℝ) ≤ |t| → weight t = 0

/-- The value at the point `p` of the sequence `o` (of length `N`, continued by mirroring), whose sample `j` lies at the point `j`. -/
noncomputable def Curve.at (κ : Curve) (N : ℕ) (o : ℕ → ℝ) (p : ℝ) : ℝ :=
  ∑ j ∈ Finset.Icc ⌈p - κ.reach⌉ ⌊p + κ.reach⌋, κ.weight (p - j) * mirrored N o j

/-- `x` is `o`, of length `N`, scaled to the length `M`: both cover the same interval, and samples lie in the middle of their share. -/
def Scaled (κ : Curve) (N M : ℕ) (o x : ℕ → ℝ) : Prop := ∀ i < M, x i = κ.at N o ((i + 1 / 2) * N / M - 1 / 2)

/-- The response of the curve to the frequency `f`, where 1 is the highest frequency of the original. -/
noncomputable def Curve.response (κ : Curve) (f : ℝ) : ℝ := ∫ t, κ.weight t * Real.cos (Real.pi * f * t)

/-- The curve is smooth enough for the frequencies it lets through from an original of length `N` to add up. -/
def Curve.Tame (κ : Curve) (N : ℕ) : Prop := Summable (fun n : ℤ => κ.response (n / N))

/-- How much the curve lets through of the frequencies that a scaling from `N` to `M` cannot tell from that of coefficient `k`. -/
noncomputable def Curve.alias (κ : Curve) (N M k : ℕ) : ℝ :=
  ∑' j : ℤ, if j = 0 then 0 else |κ.response ((k + 2 * M * j : ℤ) / N)|

/-- The curve treats frequencies at equal distances from the highest frequency of the original alike. -/
def Curve.Even (κ : Curve) (N range : ℕ) : Prop :=
  ∀ i : ℕ, 1 ≤ i → i ≤ range → 0 < κ.response ((N - i : ℤ) / N) * κ.response ((N + i : ℤ) / N)

/-- Linear interpolation. -/
noncomputable def linearCurve : Curve where
  weight t := max 0 (1 - |t|)
  reach := 1
  continuous := by fun_prop
  symmetric := by intro t; rw [abs_neg]
  vanishes := by
    intro t ht
    rw [max_eq_left]
    simp only [Nat.cast_one] at ht
    linarith

/-- Cubic interpolation (Catmull-Rom, "bicubic" in two dimensions). -/
noncomputable def cubicCurve : Curve where
  weight t :=
    if |t| ≤ 1 then 3 / 2 * |t| ^ 3 - 5 / 2 * |t| ^ 2 + 1
    else if |t| ≤ 2 then -1 / 2 * |t| ^ 3 + 5 / 2 * |t| ^ 2 - 4 * |t| + 2
    else 0
  reach := 2
  continuous := by
    refine Continuous.if_le (by fun_prop) ?_ (by fun_prop) (by fun_prop) ?_
    · refine Continuous.if_le (by fun_prop) (by fun_prop) (by fun_prop) (by fun_prop) ?_
      intro t ht; rw [ht]; norm_num
    · intro t ht; rw [ht]; norm_num
  symmetric := by intro t; simp only [abs_neg]
  vanishes := by
    intro t ht
    simp only [Nat.cast_ofNat] at ht
    rw [if_neg (by linarith)]
    split
    · rename_i h
      rw [le_antisymm h ht]; norm_num
    · rfl

/-- Every row of the `M` wide image `x` is scaled from `N` samples whose coefficients are at most `C`. -/
def RowsScaled (κ : Curve) (N M h : ℕ) (C : ℝ) (x : ℕ → ℕ → ℝ) : Prop :=
  ∀ j < h, ∃ o, (∀ n, |dct N o n| ≤ C) ∧ Scaled κ N M o (fun i => x i j)

/-- Every column of the `M` high image `x` is scaled from `N` samples whose coefficients are at most `C`. -/
def ColsScaled (κ : Curve) (N M w : ℕ) (C : ℝ) (x : ℕ → ℕ → ℝ) : Prop :=
  ∀ i < w, ∃ o, (∀ n, |dct N o n| ≤ C) ∧ Scaled κ N M o (fun j => x i j)

end Verif.Spec
