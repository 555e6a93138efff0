import Verif.Spec.Upscale
import Mathlib.Data.Finset.Max

/-! # Images enlarged by an interpolation filter -/

namespace Verif.Spec

/-- The sequence `o 0, ..., o (N-1)` continued in both directions by mirroring at its ends. -/
def mirrored (N : ℕ) (o : ℕ → ℝ) (j : ℤ) : ℝ :=
  let m := (j % (2 * N : ℕ)).toNat
  if m < N then o m else o (2 * N - 1 - m)

/-- An interpolation filter for the factor `s`: each of the `s` new samples that replace a sample is a weighted sum of the samples at the
distances in `taps`.  The weights do not prefer a direction. -/
structure Kernel (s : ℕ) where
  taps : Finset ℤ
  weight : ℕ → ℤ → ℝ
  taps_neg : ∀ t ∈ taps, -t ∈ taps
  weight_neg : ∀ b < s, ∀ t ∈ taps, weight (s - 1 - b) (-t) = weight b t

/-- `x` is `o` (of length `N`) enlarged by the filter. -/
def Enlarged {s : ℕ} (F : Kernel s) (N : ℕ) (o x : ℕ → ℝ) : Prop :=
  ∀ a < N, ∀ b < s, x (s * a + b) = ∑ t ∈ F.taps, F.weight b t * mirrored N o (a + t)

/-- Every row of the `s * N` wide image `x` is enlarged by the filter. -/
def RowsEnlarged {s : ℕ} (F : Kernel s) (N h : ℕ) (x : ℕ → ℕ → ℝ) : Prop := ∀ j < h, ∃ o, Enlarged F N o (fun i => x i j)

/-- Every column of the `s * N` high image `x` is enlarged by the filter. -/
def ColsEnlarged {s : ℕ} (F : Kernel s) (N w : ℕ) (x : ℕ → ℕ → ℝ) : Prop := ∀ i < w, ∃ o, Enlarged F N o (fun j => x i j)

/-- The response of the filter to the frequency of coefficient `k`: the new sample `b` lies `b + 1/2 - s/2 - s t` new samples away from the
sample at distance `t`. -/
noncomputable def Kernel.response {s : ℕ} (F : Kernel s) (N k : ℕ) : ℝ :=
  ∑ b ∈ Finset.range s, ∑ t ∈ F.taps, F.weight b t * Real.cos (Real.pi * k * (b + 1 / 2 - s / 2 - s * t) / (s * N))

/-- The filter treats frequencies at equal distances from the original size alike: neither removes nor inverts only one of them. -/
def Kernel.Even {s : ℕ} (F : Kernel s) (N range : ℕ) : Prop := ∀ i, 1 ≤ i → i ≤ range → 0 < F.response N (N - i) * F.response N (N + i)

/-- The response as a function of the frequency, in units of the original sampling rate: `response N k` is its value at `k / N`. -/
noncomputable def Kernel.curve {s : ℕ} (F : Kernel s) (f : ℝ) : ℝ :=
  ∑ b ∈ Finset.range s, ∑ t ∈ F.taps, F.weight b t * Real.cos (Real.pi * f * (b + 1 / 2 - s / 2 - s * t) / s)

/-- Repeating every sample `s` times. -/
noncomputable def nearest (s : ℕ) : Kernel s where
  taps := {0}
  weight _ _ := 1
  taps_neg := by simp
  weight_neg := by simp

/-- Linear interpolation between the two nearest samples. -/
noncomputable def linear (s : ℕ) : Kernel s where
  taps := {-1, 0, 1}
  weight b t := max 0 (1 - |((b : ℝ) + 1 / 2) / s - 1 / 2 - t|)
  taps_neg := by decide
  weight_neg := by
    intro b hb t _
    have hs : (s : ℝ) ≠ 0 := by
      have : s ≠ 0 := by omega
      exact_mod_cast this
    have e : (((s - 1 - b : ℕ) : ℝ) + 1 / 2) / s - 1 / 2 - ((-t : ℤ) : ℝ) = -(((b : ℝ) + 1 / 2) / s - 1 / 2 - t) := by
      have : ((s - 1 - b : ℕ) : ℝ) = s - 1 - b := by
        rw [Nat.cast_sub (by omega), Nat.cast_sub (by omega)]; push_cast; ring
      rw [this]
      push_cast
      field_simp
      ring
    rw [e, abs_neg]

open Classical in
/-- The number of pairs (line, distance from `N`) both of whose exact coefficients are at least `d`. -/
noncomputable def clearPairs (d : ℝ) (X : ℕ → ℕ → ℝ) (n range N : ℕ) : ℕ :=
  ((Finset.range n ×ˢ Finset.Icc 1 range).filter (fun p => d ≤ |X p.1 (N - p.2)| ∧ d ≤ |X p.1 (N + p.2)|)).card

/-- In all `n` lines and up to distance `range` from `N`, the computed coefficients `g` are within `d` of the exact ones `X`. -/
def Computed (d : ℝ) (g : ℕ → ℕ → Fl) (X : ℕ → ℕ → ℝ) (n range N : ℕ) : Prop :=
  ∀ y < n, ∀ x, N - range ≤ x → x ≤ N + range → Within d (g y x) (X y x)

end Verif.Spec
