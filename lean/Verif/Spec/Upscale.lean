import Verif.Spec.Fourier
import Verif.Spec.History

/-! # Enlarged images and computed spectra -/

namespace Verif.Spec

/-- The sample in column `i` and row `j` of a `w`-wide image, as a real number (NaN and infinities count as 0). -/
noncomputable def pixel (w : ℕ) (image : List Fl) (i j : ℕ) : ℝ := ((val ((image[j * w + i]?).getD (.fin false 0)) : ℚ) : ℝ)

/-- Every sample of the `w` x `h` image is repeated `k` times horizontally: column `i` equals the first column of its
group of `k`. -/
def Widened (k w h : ℕ) (image : List Fl) : Prop :=
  ∀ i j, i < w → j < h → image[j * w + i]? = image[j * w + i / k * k]?

/-- Every sample of the `w` x `h` image is repeated `k` times vertically. -/
def Heightened (k w h : ℕ) (image : List Fl) : Prop :=
  ∀ i j, i < w → j < h → image[j * w + i]? = image[j / k * k * w + i]?

/-- The float `c` is a number less than `d` away from `x`, with the sign bit that belongs to it. -/
def Within (d : ℝ) (c : Fl) (x : ℝ) : Prop := ∃ v : ℚ, ∃ b, c = .fin b v ∧ (v ≠ 0 → b = decide (v < 0)) ∧ |(v : ℝ) - x| < d

/-- In all `n` lines and up to distance `range` from position `N`, the computed coefficients `g` are within `d` of the
exact ones `X`, and the exact ones other than those at `N` are at least `m`. -/
def Resolved (d m : ℝ) (g : ℕ → ℕ → Fl) (X : ℕ → ℕ → ℝ) (n range N : ℕ) : Prop :=
  ∀ y < n, ∀ x, N - range ≤ x → x ≤ N + range → Within d (g y x) (X y x) ∧ (x ≠ N → m ≤ |X y x|)

end Verif.Spec
