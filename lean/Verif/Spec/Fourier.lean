import Verif.Model.Kiss
import Mathlib.Analysis.SpecialFunctions.Trigonometric.Basic

/-! The discrete Fourier and cosine transforms, and exact arithmetic for the bundled transform. -/

namespace Verif

/-- A `kiss_fft_cpx` over the reals as a complex number. -/
def Cpx.toC (z : Cpx ℝ) : ℂ := ⟨z.r, z.i⟩

namespace Spec

/-- The point `cos a + i sin a` of the unit circle, as `kf_cexp` stores it (_kiss_fft_guts.h:141-145). -/
noncomputable def circle (a : ℝ) : Cpx ℝ := ⟨Real.cos a, Real.sin a⟩

/-- Exact arithmetic: real numbers, no rounding, and the tables that the code fills with `cos` and `sin`
(kiss_fft.c:357-363, kiss_fftr.c:53-59, lib/transform/kiss_fft.c:53-62) holding the exact values. -/
noncomputable def exact : Arith ℝ where
  add := (· + ·)
  sub := (· - ·)
  mul := (· * ·)
  neg := Neg.neg
  zero := 0
  half := 1 / 2
  load := id
  store := id
  twiddle n k := circle (-2 * Real.pi * k / n)
  superTwiddle n i := circle (-Real.pi * ((i + 1) / n + 1 / 2))
  shift n i := circle (-Real.pi * i / (2 * n))

/-- The discrete Fourier transform of `x 0, ..., x (n-1)`. -/
noncomputable def dft (n : ℕ) (x : ℕ → ℂ) (k : ℕ) : ℂ :=
  ∑ j ∈ Finset.range n, x j * Complex.exp (-2 * Real.pi * Complex.I * j * k / n)

/-- The unnormalised discrete cosine transform of type II of `x 0, ..., x (n-1)` (FFTW's `REDFT10`). -/
noncomputable def dct (n : ℕ) (x : ℕ → ℝ) (k : ℕ) : ℝ :=
  2 * ∑ j ∈ Finset.range n, x j * Real.cos (Real.pi * (j + 1 / 2) * k / n)

/-- The two-dimensional transform of an image of width `w` and height `h`: coefficient in column `u` and row `v`. -/
noncomputable def dct2 (w h : ℕ) (x : ℕ → ℕ → ℝ) (u v : ℕ) : ℝ :=
  dct h (fun j => dct w (fun i => x i j) u) v

end Spec

end Verif
