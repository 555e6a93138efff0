import Verif.Spec.History
import Verif.Spec.Basic

/-! # Pictures without content -/

namespace Verif.Spec

/-- The numbers in the tables of the bundled transform are finite, and the first components of the last one are not negative: they are the
cosines of angles below a quarter turn. -/
structure Tables (e : Env) : Prop where
  tw : ∀ n k, k < n → (e.twiddle n k).r.isfinite = true ∧ (e.twiddle n k).i.isfinite = true
  stw : ∀ n k, k < n / 2 → (e.superTwiddle n k).r.isfinite = true ∧ (e.superTwiddle n k).i.isfinite = true
  shift : ∀ n k, k < n → (e.shift n k).r.isfinite = true ∧ (e.shift n k).r.signbit = false ∧ (e.shift n k).i.isfinite = true

/-- The tables start with the number one, as the cosine and the sine of zero; the sine may be a zero of either sign. -/
structure UnitTables (e : Env) : Prop where
  tw : ∀ n, 0 < n → (e.twiddle n 0).r = .fin false 1 ∧ ∃ z, (e.twiddle n 0).i = .fin z 0
  shift : ∀ n, 0 < n → (e.shift n 0).r = .fin false 1 ∧ ∃ z, (e.shift n 0).i = .fin z 0

/-- Every number is a positive zero. -/
def AllZero (l : List Fl) : Prop := ∀ v ∈ l, v = .fin false 0

/-- What is assumed of the transform: finite tables for the bundled one; that FFTW turns zeros into zeros. -/
def KeepsBlack (s : Sys) : Prop :=
  (s.cfg.backend = .kiss ∧ Tables s.env) ∨ (s.cfg.backend = .fftw ∧ ∀ w h l, AllZero l → AllZero (s.env.fftw w h l))

/-- The call analyses an image whose `n` samples are zero. -/
def BlackFrame (n : ℕ) (x : Call × Obs) : Prop := ∃ image, x.1.op = .analyze (some image) ∧ AllZero (image.take n)

/-- The call analyses an image whose `n` samples are all equal to `v`. -/
def FlatFrame (n : ℕ) (v : Fl) (x : Call × Obs) : Prop := ∃ image, x.1.op = .analyze (some image) ∧ image.take n = List.replicate n v

/-- The number is a product of twos and threes. -/
def TwosThrees (n : ℕ) : Prop := ∃ i j, n = 2 ^ i * 3 ^ j

/-- What the bundled transform needs to treat numbers up to one exactly in pictures of `n` samples: tables that start with one and hold finite numbers,
samples in its own format, and numbers large enough for the sums. -/
structure FlatExact (s : Sys) (n : ℕ) : Prop where
  backend : s.cfg.backend = .kiss
  tables : Tables s.env
  units : UnitTables s.env
  same : s.cfg.coeff = s.cfg.kiss
  eps : s.cfg.coeff.qmin ≤ 1 - (s.cfg.inter.p : ℤ)
  order : s.cfg.coeff.emax ≤ s.cfg.inter.emax
  room : 4 * (n : ℚ) ^ 2 * pow2 ((s.cfg.inter.p : ℤ) - 1) ≤ pow2 (s.cfg.coeff.emax - 2)

end Verif.Spec
