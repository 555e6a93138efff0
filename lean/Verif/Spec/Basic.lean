import Verif.Model.Analysis

/-! # Notions used to state properties of the analysis functions -/

namespace Verif.Spec

/-- `x` is a number between 0 and 1. -/
def InUnit (x : Fl) : Prop := ∃ s v, x = .fin s v ∧ 0 ≤ v ∧ v ≤ 1

/-- The states a parameter object may be in: a positive range, a threshold that is unset (negative) or between 0 and 1,
and a filter below the width of `unsigned`. -/
structure ValidParams (c : Cfg) (p : Params) : Prop where
  range_pos : 1 ≤ p.range
  range_le : p.range ≤ c.sizeMax
  threshold : p.threshold = .fin true (-1) ∨ InUnit p.threshold
  filter : p.compressionFilter ≤ 31

/-- A valid optional parameter argument: NULL or a valid object. -/
def ValidParams? (c : Cfg) (p : Option Params) : Prop := ∀ q, p = some q → ValidParams c q

/-- A valid optional method argument: NULL or one of the listed methods. -/
def ValidMethod? (m : Option Method) : Prop := ∀ q, m = some q → q ∈ methods

/-- On this build the byte counts the KISS backend computes for the sizes it accepts do not wrap around (true whenever
`size_t` is wider than `int`, or with a small enough `PIXEL_MAX`), and its 32 entry factor table is large enough. -/
structure KissFits (c : Cfg) : Prop where
  factors : c.intMax < 2 ^ 32
  arrays : ∀ n, n ≤ c.intMax / 3 → n ≤ c.pixelMax → 2 * c.szKiss * (n + 1) ≤ c.sizeMax
  config : ∀ n, n ≤ c.intMax / 3 → n ≤ c.pixelMax →
    c.szFftr + (c.szFft + 2 * c.szKiss * (n - 1)) + 2 * c.szKiss * (n * 3 / 2) ≤ c.sizeMax

/-- A supported build: basic sanity of the constants, and room in `size_t` for the byte counts of the KISS plan and of a
result array (both hold whenever `size_t` is wider than `int`). -/
structure Build (s : Sys) : Prop where
  wf : s.cfg.WF
  kiss : s.cfg.backend = .kiss → KissFits s.cfg
  results : ∀ n, n ≤ s.cfg.intMax → n ≤ s.cfg.pixelMax → (n + 1) * s.cfg.szRes ≤ s.cfg.sizeMax

/-- The method a call uses: the given one, or the first listed one if NULL is passed. -/
def effMethod (m : Option Method) : Method := m.getD (methods.head (by simp [methods]))

/-- The parameters an analysis uses: the given ones or the defaults, with an unset threshold replaced by the method's own,
and range 1 for the zerox method. -/
def effParams (c : Cfg) (m : Method) (p : Option Params) : Params :=
  let q := p.getD (defaultParams c)
  { range := if m.func = .zerox then 1 else q.range
    threshold := if q.threshold = .fin true (-1) then m.threshold else q.threshold
    compressionFilter := q.compressionFilter }

/-- The largest side the transform backend accepts: `INT_MAX` for FFTW, `INT_MAX/3` for KISS FFT. -/
def sideMax (c : Cfg) : ℕ :=
  match c.backend with
  | .kiss => c.intMax / 3
  | .fftw => c.intMax

/-- The intermediate type represents image sides exactly and products of two sides without overflow: true for `double`
(the default) and `long double`. -/
structure Precise (c : Cfg) : Prop where
  sides : c.intMax ≤ 2 ^ c.inter.p
  room : 2 * (c.inter.p : ℤ) < c.inter.emax

/-- The number a finite float stands for. -/
def val : Fl → ℚ
  | .fin _ v => v
  | _ => 0

end Verif.Spec
