import Verif.Model.Kiss

/-!
# What the code is linked against

Everything the C standard, FFTW and the platform leave open, as parameters.
-/

namespace Verif

/-- `RDResolution` (resdet.h:37-40). -/
structure Res where
  index : ℕ
  confidence : Fl
deriving DecidableEq, Repr

/-- `sortres` (analysis.c:10-15). -/
def sortres (l r : Res) : ℤ :=
  if l.confidence.lt r.confidence then 1 else if l.confidence.gt r.confidence then -1 else 0

/-- What `qsort` requires of a comparator on the elements of an array (C17 7.22.5: "consistent with one another", a total
ordering): antisymmetric signs and transitivity (analysis.c:153). -/
structure Consistent (cmp : Res → Res → ℤ) (l : List Res) : Prop where
  refl : ∀ a ∈ l, cmp a a = 0
  anti : ∀ a ∈ l, ∀ b ∈ l, (cmp a b).sign = -(cmp b a).sign
  trans : ∀ a ∈ l, ∀ b ∈ l, ∀ c ∈ l, cmp a b ≤ 0 → cmp b c ≤ 0 → cmp a c ≤ 0

instance (cmp : Res → Res → ℤ) (l : List Res) : Decidable (Consistent cmp l) :=
  decidable_of_iff ((∀ a ∈ l, cmp a a = 0) ∧ (∀ a ∈ l, ∀ b ∈ l, (cmp a b).sign = -(cmp b a).sign) ∧
      (∀ a ∈ l, ∀ b ∈ l, ∀ c ∈ l, cmp a b ≤ 0 → cmp b c ≤ 0 → cmp a c ≤ 0))
    ⟨fun h => ⟨h.1, h.2.1, h.2.2⟩, fun h => ⟨h.refl, h.anti, h.trans⟩⟩

/-- A platform. -/
structure Env where
  /-- `fftwf_execute` of a `height` x `width` REDFT10 plan, as a function on the array -/
  fftw : (width height : ℕ) → List Fl → List Fl
  fftw_length : ∀ w h l, (fftw w h l).length = l.length
  /-- whether the FFTW planner accepts the size -/
  fftwPlans : (width height : ℕ) → Bool
  /-- the trigonometric tables of the KISS backend -/
  twiddle : ℕ → ℕ → Cpx Fl
  superTwiddle : ℕ → ℕ → Cpx Fl
  shift : ℕ → ℕ → Cpx Fl
  /-- what `frexp` stores for an infinity or a NaN -/
  frexpJunk : Fl → ℤ
  /-- contents of fresh memory -/
  junk : Fl
  /-- `errno` after a failed `fseek`, less one -/
  seekErrno : ℕ
  /-- `qsort` of results with `sortres`, where it is defined -/
  sorter : List Res → List Res
  sorter_perm : ∀ l, Consistent sortres l → (sorter l).Perm l
  sorter_sorted : ∀ l, Consistent sortres l → (sorter l).Pairwise (fun a b => sortres a b ≤ 0)

/-- A build on a platform. -/
structure Sys where
  cfg : Cfg
  env : Env

/-- C `qsort(res, count, sizeof(*res), sortres)` (analysis.c:153). -/
def Env.qsort (e : Env) (l : List Res) : Option (List Res) :=
  if Consistent sortres l then some (e.sorter l) else none

end Verif
