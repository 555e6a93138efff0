import Verif.Spec.History

/-! # The evidence of a frame for a position, in exact arithmetic -/

namespace Verif.Spec

/-- The share of the pairs (or lines) examined by method `d` that speak for position `x`. -/
def evidence (s : Sys) (d : Detect) (g : ℕ → ℕ → Fl) (n range x : ℕ) : ℚ :=
  match d with
  | .sign => signMatches g n range x / (n * range)
  | .mag => pairMatches (magHit s) g n range x / (n * range)
  | .orig => if origPasses s.cfg g n range x then signMatches g n range x / (n * range) else 0
  | .zerox => crossings g n x / n

/-- The intermediate type holds the product of a `float` and any number up to `k` exactly: for `double` and normal floats, up to
`2 ^ 29` frames. -/
structure Exact (c : Cfg) (k : ℕ) : Prop where
  digits : k * 2 ^ 24 ≤ 2 ^ c.inter.p
  small : c.inter.qmin ≤ -149

end Verif.Spec
