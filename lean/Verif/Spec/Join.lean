import Verif.Spec.Black

/-! # Sequences joined -/

namespace Verif.Spec

/-- `l1` and `l2` were found in two sequences of `k1` and `k2` frames, `l` in the frames of both. A candidate of `l` is one of the others, unless its
confidence is at most the threshold `t`, up to `δ`; one of both is a candidate of `l`, its confidence the weighted mean of the two up to `ε`, unless that
mean is at most the threshold, up to `δ`. -/
def Joined (k1 k2 : ℕ) (ε δ t : ℚ) (len : ℕ) (l1 l2 l : List Res) : Prop :=
  (∀ r ∈ l, r.index ≠ len → ∃ v, r.confidence = .fin false v ∧ ((∃ r' ∈ l1 ++ l2, r'.index = r.index) ∨ v ≤ t + δ)) ∧
  ∀ r1 ∈ l1, ∀ r2 ∈ l2, r1.index = r2.index → r1.index ≠ len → ∃ v1 v2, r1.confidence = .fin false v1 ∧ r2.confidence = .fin false v2 ∧
    ((∃ r ∈ l, r.index = r1.index ∧ ∃ v, r.confidence = .fin false v ∧ |v - (k1 * v1 + k2 * v2) / (k1 + k2)| ≤ ε) ∨
      (k1 * v1 + k2 * v2) / (k1 + k2) ≤ t + δ)

end Verif.Spec
