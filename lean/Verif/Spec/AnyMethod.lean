import Verif.Spec.Video

/-! # What each method shows, in exact arithmetic -/

namespace Verif.Spec

/-- The coefficients `Y` are less than `d` away from `X`. -/
def Around (d : ℝ) (X Y : ℕ → ℕ → ℝ) : Prop := ∀ y x, |Y y x - X y x| < d

/-- `m` lies between `l` and `r`. -/
def Inside (l m r : ℝ) : Prop := (l < m ∧ m < r) ∨ (r < m ∧ m < l)

/-- The smallest divisor of the mag method. -/
noncomputable def floorOf (c : Cfg) : ℝ := ((pow2 (1 - (c.inter.p : ℤ)) : ℚ) : ℝ)

/-- A quotient that large may exceed the floating point types of the mag method. -/
noncomputable def ceilingOf (c : Cfg) : ℝ := ((pow2 (min c.coeff.emax c.inter.emax - 2) : ℚ) : ℝ)

/-- With coefficients `Y`, line `p.1` speaks for position `N` at distance `p.2`, by a margin that rounding in the method does not bridge.  For the
sign and orig methods: the coefficients left and right of `N` are opposite.  For the mag method they are opposite and the left one is smaller than
twice the right one, but not negligible.  For the zerox method they are opposite, with the coefficient at `N` between them. -/
def Speaks (c : Cfg) (m : Detect) (Y : ℕ → ℕ → ℝ) (N : ℕ) (p : ℕ × ℕ) : Prop :=
  Y p.1 (N - p.2) * Y p.1 (N + p.2) < 0 ∧ match m with
  | .sign => True
  | .orig => True
  | .mag => 1 / 2 ^ 23 * max |Y p.1 (N + p.2)| (floorOf c) ≤ |Y p.1 (N - p.2)| ∧ |Y p.1 (N - p.2)| ≤ (2 - 1 / 2 ^ 23) * max |Y p.1 (N + p.2)| (floorOf c)
  | .zerox => Inside (Y p.1 (N - p.2)) (Y p.1 N) (Y p.1 (N + p.2))

/-- The line may be found to speak for position `N`: as above, but zeros have either sign, and in the mag method a quotient beyond the range of the
types counts as well (the exponent `frexp` stores for an infinity is unspecified). -/
def MaySpeak (c : Cfg) (m : Detect) (Y : ℕ → ℕ → ℝ) (N : ℕ) (p : ℕ × ℕ) : Prop :=
  match m with
  | .sign => Y p.1 (N - p.2) * Y p.1 (N + p.2) ≤ 0
  | .orig => Y p.1 (N - p.2) * Y p.1 (N + p.2) ≤ 0
  | .mag => (Y p.1 (N - p.2) * Y p.1 (N + p.2) ≤ 0 ∧ |Y p.1 (N - p.2)| < 2 * max |Y p.1 (N + p.2)| (floorOf c)) ∨
      ceilingOf c * max |Y p.1 (N + p.2)| (floorOf c) < |Y p.1 (N - p.2)|
  | .zerox => Y p.1 (N - p.2) * Y p.1 (N + p.2) ≤ 0 ∧ Inside (Y p.1 (N - p.2)) (Y p.1 N) (Y p.1 (N + p.2))

/-- Mean magnitude of the coefficients at position `x`. -/
noncomputable def level (Y : ℕ → ℕ → ℝ) (n x : ℕ) : ℝ := (∑ y ∈ Finset.range n, |Y y x|) / n

/-- The levels left and right of `N` exceed the level at `N`, and they are closer to each other than to that, by more than `κ`: the condition of the
orig method. -/
def Dips (κ : ℝ) (Y : ℕ → ℕ → ℝ) (n range N : ℕ) : Prop :=
  let left := ∑ i ∈ Finset.range range, level Y n (N - (i + 1))
  let right := ∑ i ∈ Finset.range range, level Y n (N + (i + 1))
  let mid := level Y n N * range
  mid + κ < left ∧ mid + κ < right ∧ |left - right| + κ < |left - mid| ∧ |left - right| + κ < |right - mid|

/-- What rounding in the orig method may amount to, for coefficients up to `A`. -/
noncomputable def slack (c : Cfg) (A : ℝ) (n range : ℕ) : ℝ := 120 * (range * (n + range) * A) * ((pow2 (-c.inter.p) : ℚ) : ℝ)

open Classical in
/-- The share of the pairs of line and distance that speak for position `N`, whatever the coefficients less than `d` away from `X`.  In the orig
method none do unless the levels dip. -/
noncomputable def sureOf (c : Cfg) (m : Detect) (d A : ℝ) (X : ℕ → ℕ → ℝ) (n range N : ℕ) : ℚ :=
  if m = .orig ∧ ¬ ∀ Y, Around d X Y → Dips (slack c A n range) Y n range N then 0
  else ((Finset.range n ×ˢ Finset.Icc 1 range).filter (fun p => ∀ Y, Around d X Y → Speaks c m Y N p)).card / (n * range)

open Classical in
/-- The share of the pairs that may speak for position `N`, for some coefficients less than `d` away from `X`. -/
noncomputable def possibleOf (c : Cfg) (m : Detect) (d A : ℝ) (X : ℕ → ℕ → ℝ) (n range N : ℕ) : ℚ :=
  if m = .orig ∧ ¬ ∃ Y, Around d X Y ∧ Dips (-slack c A n range) Y n range N then 0
  else ((Finset.range n ×ˢ Finset.Icc 1 range).filter (fun p => ∃ Y, Around d X Y ∧ MaySpeak c m Y N p)).card / (n * range)

/-- What is asked of the floating point types, beyond what the sign method needs: for the mag method, that they have at least the digits of `float`
and that the smallest divisor is a `coeff`; for the orig method, that sums of coefficients up to `A` stay in range and are accurate enough. -/
structure Capable (c : Cfg) (m : Detect) (A : ℝ) (n range : ℕ) : Prop where
  mag : m = .mag → 24 ≤ c.coeff.p ∧ 24 ≤ c.inter.p ∧ c.coeff.qmin ≤ 1 - c.inter.p
  orig : m = .orig → 1 ≤ A ∧ 32 * (n + range) ≤ 2 ^ c.inter.p ∧ 8 * ((n + range) * A) ≤ ((pow2 (c.inter.emax - 1) : ℚ) : ℝ)

/-- Mean over several spectra. -/
def meanOf (v : (ℕ → ℕ → ℝ) → ℚ) (Xs : List (ℕ → ℕ → ℝ)) : ℚ := (Xs.map v).sum / Xs.length

/-- The list `l` for one dimension, of length `len`, is what exact arithmetic gives for spectra `Xs`, where `lo X N` is the share that speaks for size
`N` in spectrum `X`, and `hi X N` the share that may, with errors of `ε` in means and `ε'` in confidences.  It ends with the length itself; before
come sizes at least `range` away from both ends that the filter `f` does not discard, by descending confidence, each once.  Such a size is listed if
the mean of `lo` exceeds the threshold by `ε`, only if that of `hi` is not smaller by more than `ε`, and with a confidence between these means, up to
`ε'`.  If in all spectra `lo` and `hi` lie between the same two `float`s, so does the confidence, and there is no error in the comparison with the
threshold. -/
structure BracketList (lo hi : (ℕ → ℕ → ℝ) → ℕ → ℚ) (ε ε' t : ℚ) (f range len : ℕ) (Xs : List (ℕ → ℕ → ℝ)) (l : List Res) : Prop where
  sorted : Descending l
  parts : ∃ init, l = init ++ [⟨len, .fin true (-1)⟩] ∧ (init.map Res.index).Nodup ∧ ∀ r ∈ init, range ≤ r.index ∧ r.index + range < len ∧
    filteredOut len f (r.index - range) = false
  listed : ∀ N, range ≤ N → N + range < len → filteredOut len f (N - range) = false → t + ε ≤ meanOf (lo · N) Xs → ∃ c, (⟨N, c⟩ : Res) ∈ l
  entries : ∀ N, range ≤ N → N + range < len → ∀ c, (⟨N, c⟩ : Res) ∈ l →
    t ≤ meanOf (hi · N) Xs + ε ∧ ∃ v, c = .fin false v ∧ meanOf (lo · N) Xs - ε' ≤ v ∧ v ≤ meanOf (hi · N) Xs + ε'
  between : ∀ N, range ≤ N → N + range < len → ∀ a b, 0 ≤ a → b ≤ 1 → binary32.rnd a = a → binary32.rnd b = b →
    (∀ X ∈ Xs, a ≤ lo X N ∧ hi X N ≤ b) →
    (∀ c, (⟨N, c⟩ : Res) ∈ l → ∃ v, c = .fin false v ∧ a ≤ v ∧ v ≤ b) ∧
    (t ≤ a → filteredOut len f (N - range) = false → ∃ c, (⟨N, c⟩ : Res) ∈ l) ∧ (b < t → ∀ c, (⟨N, c⟩ : Res) ∉ l)

end Verif.Spec
