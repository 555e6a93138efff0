import Verif.Spec.Formats
import Verif.Spec.Cli
import Verif.Model.Tools

/-! # Notions used to state the properties of the development tools -/

namespace Verif.Spec

/-- A value a `float` can hold. -/
def IsFloat (x : Fl) : Prop := ∃ n, n < 2 ^ 32 ∧ floatOfBits n = x

/-- How many entries of `l` do not occur in `m`. -/
def absent (l m : List ℕ) : ℕ := (l.filter (fun n => decide (n ∉ m))).length

/-- Figures for a list of known and a list of found sizes: at least the numbers of found but unknown and of known but not found
sizes, with the right difference; and exactly these numbers if both lists are in ascending order. -/
structure Tallied (known found : List ℕ) (plus minus : ℕ) : Prop where
  atleast_plus : absent found known ≤ plus
  atleast_minus : absent known found ≤ minus
  difference : plus + known.length = minus + found.length
  exact : known.Pairwise (· < ·) → found.Pairwise (· < ·) → plus = absent found known ∧ minus = absent known found

/-- Numerals for the sizes, with a space between them. -/
inductive SizeLine : List ℕ → List UInt8 → Prop where
  | last (n : ℕ) (ds : List UInt8) : Numeral n ds → SizeLine [n] ds
  | more (n : ℕ) (ds : List UInt8) (ns : List ℕ) (t : List UInt8) : Numeral n ds → SizeLine ns t → SizeLine (n :: ns) (ds ++ ch ' ' :: t)

/-- A confidence between -1 and 1, as a `float`. -/
def Tame (r : Res) : Prop := ∃ b v, r.confidence = .fin b v ∧ |v| ≤ 1 ∧ binary32.rnd v = v

/-- The confidence at a place of a list. -/
def confidenceAt (l : List Res) (i : ℕ) : ℚ := ((l[i]?).map (fun r => val r.confidence)).getD 0

/-- What stat takes for the quartile `k` of `n` confidences, without rounding: with `k*n/4 = a + t`, the entry at `a` weighs `t` and the
entry at `k*(n+1)/4` the rest. -/
def statQuartile (l : List Res) (n k : ℕ) : ℚ :=
  confidenceAt l (k * n / 4) * ((k * n % 4 : ℕ) / 4) + confidenceAt l (k * (n + 1) / 4) * (1 - (k * n % 4 : ℕ) / 4)

end Verif.Spec
