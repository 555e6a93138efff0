import Verif.Spec.Upscale

/-! # Pictures that differ in orientation, contrast and brightness only -/

namespace Verif.Spec

/-- The `w` x `h` picture `y` is `x` after any sequence of mirroring, turning upside down and multiplication by a number other than 0 (a change of
contrast, or inversion if the number is negative). -/
inductive Reoriented (w h : ℕ) : (ℕ → ℕ → ℝ) → (ℕ → ℕ → ℝ) → Prop where
  | mirror {x y : ℕ → ℕ → ℝ} : (∀ i j, i < w → j < h → y i j = x (w - 1 - i) j) → Reoriented w h x y
  | upside {x y : ℕ → ℕ → ℝ} : (∀ i j, i < w → j < h → y i j = x i (h - 1 - j)) → Reoriented w h x y
  | contrast {x y : ℕ → ℕ → ℝ} (c : ℝ) : c ≠ 0 → (∀ i j, i < w → j < h → y i j = c * x i j) → Reoriented w h x y
  | trans {x y z : ℕ → ℕ → ℝ} : Reoriented w h x y → Reoriented w h y z → Reoriented w h x z

/-- Moreover a number may have been added to all samples. -/
def SamePicture (w h : ℕ) (x y : ℕ → ℕ → ℝ) : Prop :=
  ∃ z b, Reoriented w h x z ∧ ∀ i j, i < w → j < h → y i j = z i j + b

/-- The exact coefficients `X` up to distance `range` from position `N` are at least `m`, in all `n` lines; that at `N` does not matter. -/
def Clear (m : ℝ) (X : ℕ → ℕ → ℝ) (n range N : ℕ) : Prop :=
  ∀ y < n, ∀ x, N - range ≤ x → x ≤ N + range → x ≠ N → m ≤ |X y x|

/-- `c'` is `c`, negated if `b`. -/
def turned (b : Bool) (c : Fl) : Fl := if b then c.neg else c

/-- The computed spectra `f` and `f'` of two `w` x `h` frames differ in the sign of every other column if `a`, of every other row if `b`, and of all
coefficients if `c`. -/
def Turned (w h : ℕ) (f f' : List Fl) : Prop :=
  ∃ a b c : Bool, ∀ u v, u < w → v < h → rows f' w v u = turned (xor (a && decide (u % 2 = 1)) (xor (b && decide (v % 2 = 1)) c)) (rows f w v u)

end Verif.Spec
