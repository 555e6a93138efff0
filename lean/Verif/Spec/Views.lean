import Verif.Model.Numpy

/-! # Arrays as numpy shows them

What elements an array has, and which of them the binding gets to see. -/

namespace Verif.Spec

/-- An array of numpy: memory, the place of the first element in it, and for every dimension its length and how far its elements are apart. -/
structure View where
  base : List Fl
  start : ℕ
  dims : List (ℕ × ℤ)

namespace View

/-- The place of the element with some indices. -/
def place (v : View) (idx : List ℕ) : ℤ := v.start + ((idx.zip v.dims).map (fun x => (x.1 : ℤ) * x.2.2)).sum

/-- The element with some indices. -/
def get (v : View) (idx : List ℕ) : Option Fl := if 0 ≤ v.place idx then v.base[(v.place idx).toNat]? else none

/-- `v.T`: the dimensions in reverse order. -/
def T (v : View) : View := { v with dims := v.dims.reverse }

/-- `v[::-1]`: the first dimension backwards. -/
def flip (v : View) : View :=
  match v.dims with
  | [] => v
  | (n, k) :: ds => ⟨v.base, (v.start + (n - 1) * k).toNat, (n, -k) :: ds⟩

/-- A new array of `H` rows of `W` samples, in the order numpy has by default. -/
def rows (H W : ℕ) (base : List Fl) : View := ⟨base, 0, [(H, W), (W, 1)]⟩

/-- A new array of `n` images. -/
def images (n H W : ℕ) (base : List Fl) : View := ⟨base, 0, [(n, H * W), (H, W), (W, 1)]⟩

/-- What the binding uses: `ctypes.data_as` is the address of the first element, and the distances are not looked at (resdet_numpy.py:28, 33). -/
def array (v : View) : NdArray := ⟨v.dims.map Prod.fst, v.base.drop v.start⟩

end View

/-- `samples` are the elements of `n` images one after the other, row by row. -/
def InOrder (v : View) (n H W : ℕ) (samples : List Fl) : Prop :=
  samples.length = n * (W * H) ∧ ∀ f < n, ∀ y < H, ∀ x < W, v.get [f, y, x] = samples[(f * H + y) * W + x]?

end Verif.Spec
