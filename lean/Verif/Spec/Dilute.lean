import Verif.Spec.Black

/-! # Frames without content among others -/

namespace Verif.Spec

/-- The frame shows nothing the transform can take for content: it is black, or of one colour with the bundled transform and sides that are products of
twos and threes. -/
def EmptyFrame (s : Sys) (w h : ℕ) (x : Call × Obs) : Prop :=
  (KeepsBlack s ∧ BlackFrame (w * h) x) ∨
  (FlatExact s (w * h) ∧ TwosThrees w ∧ TwosThrees h ∧ ∃ q, 0 ≤ q ∧ q ≤ 1 ∧ FlatFrame (w * h) (.fin false q) x)

/-- The same of the samples of a frame. -/
def EmptyPicture (s : Sys) (w h : ℕ) (f : List Fl) : Prop :=
  (KeepsBlack s ∧ AllZero f) ∨ (FlatExact s (w * h) ∧ TwosThrees w ∧ TwosThrees h ∧ ∃ q, 0 ≤ q ∧ q ≤ 1 ∧ f = List.replicate (w * h) (.fin false q))

/-- `ys` is `xs`, up to `same`, with `extra` elements in between, before and after. -/
inductive Diluted {α : Type} (same : α → α → Prop) (extra : α → Prop) : List α → List α → Prop
  | nil : Diluted same extra [] []
  | same {x y : α} {xs ys : List α} : same x y → Diluted same extra xs ys → Diluted same extra (x :: xs) (y :: ys)
  | extra {y : α} {xs ys : List α} : extra y → Diluted same extra xs ys → Diluted same extra xs (y :: ys)

/-- Every candidate of `l'`, found in `k'` frames, is one of `l`, found in `k` of them, with a confidence that is not larger, and that is `k / k'` of the
other up to `ε`. -/
def Weaker (k k' : ℕ) (ε : ℚ) (len : ℕ) (l l' : List Res) : Prop :=
  ∀ r' ∈ l', r'.index ≠ len → ∃ r ∈ l, r.index = r'.index ∧ ∃ v v', r.confidence = .fin false v ∧ r'.confidence = .fin false v' ∧
    v' ≤ v ∧ |v' - v * k / k'| ≤ ε

/-- Every candidate of `l`, found in `k` frames, is one of `l'`, found in `k'`, unless `k / k'` of its confidence is at most the threshold `t`, up to `δ`. -/
def Kept (k k' : ℕ) (δ t : ℚ) (len : ℕ) (l l' : List Res) : Prop :=
  ∀ r ∈ l, r.index ≠ len → ∃ v, r.confidence = .fin false v ∧ ((∃ r' ∈ l', r'.index = r.index) ∨ v * k / k' ≤ t + δ)

end Verif.Spec
