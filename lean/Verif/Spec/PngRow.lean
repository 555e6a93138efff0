import Verif.Spec.External

/-! Interlaced PNG images of one row. -/

namespace Verif

/-- The passes of an interlaced image that have pixels in its first row, by their columns: the first, second, fourth and sixth of the seven
passes of Adam7 (the others begin further down). -/
def rowPasses : List (ℕ → Prop) := [fun x => x % 8 = 0, fun x => x % 8 = 4, fun x => x % 4 = 2, fun x => x % 2 = 1]

/-- From state `st` libpng delivers a row of this many pixels of `ways` bytes in these passes; a pass without pixels is not in the file. -/
inductive Png.Weaves (lib : Png) (width ways : ℕ) (row : List UInt8) : (st : ℕ) → (passes : List (ℕ → Prop)) → Prop where
  | done (st : ℕ) : lib.Weaves width ways row st []
  | empty {st : ℕ} {p : ℕ → Prop} {ps : List (ℕ → Prop)} : (∀ x < width, ¬ p x) → lib.Weaves width ways row st ps → lib.Weaves width ways row st (p :: ps)
  | more {st st' x : ℕ} {f : ℕ → UInt8} {p : ℕ → Prop} {ps : List (ℕ → Prop)} : x < width → p x → lib.row st = .ret (f, st') →
    (∀ j (h : j < row.length), p (j / ways) → f j = row[j]) → lib.Weaves width ways row st' ps → lib.Weaves width ways row st (p :: ps)

/-- libpng decodes the file to this one row of pixels, in passes. -/
structure Png.DecodesRow (lib : Png) (file : List UInt8) (i : PngInfo) (row : List Dot) : Prop where
  startup : ∃ st, lib.startup file = some (i, st) ∧
    lib.Weaves i.width (if i.color ∈ [2, 3, 6] then 3 else 1) (row.map Dot.bytes).flatten st rowPasses ∧ lib.end' = .ret ()
  legal : i.Legal
  interlaced : i.interlaced = true
  height : i.height = 1
  width : row.length = i.width
  kind : ∀ d ∈ row, d.isColour = decide (i.color ∈ [2, 3, 6])

end Verif
