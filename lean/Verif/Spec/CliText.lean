import Verif.Spec.Formats
import Verif.Spec.Basic

/-!
# Reading what the command prints

How a script reads the text: lines, words in them, and numbers in those.
-/

namespace Verif.Spec

/-- `t` consists of these lines. -/
def Lines (ls : List (List UInt8)) (t : List UInt8) : Prop := t = (ls.map (· ++ [ch '\n'])).flatten ∧ ∀ l ∈ ls, OneLine l

/-- `t` consists of these words, each with a space after it. -/
def Words (ws : List (List UInt8)) (t : List UInt8) : Prop := t = (ws.map (· ++ [ch ' '])).flatten ∧ ∀ x ∈ ws, x ≠ [] ∧ Solid x

/-- `t` is a decimal number with `k` digits after the point, and stands for `q`. -/
def Decimal (k : ℕ) (q : ℚ) (t : List UInt8) : Prop :=
  ∃ (neg : Bool) (n m : ℕ) (i f : List UInt8), t = (if neg then [ch '-'] else []) ++ (i ++ ch '.' :: f) ∧ Numeral n i ∧ Numeral m f ∧
    f.length = k ∧ q = (if neg then -1 else 1) * (n + (m : ℚ) / 10 ^ k)

/-- `t` gives the number `x` with `k` digits after the point, off by at most `ε`. -/
def Gives (k : ℕ) (ε : ℚ) (x : ℚ) (t : List UInt8) : Prop := ∃ q, Decimal k q t ∧ |q - x| ≤ ε

/-- `t` is a size and its confidence, correctly rounded to six digits. -/
def Entry (r : Res) (t : List UInt8) : Prop :=
  ∃ a b, t = a ++ ch ':' :: b ∧ Numeral r.index a ∧ ∀ s v, r.confidence = .fin s v → Gives 6 (1 / 2 / 10 ^ 6) v b

/-- `n` blanks. -/
def blanks (n : ℕ) : List UInt8 := List.replicate n (ch ' ')

/-- `t` is a cell of the table: a size and its confidence in percent, with two digits. -/
def Cell (r : Res) (t : List UInt8) : Prop :=
  ∃ a b, t = blanks (5 - a.length) ++ a ++ cs " (" ++ (blanks (5 - b.length) ++ b) ++ cs "%)" ∧ Numeral r.index a ∧ ch ')' ∉ b ∧
    ∀ s v, r.confidence = .fin s v → 0 ≤ v → v ≤ 1 → Gives 2 (1 / 2 / 10 ^ 2 + 1 / 10 ^ 5) (100 * v) b

/-- `t` is a row of the table, with a width, a height or both. -/
inductive Row : Option Res → Option Res → List UInt8 → Prop where
  | both {a b s t} : Cell a s → Cell b t → Row (some a) (some b) (s ++ blanks 3 ++ t)
  | width {a s} : Cell a s → Row (some a) none (s ++ blanks 3)
  | height {b t} : Cell b t → Row none (some b) (blanks 17 ++ t)

/-- `t` is a size in the form `width x height`. -/
def Pair (width height : ℕ) (sep : Char) (t : List UInt8) : Prop := ∃ a b, t = a ++ ch sep :: b ∧ Numeral width a ∧ Numeral height b

/-- The text of the default output: size, best guess, and table of the widths `rw` and heights `rh` detected. -/
def Report (width height bw bh : ℕ) (rw rh : List Res) (t : List UInt8) : Prop :=
  ∃ g b rows, Pair width height 'x' g ∧ Pair bw bh 'x' b ∧
    Lines ([cs "given: " ++ g, cs "best guess: " ++ b ++ (if rw = [] ∧ rh = [] then cs " (not upsampled)" else [])] ++
      (if rw = [] ∧ rh = [] then [] else cs "all width        height" :: rows)) t ∧
    rows.length = max rw.length rh.length ∧ ∀ (i : ℕ) (row : List UInt8), rows[i]? = some row → Row rw[i]? rh[i]? row

/-- What a script or a person reads in the output for these lists. -/
def Legible (verbosity : ℤ) (width height : ℕ) (rw rh : List Res) (t : List UInt8) : Prop :=
  (verbosity = 0 → t = []) ∧
  (verbosity = 1 → ∃ a b l, rw.head? = some a ∧ rh.head? = some b ∧ Lines [l] t ∧ Pair a.index b.index ' ' l) ∧
  (verbosity = 2 → ∃ a b x y, Lines [a, b] t ∧ Words x a ∧ Words y b ∧
    List.Forall₂ Numeral (rw.map Res.index) x ∧ List.Forall₂ Numeral (rh.map Res.index) y) ∧
  (verbosity = 3 → ∃ a b x y, Lines [a, b] t ∧ Words x a ∧ Words y b ∧ List.Forall₂ Entry rw x ∧ List.Forall₂ Entry rh y) ∧
  (¬ (0 ≤ verbosity ∧ verbosity ≤ 3) → ∃ a b, rw.head? = some a ∧ rh.head? = some b ∧
    Report width height a.index b.index rw.dropLast rh.dropLast t)

end Verif.Spec
