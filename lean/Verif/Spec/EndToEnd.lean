import Verif.Spec.Accuracy
import Verif.Spec.Mirror
import Verif.Spec.CliText
import Verif.Spec.Results

/-! # What a picture shows, in exact arithmetic -/

namespace Verif.Spec

/-- The picture in the raster of a PGM: column `i`, row `j`, from black 0 to white 1. -/
noncomputable def gray (W maxval : ℕ) (raster : List UInt8) (i j : ℕ) : ℝ := ((((raster[j * W + i]?).getD 0).toNat : ℝ)) / maxval

open Classical in
/-- The number of pairs (line, distance from `N`) whose exact coefficients left and right of `N` have opposite signs. -/
noncomputable def oppositePairs (X : ℕ → ℕ → ℝ) (n range N : ℕ) : ℕ :=
  ((Finset.range n ×ˢ Finset.Icc 1 range).filter (fun p => X p.1 (N - p.2) * X p.1 (N + p.2) < 0)).card

/-- Their share. -/
noncomputable def share (X : ℕ → ℕ → ℝ) (n range N : ℕ) : ℚ := oppositePairs X n range N / (n * range)

/-- The raster repeats each sample `k` times in its row. -/
def RepeatsColumns (k W H : ℕ) (raster : List UInt8) : Prop :=
  ∀ i j, i < W → j < H → raster[j * W + i]? = raster[j * W + i / k * k]?

/-- The raster repeats each row `k` times. -/
def RepeatsRows (k W H : ℕ) (raster : List UInt8) : Prop :=
  ∀ i j, i < W → j < H → raster[j * W + i]? = raster[j / k * k * W + i]?

/-- The list `l` for one dimension, of length `len`, is what exact arithmetic gives for coefficients `X`.  It ends with the length itself;
before come sizes at least `range` away from both ends, by descending confidence, each once.  A size about which the coefficients are clear, that
is at least `d`, is listed if and only if the share of opposite pairs, rounded to the intermediate type `F`, reaches the threshold `t`, and
then with this share as confidence, rounded to `float`. -/
structure ExactList (F : Fmt) (d : ℝ) (t : ℚ) (range len n : ℕ) (X : ℕ → ℕ → ℝ) (l : List Res) : Prop where
  sorted : Descending l
  parts : ∃ init, l = init ++ [⟨len, .fin true (-1)⟩] ∧ (init.map Res.index).Nodup ∧ ∀ r ∈ init, range ≤ r.index ∧ r.index + range < len
  entries : ∀ N, range ≤ N → N + range < len → Clear d X n range N →
    ∀ c, (⟨N, c⟩ : Res) ∈ l ↔ c = .fin false (binary32.rnd (F.rnd (share X n range N))) ∧ t ≤ F.rnd (share X n range N)

/-- The text lists the entry `r` as a width: on the first line, or in the left column of the table.  (With verbosity 1 only the best guess
is printed, with 0 nothing.) -/
def ListsWidth (verbosity : ℤ) (r : Res) (t : List UInt8) : Prop :=
  (verbosity = 2 → ∃ a b ws, Lines [a, b] t ∧ Words ws a ∧ ∃ x ∈ ws, Numeral r.index x) ∧
  (verbosity = 3 → ∃ a b ws, Lines [a, b] t ∧ Words ws a ∧ ∃ x ∈ ws, Entry r x) ∧
  (¬ (0 ≤ verbosity ∧ verbosity ≤ 3) → ∃ ls l c rest, Lines ls t ∧ l ∈ ls ∧ Cell r c ∧ l = c ++ blanks 3 ++ rest)

/-- The text lists the entry `r` as a height: on the second line, or in the right column of the table. -/
def ListsHeight (verbosity : ℤ) (r : Res) (t : List UInt8) : Prop :=
  (verbosity = 2 → ∃ a b ws, Lines [a, b] t ∧ Words ws b ∧ ∃ x ∈ ws, Numeral r.index x) ∧
  (verbosity = 3 → ∃ a b ws, Lines [a, b] t ∧ Words ws b ∧ ∃ x ∈ ws, Entry r x) ∧
  (¬ (0 ≤ verbosity ∧ verbosity ≤ 3) → ∃ ls l c before, Lines ls t ∧ l ∈ ls ∧ Cell r c ∧ l = before ++ c)

/-- The text lists the width `N` with full confidence. -/
def ShowsWidth (verbosity : ℤ) (N : ℕ) (t : List UInt8) : Prop := ListsWidth verbosity ⟨N, .fin false 1⟩ t

/-- The text lists the height `N` with full confidence. -/
def ShowsHeight (verbosity : ℤ) (N : ℕ) (t : List UInt8) : Prop := ListsHeight verbosity ⟨N, .fin false 1⟩ t

/-- The text says that the image has its original size. -/
def ShowsOriginal (verbosity : ℤ) (W H : ℕ) (t : List UInt8) : Prop :=
  (verbosity = 1 → ∃ l, Lines [l] t ∧ Pair W H ' ' l) ∧
  (verbosity = 2 → ∃ a b, Lines [a ++ [ch ' '], b ++ [ch ' ']] t ∧ Numeral W a ∧ Numeral H b) ∧
  (verbosity = 3 → ∃ a b, Lines [a ++ [ch ' '], b ++ [ch ' ']] t ∧ Entry ⟨W, .fin true (-1)⟩ a ∧ Entry ⟨H, .fin true (-1)⟩ b) ∧
  (¬ (0 ≤ verbosity ∧ verbosity ≤ 3) → ∃ a b, Lines [cs "given: " ++ a, cs "best guess: " ++ b ++ cs " (not upsampled)"] t ∧ Pair W H 'x' a ∧ Pair W H 'x' b)

/-- The coefficients are clear about all sizes, and exact arithmetic finds the best size `N`: either it reaches the threshold and has a higher
confidence than all others, or none reaches the threshold and `N` is the length itself. -/
def Prevails (F : Fmt) (d : ℝ) (t : ℚ) (range len n : ℕ) (X : ℕ → ℕ → ℝ) (N : ℕ) : Prop :=
  (∀ M, range ≤ M → M + range < len → Clear d X n range M) ∧
  ((range ≤ N ∧ N + range < len ∧ t ≤ F.rnd (share X n range N) ∧ ∀ M, range ≤ M → M + range < len → M ≠ N →
      binary32.rnd (F.rnd (share X n range M)) < binary32.rnd (F.rnd (share X n range N))) ∨
    (N = len ∧ ∀ M, range ≤ M → M + range < len → F.rnd (share X n range M) < t))

/-- The text gives `a` x `b` as the best guess. -/
def ShowsBest (verbosity : ℤ) (a b : ℕ) (t : List UInt8) : Prop :=
  (verbosity = 1 → ∃ l, Lines [l] t ∧ Pair a b ' ' l) ∧
  (verbosity = 2 → ∃ l1 l2 x y, Lines [x ++ [ch ' '] ++ l1, y ++ [ch ' '] ++ l2] t ∧ Numeral a x ∧ Numeral b y) ∧
  (verbosity = 3 → ∃ l1 l2 x y, Lines [x ++ ch ':' :: l1, y ++ ch ':' :: l2] t ∧ Numeral a x ∧ Numeral b y) ∧
  (¬ (0 ≤ verbosity ∧ verbosity ≤ 3) → ∃ g x note rest, Lines (g :: (cs "best guess: " ++ x ++ note) :: rest) t ∧ Pair a b 'x' x)

end Verif.Spec
