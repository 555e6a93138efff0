import Verif.Model.Util
import Mathlib.Data.Finset.Prod
import Mathlib.Order.Interval.Finset.Nat
import Mathlib.Data.Finset.Card

/-!
# What the detection methods measure

Stated on a two-dimensional table `g` of coefficients: `g y x` is the coefficient at position `x` of line `y`.  For widths
the lines are the rows of the image, for heights the columns.
-/

namespace Verif.Spec

/-- Rows of a `w`-wide array. -/
def rows (f : List Fl) (w : ℕ) (y x : ℕ) : Fl := (f[y * w + x]?).getD (.nan false)

/-- Columns of a `w`-wide array: line `y` is column `y`. -/
def cols (f : List Fl) (w : ℕ) (y x : ℕ) : Fl := rows f w x y

/-- Number of pairs (line, distance) whose coefficients left and right of `x` have different sign bits. -/
def signMatches (g : ℕ → ℕ → Fl) (n range x : ℕ) : ℕ :=
  ((Finset.range n ×ˢ Finset.Icc 1 range).filter
    (fun p => (g p.1 (x - p.2)).signbit ≠ (g p.1 (x + p.2)).signbit)).card

/-- Number of pairs (line, distance) at which the two coefficients pass the test `hit`. -/
def pairMatches (hit : Fl → Fl → Bool) (g : ℕ → ℕ → Fl) (n range x : ℕ) : ℕ :=
  ((Finset.range n ×ˢ Finset.Icc 1 range).filter (fun p => hit (g p.1 (x - p.2)) (g p.1 (x + p.2)) = true)).card

/-- `l`, `m`, `r` cross zero monotonically. -/
def crosses (l m r : Fl) : Bool := l.signbit != r.signbit && ((l.lt m && m.lt r) || (m.lt l && r.lt m))

/-- Number of lines with a zero crossing at `x`. -/
def crossings (g : ℕ → ℕ → Fl) (n x : ℕ) : ℕ :=
  ((Finset.range n).filter (fun y => crosses (g y (x - 1)) (g y x) (g y (x + 1)) = true)).card

/-- `count / (n*range)` in the intermediate type. -/
def ratio (c : Cfg) (count a b : ℕ) : Fl := c.inter.div (c.inter.ofNat count) (c.inter.mul (c.inter.ofNat a) (c.inter.ofNat b))

/-- Sum of a sequence of floats, first to last. -/
def fsum (F : Fmt) (l : List Fl) : Fl := l.foldl F.add (.fin false 0)

/-- Mean magnitude of position `x` over the lines. -/
def meanMag (c : Cfg) (g : ℕ → ℕ → Fl) (n x : ℕ) : Fl :=
  c.inter.div (fsum c.inter ((List.range n).map (fun y => (c.inter.conv (g y x)).fabs))) (c.inter.ofNat n)

/-- The magnitude test of the orig method: both neighbourhoods of `x` exceed the middle, and they are closer to each other
than to the middle. -/
def origPasses (c : Cfg) (g : ℕ → ℕ → Fl) (n range x : ℕ) : Bool :=
  let left := fsum c.inter ((List.range range).map (fun i => meanMag c g n (x - (i + 1))))
  let right := fsum c.inter ((List.range range).map (fun i => meanMag c g n (x + (i + 1))))
  let mid := c.inter.mul (meanMag c g n x) (c.inter.ofNat range)
  mid.lt (if left.lt right then left else right) &&
    (c.inter.sub left right).fabs.lt (c.inter.sub left mid).fabs &&
    (c.inter.sub left right).fabs.lt (c.inter.sub right mid).fabs

/-- The test of the mag method: `a` is close to `-b`, i.e. `|a/b + 1| < 1`, with `b` kept away from zero. -/
def magHit (s : Sys) (a b : Fl) : Bool :=
  let c := s.cfg
  let eps := Fl.fin false (pow2 (1 - (c.inter.p : ℤ)))
  let den := (if eps.lt b.fabs then b.fabs else c.coeff.conv eps).copysign b
  let t := c.inter.conv (c.coeff.add (c.coeff.div a den) (.fin false 1))
  match t with
  | .fin _ v => decide (|v| < 1)
  | t => decide (s.env.frexpJunk t ≤ 0)

/-- What one frame contributes to the score of position `x`; `none` means the position is left alone. -/
def frameScore (s : Sys) (d : Detect) (g : ℕ → ℕ → Fl) (n range x : ℕ) : Option Fl :=
  match d with
  | .sign => some (ratio s.cfg (signMatches g n range x) n range)
  | .mag => some (ratio s.cfg (pairMatches (magHit s) g n range x) n range)
  | .orig => if origPasses s.cfg g n range x then some (ratio s.cfg (signMatches g n range x) range n) else none
  | .zerox => some (s.cfg.inter.div (s.cfg.inter.ofNat (crossings g n x)) (s.cfg.inter.ofNat n))

/-- Adding a contribution to a running score. -/
def addScore (c : Cfg) (r : Fl) (o : Option Fl) : Fl :=
  match o with
  | some v => c.inter.add r v
  | none => r

end Verif.Spec
