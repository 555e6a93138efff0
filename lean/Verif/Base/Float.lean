import Mathlib.Data.Rat.Floor
import Mathlib.Data.Nat.Log
import Mathlib.Algebra.Order.Field.Power

/-!
# IEEE-754 style arithmetic on rationals

The C types `float`, `double` and `long double` used by libresdet (precision.h:21-54) are modelled as formats of binary
floating point numbers.  A value is a NaN, a signed infinity, or a rational number together with its sign bit (the sign
bit matters only for zeros).  An operation is the exact rational operation followed by one rounding to nearest, ties to
even, with overflow to infinity.  Simplification: one NaN (with a sign bit) instead of NaN payloads; default rounding
mode; no excess precision.
-/

namespace Verif

/-- A binary floating point format: `p` digits of significand, smallest quantum `2^qmin`, overflow at `2^emax`. -/
structure Fmt where
  p : ℕ
  qmin : ℤ
  emax : ℤ
deriving DecidableEq, Repr

/-- C `float` (precision.h:21-23). -/
def binary32 : Fmt := ⟨24, -149, 128⟩
/-- C `double` (precision.h:24-26). -/
def binary64 : Fmt := ⟨53, -1074, 1024⟩
/-- C `long double` on x86 (precision.h:27-29). -/
def x87 : Fmt := ⟨64, -16445, 16384⟩

/-- Sanity conditions every format above meets. -/
structure Fmt.WF (F : Fmt) : Prop where
  p_pos : 1 ≤ F.p
  qmin_le : F.qmin ≤ 0
  p_le : (F.p : ℤ) ≤ F.emax
  -- one can be represented
  one_le : -F.qmin ≥ F.p

/-- `2^e`, in a form the kernel evaluates quickly. -/
def pow2 (e : ℤ) : ℚ :=
  if 0 ≤ e then ((2 ^ e.toNat : ℕ) : ℚ) else mkRat 1 (2 ^ (-e).toNat)

/-- Floor of the base two logarithm of a positive rational. -/
def ilog2 (q : ℚ) : ℤ :=
  let e : ℤ := (Nat.log2 q.num.natAbs : ℤ) - (Nat.log2 q.den : ℤ)
  if pow2 e ≤ q then e else e - 1

/-- Round to the nearest integer, ties to even. -/
def rne (q : ℚ) : ℤ :=
  let f := ⌊q⌋
  let d := q - f
  if d < 1 / 2 then f
  else if 1 / 2 < d then f + 1
  else if f % 2 = 0 then f else f + 1

/-- Exponent of the quantum used for the magnitude `a > 0` in format `F`. -/
def Fmt.quantum (F : Fmt) (a : ℚ) : ℤ := max (ilog2 a - (F.p : ℤ) + 1) F.qmin

/-- Round a non-negative magnitude to the format, ignoring overflow. -/
def Fmt.rndAbs (F : Fmt) (a : ℚ) : ℚ :=
  if a = 0 then 0 else rne (a / pow2 (F.quantum a)) * pow2 (F.quantum a)

/-- Round a rational to the format, ignoring overflow. -/
def Fmt.rnd (F : Fmt) (v : ℚ) : ℚ := if v < 0 then - F.rndAbs (-v) else F.rndAbs v

/-- A floating point value. -/
inductive Fl where
  | nan (neg : Bool)
  | inf (neg : Bool)
  | fin (neg : Bool) (v : ℚ)
deriving DecidableEq, Repr

namespace Fl

/-- C `signbit`. -/
def signbit : Fl → Bool
  | nan s => s
  | inf s => s
  | fin s _ => s

/-- C `isfinite`. -/
def isfinite : Fl → Bool
  | fin _ _ => true
  | _ => false

/-- C `isnan`. -/
def isnan : Fl → Bool
  | nan _ => true
  | _ => false

/-- C `<`; false if an operand is NaN. -/
def lt : Fl → Fl → Bool
  | nan _, _ => false
  | _, nan _ => false
  | inf a, inf b => a && !b
  | inf a, fin _ _ => a
  | fin _ _, inf b => !b
  | fin _ x, fin _ y => x < y

/-- C `>`. -/
def gt (x y : Fl) : Bool := lt y x

/-- C `>=`; false if an operand is NaN. -/
def ge : Fl → Fl → Bool
  | nan _, _ => false
  | _, nan _ => false
  | x, y => !lt x y

/-- C `==` on numbers: zeros of either sign are equal, NaN equals nothing. -/
def feq : Fl → Fl → Bool
  | nan _, _ => false
  | _, nan _ => false
  | inf a, inf b => a == b
  | inf _, fin _ _ => false
  | fin _ _, inf _ => false
  | fin _ x, fin _ y => x == y

/-- C truth value of a float: anything but a zero. -/
def truthy : Fl → Bool
  | fin _ v => v != 0
  | _ => true

end Fl

/-- Deliver the exact value `v` in format `F`; `s` is the sign bit to use when `v` is exactly zero. -/
def Fmt.deliver (F : Fmt) (s : Bool) (v : ℚ) : Fl :=
  if v = 0 then .fin s 0
  else
    let r := F.rnd v
    if pow2 F.emax ≤ |r| then .inf (decide (v < 0)) else .fin (decide (v < 0)) r

/-- Conversion of a float value to format `F`. -/
def Fmt.conv (F : Fmt) : Fl → Fl
  | .fin s v => F.deliver s v
  | x => x

/-- Conversion of an unsigned integer to format `F`. -/
def Fmt.ofNat (F : Fmt) (n : ℕ) : Fl := F.deliver false (n : ℚ)

/-- C `x + y` in format `F`. -/
def Fmt.add (F : Fmt) : Fl → Fl → Fl
  | .nan s, _ => .nan s
  | _, .nan s => .nan s
  | .inf a, .inf b => if a = b then .inf a else .nan true
  | .inf a, .fin _ _ => .inf a
  | .fin _ _, .inf b => .inf b
  | .fin a x, .fin b y => F.deliver (a && b) (x + y)

/-- C unary minus. -/
def Fl.neg : Fl → Fl
  | .nan s => .nan (!s)
  | .inf s => .inf (!s)
  | .fin s v => .fin (!s) (-v)

/-- C `x - y` in format `F`. -/
def Fmt.sub (F : Fmt) (x y : Fl) : Fl :=
  match y with
  | .nan s => match x with
    | .nan t => .nan t
    | _ => .nan s
  | _ => F.add x y.neg

/-- C `x * y` in format `F`. -/
def Fmt.mul (F : Fmt) : Fl → Fl → Fl
  | .nan s, _ => .nan s
  | _, .nan s => .nan s
  | .inf a, .inf b => .inf (xor a b)
  | .inf a, .fin b y => if y = 0 then .nan true else .inf (xor a b)
  | .fin a x, .inf b => if x = 0 then .nan true else .inf (xor a b)
  | .fin a x, .fin b y => F.deliver (xor a b) (x * y)

/-- C `x / y` in format `F`. -/
def Fmt.div (F : Fmt) : Fl → Fl → Fl
  | .nan s, _ => .nan s
  | _, .nan s => .nan s
  | .inf _, .inf _ => .nan true
  | .inf a, .fin b _ => .inf (xor a b)
  | .fin a _, .inf b => .fin (xor a b) 0
  | .fin a x, .fin b y =>
    if y = 0 then (if x = 0 then .nan true else .inf (xor a b))
    else F.deliver (xor a b) (x / y)

/-- C `fabs`. -/
def Fl.fabs : Fl → Fl
  | .nan _ => .nan false
  | .inf _ => .inf false
  | .fin _ v => .fin false |v|

/-- C `copysign(x, y)`. -/
def Fl.copysign (x y : Fl) : Fl :=
  let a := x.fabs
  if y.signbit then a.neg else a

/-- C `round` (halves away from zero); exact in the format of its argument. -/
def Fl.cround : Fl → Fl
  | .fin s v => .fin s (if v < 0 then -(⌊-v + 1 / 2⌋ : ℚ) else (⌊v + 1 / 2⌋ : ℚ))
  | x => x

/-- The exponent C `frexp` stores: `0` for zero, `k` with `2^(k-1) ≤ |v| < 2^k` otherwise.  For infinities and NaN the
C standard leaves the stored value unspecified; `junk` stands for it. -/
def Fl.frexpExp (junk : ℤ) : Fl → ℤ
  | .fin _ v => if v = 0 then 0 else ilog2 |v| + 1
  | _ => junk

/-- `x` is a value of format `F`: rounding does not change it and its sign bit agrees with its value. -/
def Fl.Is (F : Fmt) : Fl → Prop
  | .fin s v => F.rnd v = v ∧ |v| < pow2 F.emax ∧ (v < 0 → s = true) ∧ (0 < v → s = false)
  | _ => True

end Verif
