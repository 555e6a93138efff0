import Verif.Spec.Formats

/-!
# The texts `%f` reads

The grammar of C17 7.22.1.3: a sign, then a decimal or hexadecimal number with or without a point and a power, an infinity, or a NaN.
-/

namespace Verif.Spec

/-- A sign, which may be missing; whether it is a minus. -/
inductive FloatSign : Bool → List UInt8 → Prop where
  | none : FloatSign false []
  | plus : FloatSign false [ch '+']
  | minus : FloatSign true [ch '-']

/-- The word in letters of either case. -/
def AnyCase (word : String) (l : List UInt8) : Prop := l.map tolower = cs word

/-- A string of hexadecimal digits. -/
def HexDigits (l : List UInt8) : Prop :=
  ∀ b ∈ l, 48 ≤ b.toNat ∧ b.toNat ≤ 57 ∨ 65 ≤ b.toNat ∧ b.toNat ≤ 70 ∨ 97 ≤ b.toNat ∧ b.toNat ≤ 102

/-- The number a string of hexadecimal digits stands for. -/
def hexValue (l : List UInt8) : ℕ :=
  Nat.ofDigits 16 (l.reverse.map (fun b => if b.toNat ≤ 57 then b.toNat - 48 else if b.toNat ≤ 70 then b.toNat - 55 else b.toNat - 87))

/-- Digits `ds`, and digits `fs` after a point; one digit at least. -/
inductive Pointed (ds : List UInt8) : (fs text : List UInt8) → Prop where
  | whole : ds ≠ [] → Pointed ds [] ds
  | point {fs : List UInt8} : ds ++ fs ≠ [] → Pointed ds fs (ds ++ ch '.' :: fs)

/-- A power, which may be missing: the letter, a sign, and digits. -/
inductive FloatPower (letter : String) : ℤ → List UInt8 → Prop where
  | none : FloatPower letter 0 []
  | some {b : UInt8} {neg : Bool} {n : ℕ} {sign ds : List UInt8} : AnyCase letter [b] → FloatSign neg sign → Numeral n ds →
    FloatPower letter (if neg then -(n : ℤ) else n) (b :: (sign ++ ds))

/-- A number without a sign. -/
inductive Magnitude : ℚ → List UInt8 → Prop where
  | decimal {ds fs text power : List UInt8} {z : ℤ} : Digits ds → Digits fs → Pointed ds fs text → FloatPower "e" z power →
    Magnitude (value (ds ++ fs) * 10 ^ (z - fs.length)) (text ++ power)
  | hex {x : UInt8} {ds fs text power : List UInt8} {z : ℤ} : AnyCase "x" [x] → HexDigits ds → HexDigits fs → Pointed ds fs text →
    FloatPower "p" z power → Magnitude (hexValue (ds ++ fs) * 2 ^ (z - 4 * fs.length)) (ch '0' :: x :: (text ++ power))

/-- Characters that may stand between the parentheses of a NaN. -/
def NanBody (l : List UInt8) : Prop :=
  ∀ b ∈ l, 48 ≤ b.toNat ∧ b.toNat ≤ 57 ∨ 65 ≤ b.toNat ∧ b.toNat ≤ 90 ∨ 97 ≤ b.toNat ∧ b.toNat ≤ 122 ∨ b = ch '_'

/-- `%f` reads the text and gives the `float`: a number that is not too large, rounded; an infinity; or a NaN. -/
inductive FloatText : Fl → List UInt8 → Prop where
  | number {neg : Bool} {sign l : List UInt8} {v : ℚ} : FloatSign neg sign → Magnitude v l →
    (binary32.deliver neg (if neg then -v else v)).isfinite = true → FloatText (binary32.deliver neg (if neg then -v else v)) (sign ++ l)
  | inf {neg : Bool} {sign l : List UInt8} : FloatSign neg sign → AnyCase "inf" l ∨ AnyCase "infinity" l → FloatText (.inf neg) (sign ++ l)
  | nan {neg : Bool} {sign l more : List UInt8} : FloatSign neg sign → AnyCase "nan" l →
    (more = [] ∨ ∃ body, NanBody body ∧ more = ch '(' :: (body ++ [ch ')'])) → FloatText (.nan neg) (sign ++ (l ++ more))

/-- The greatest finite `float`. -/
def floatMax : ℚ := (2 ^ 24 - 1) * 2 ^ 104

/-- The text contains a number above the range of `float`. -/
def Overflowing (l : List UInt8) : Prop := ∃ v t, t <:+: l ∧ Magnitude v t ∧ floatMax < v

end Verif.Spec
