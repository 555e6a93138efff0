import Verif.Model.Env

/-!
# C input streams and `fscanf`

A stream is the bytes still to come.  Only forward movement by reading and `fseek(..., SEEK_CUR)` is needed.
A read that returns too little has hit the end of the file, and then `feof` holds, or a read error, and then it does not.
Simplifications: read errors are permanent, everything beyond the first byte that cannot be read is unreadable;
files do not change while they are read; characters are only ever pushed back right after they were read; "C" locale.
-/

namespace Verif

/-- A character constant. -/
def ch (c : Char) : UInt8 := c.toNat.toUInt8

/-- A string literal. -/
def cs (s : String) : List UInt8 := s.toList.map ch

/-- C `isspace` in the "C" locale. -/
def isspace (b : UInt8) : Bool := b == 32 || (9 ≤ b && b ≤ 13)

/-- C `isdigit`. -/
def isdigit (b : UInt8) : Bool := ch '0' ≤ b && b ≤ ch '9'

/-- C `tolower` in the "C" locale. -/
def tolower (b : UInt8) : UInt8 := if ch 'A' ≤ b && b ≤ ch 'Z' then b + 32 else b

/-- Whether a plain `char` may be passed to a `<ctype.h>` function: not if it is negative, unless it equals `EOF`
(C17 7.4). -/
def ctypeOk (c : Cfg) (b : UInt8) : Bool := !(c.charSigned && 128 ≤ b && b < 255)

/-- What is special about a stream: whether it can seek, and whether reading past its last byte is a read error instead of
the end of the file. -/
structure Kind where
  seekable : Bool
  broken : Bool
deriving DecidableEq, Repr

/-- A stream without read errors. -/
def Kind.sane (seekable : Bool) : Kind := ⟨seekable, false⟩

instance : Coe Bool Kind := ⟨Kind.sane⟩

/-- An input stream: the bytes to come, the position, and its kind. -/
structure Stream where
  rest : List UInt8
  pos : ℕ
  kind : Kind
deriving DecidableEq, Repr

namespace Stream

/-- Whether the stream can seek. -/
abbrev seekable (s : Stream) : Bool := s.kind.seekable

/-- C `feof` after a read that returned too little. -/
def feof (s : Stream) : Bool := !s.kind.broken

/-- Move forward within the stream. -/
def advance (s : Stream) (n : ℕ) : Stream := { s with rest := s.rest.drop n, pos := s.pos + n }

/-- C `fgetc`; `none` is `EOF`. -/
def fgetc (s : Stream) : Option UInt8 × Stream :=
  match s.rest with
  | [] => (none, s)
  | b :: _ => (some b, s.advance 1)

/-- C `ungetc` of the character just read. -/
def ungetc (s : Stream) (b : UInt8) : Stream := { s with rest := b :: s.rest, pos := s.pos - 1 }

/-- C `fread` of `n` bytes: the bytes obtained. -/
def fread (s : Stream) (n : ℕ) : List UInt8 × Stream := (s.rest.take n, s.advance (min n s.rest.length))

/-- C `fseek(f, n, SEEK_CUR)` for `n ≥ 0`: whether it succeeded.  An offset that does not fit a `long` is undefined; a
position that does not fit one makes the call fail. -/
def fseek (c : Cfg) (s : Stream) (n : ℕ) : Option (Bool × Stream) :=
  if c.longMax < n then none
  else if s.seekable ∧ s.pos + n ≤ c.longMax then some (true, s.advance n)
  else some (false, s)

/-- White space directive of `fscanf`; it never fails. -/
def skipSpace (s : Stream) : Stream := s.advance (s.rest.takeWhile isspace).length

end Stream

/-- Outcome of an `fscanf` directive: success, a matching failure, or an input failure (end of file). -/
inductive Conv (α : Type) where
  | ok (a : α)
  | mismatch
  | eof
deriving DecidableEq, Repr

namespace Stream

/-- An ordinary character in the format: a different character is left unread. -/
def scanChar (s : Stream) (b : UInt8) : Conv Unit × Stream :=
  match s.rest with
  | [] => (.eof, s)
  | x :: _ => if x = b then (.ok (), s.advance 1) else (.mismatch, s)

/-- `%c` -/
def scanAny (s : Stream) : Conv UInt8 × Stream :=
  match s.rest with
  | [] => (.eof, s)
  | x :: _ => (.ok x, s.advance 1)

/-- The number a run of digits stands for. -/
def decimal (ds : List UInt8) : ℕ := ds.foldl (fun n d => 10 * n + (d.toNat - 48)) 0

/-- `%zu`, `%hu` into an unsigned type with greatest value `max`: white space, optional sign, digits.  `wide` says that the
type is as wide as the one `strtoul` works in, so that a negative number wraps around; in a narrower type it does not fit.
A number that does not fit is undefined behaviour (C17 7.21.6.2p10). -/
def scanUnsigned (s : Stream) (max : ℕ) (wide : Bool) : Option (Conv ℕ × Stream) :=
  let s := s.skipSpace
  match s.rest with
  | [] => some (.eof, s)
  | b :: _ =>
    let neg := b == ch '-'
    let s := if neg || b == ch '+' then s.advance 1 else s
    let ds := s.rest.takeWhile isdigit
    let s := s.advance ds.length
    if ds = [] then some (.mismatch, s)
    else
      let v := decimal ds
      if max < v then none
      else if neg then
        if v = 0 then some (.ok 0, s) else if wide then some (.ok (max + 1 - v), s) else none
      else some (.ok v, s)

/-- `%Ns` and `%*s`: white space, then up to `max` other characters. -/
def scanWord (s : Stream) (max : Option ℕ) : Conv (List UInt8) × Stream :=
  let s := s.skipSpace
  match s.rest with
  | [] => (.eof, s)
  | _ :: _ =>
    let w := s.rest.takeWhile (fun b => !isspace b)
    let w := match max with
      | some n => w.take n
      | none => w
    (.ok w, s.advance w.length)

/-- States of the recogniser for the subject sequence of `strtod` (C17 7.22.1.3). -/
inductive FloatState where
  | start
  | sign
  /-- a first digit 0, after which an `x` may follow -/
  | zero
  | int
  /-- a point before any digit -/
  | point
  | frac
  | e
  | esign
  | exp
  | hex
  | hint
  | hpoint
  | hfrac
  /-- that many characters of "infinity" -/
  | inf (k : ℕ)
  /-- that many characters of "nan" -/
  | nan (k : ℕ)
  | nanOpen
  | nanDone
deriving DecidableEq, Repr

/-- The number read so far. -/
structure FloatAcc where
  neg : Bool
  mant : ℕ
  /-- digits after the point -/
  fracs : ℕ
  eneg : Bool
  exp : ℕ
  hex : Bool
deriving DecidableEq, Repr

/-- Value of a hexadecimal digit. -/
def hexDigit (b : UInt8) : Option ℕ :=
  let l := tolower b
  if isdigit b then some (b.toNat - 48) else if ch 'a' ≤ l && l ≤ ch 'f' then some (l.toNat - 87) else none

open FloatState in
/-- One step of the recogniser; `none` if no matching sequence continues with this character. -/
def floatStep (st : FloatState) (a : FloatAcc) (b : UInt8) : Option (FloatState × FloatAcc) :=
  let l := tolower b
  let digit : FloatAcc := { a with mant := 10 * a.mant + (b.toNat - 48) }
  let fdigit : FloatAcc := { digit with fracs := a.fracs + 1 }
  let hdigit (d : ℕ) : FloatAcc := { a with mant := 16 * a.mant + d }
  let first : Option (FloatState × FloatAcc) :=
    if b = ch '0' then some (zero, a)
    else if isdigit b then some (int, digit)
    else if b = ch '.' then some (point, a)
    else if l = ch 'i' then some (inf 1, a)
    else if l = ch 'n' then some (nan 1, a)
    else none
  match st with
  | start => if b = ch '-' then some (sign, { a with neg := true }) else if b = ch '+' then some (sign, a) else first
  | sign => first
  | zero =>
    if isdigit b then some (int, digit) else if b = ch '.' then some (frac, a) else if l = ch 'e' then some (e, a)
    else if l = ch 'x' then some (hex, { a with hex := true }) else none
  | int => if isdigit b then some (int, digit) else if b = ch '.' then some (frac, a) else if l = ch 'e' then some (e, a) else none
  | point => if isdigit b then some (frac, fdigit) else none
  | frac => if isdigit b then some (frac, fdigit) else if l = ch 'e' then some (e, a) else none
  | e =>
    if b = ch '-' then some (esign, { a with eneg := true }) else if b = ch '+' then some (esign, a)
    else if isdigit b then some (exp, { a with exp := b.toNat - 48 }) else none
  | esign => if isdigit b then some (exp, { a with exp := b.toNat - 48 }) else none
  | exp => if isdigit b then some (exp, { a with exp := 10 * a.exp + (b.toNat - 48) }) else none
  | hex => match hexDigit b with
    | some d => some (hint, hdigit d)
    | none => if b = ch '.' then some (hpoint, a) else none
  | hint => match hexDigit b with
    | some d => some (hint, hdigit d)
    | none => if b = ch '.' then some (hfrac, a) else if l = ch 'p' then some (e, a) else none
  | hpoint => match hexDigit b with
    | some d => some (hfrac, { hdigit d with fracs := a.fracs + 1 })
    | none => none
  | hfrac => match hexDigit b with
    | some d => some (hfrac, { hdigit d with fracs := a.fracs + 1 })
    | none => if l = ch 'p' then some (e, a) else none
  | inf k => if (cs "infinity")[k]? = some l then some (inf (k + 1), a) else none
  | nan k =>
    if k = 3 then (if b = ch '(' then some (nanOpen, a) else none)
    else if (cs "nan")[k]? = some l then some (nan (k + 1), a) else none
  | nanOpen =>
    if b = ch ')' then some (nanDone, a)
    else if isdigit b || b = ch '_' || (ch 'a' ≤ l && l ≤ ch 'z') then some (nanOpen, a) else none
  | nanDone => none

/-- Run the recogniser; returns the final state and the number of characters used. -/
def floatRun : List UInt8 → FloatState → FloatAcc → ℕ → FloatState × FloatAcc × ℕ
  | [], st, a, n => (st, a, n)
  | b :: l, st, a, n =>
    match floatStep st a b with
    | none => (st, a, n)
    | some (st, a) => floatRun l st a (n + 1)

/-- `m * 10^z` or `m * 2^z`. -/
def scale (m base : ℕ) (z : ℤ) : ℚ := if 0 ≤ z then ((m * base ^ z.toNat : ℕ) : ℚ) else mkRat m (base ^ (-z).toNat)

/-- The value of a complete number, in `float`; `none` if the sequence is incomplete. -/
def floatValue (st : FloatState) (a : FloatAcc) : Option Fl :=
  let e : ℤ := if a.eneg then -(a.exp : ℤ) else a.exp
  let num :=
    let v := if a.hex then scale a.mant 2 (e - 4 * a.fracs) else scale a.mant 10 (e - a.fracs)
    binary32.deliver a.neg (if a.neg then -v else v)
  match st with
  | .zero | .int | .frac | .exp | .hint | .hfrac => some num
  | .inf k => if k = 3 ∨ k = 8 then some (.inf a.neg) else none
  | .nan k => if k = 3 then some (.nan a.neg) else none
  | .nanDone => some (.nan a.neg)
  | _ => none

/-- Whether the sequence is a number, as opposed to an infinity or a NaN. -/
def FloatState.finite : FloatState → Bool
  | .zero | .int | .frac | .exp | .hint | .hfrac => true
  | _ => false

/-- `%f`.  A finite number beyond the range of `float` is undefined behaviour. -/
def scanFloat (s : Stream) : Option (Conv Fl × Stream) :=
  let s := s.skipSpace
  match s.rest with
  | [] => some (.eof, s)
  | _ :: _ =>
    let (st, a, n) := floatRun s.rest .start ⟨false, 0, 0, false, 0, false⟩ 0
    let s := s.advance n
    match floatValue st a with
    | none => some (.mismatch, s)
    | some v => if st.finite && !v.isfinite then none else some (.ok v, s)

end Stream

end Verif
