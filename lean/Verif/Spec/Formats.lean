import Verif.Spec.Image
import Mathlib.Data.Nat.Digits.Defs

/-!
# The file formats

Grammars of the formats the built-in readers are for, written from the descriptions of the formats: netpbm's PGM, the PFM
format, and the YUV4MPEG2 stream format of mjpegtools with the names for deeper samples FFmpeg uses.
-/

namespace Verif.Spec

/-- White space. -/
def Blank (l : List UInt8) : Prop := ∀ b ∈ l, b.toNat = 32 ∨ 9 ≤ b.toNat ∧ b.toNat ≤ 13

/-- No white space. -/
def Solid (l : List UInt8) : Prop := ∀ b ∈ l, ¬ (b.toNat = 32 ∨ 9 ≤ b.toNat ∧ b.toNat ≤ 13)

/-- A string of decimal digits. -/
def Digits (l : List UInt8) : Prop := ∀ b ∈ l, 48 ≤ b.toNat ∧ b.toNat ≤ 57

/-- The number a string of decimal digits stands for. -/
def value (l : List UInt8) : ℕ := Nat.ofDigits 10 (l.reverse.map (fun b => b.toNat - 48))

/-- `l` is a decimal numeral for `n`. -/
def Numeral (n : ℕ) (l : List UInt8) : Prop := l ≠ [] ∧ Digits l ∧ value l = n

/-- Lines starting with `#`. -/
def comments (lines : List (List UInt8)) : List UInt8 := (lines.map (fun t => ch '#' :: t ++ [ch '\n'])).flatten

/-- No line break inside. -/
def OneLine (t : List UInt8) : Prop := ch '\n' ∉ t

/-- The header of a binary PGM with one byte per sample, with comments right after the first line. -/
inductive PgmHead (W H maxval : ℕ) : List UInt8 → Prop where
  | mk {s0 s1 nW s2 nH s3 nM : List UInt8} {lines : List (List UInt8)} {sp : UInt8} :
    Blank s0 → s0 ≠ [] → (∀ t ∈ lines, OneLine t) → Blank s1 → Numeral W nW → Blank s2 → s2 ≠ [] → Numeral H nH → Blank s3 → s3 ≠ [] →
    Numeral maxval nM → 1 ≤ maxval → maxval ≤ 255 → Blank [sp] →
    PgmHead W H maxval (cs "P5" ++ (s0 ++ (comments lines ++ (s1 ++ (nW ++ (s2 ++ (nH ++ (s3 ++ (nM ++ [sp])))))))))

/-- A binary PGM with one byte per sample. -/
inductive PgmFile (W H maxval : ℕ) (raster : List UInt8) : List UInt8 → Prop where
  | mk {head tail : List UInt8} : PgmHead W H maxval head → raster.length = W * H → PgmFile W H maxval raster (head ++ (raster ++ tail))

/-- A sample of `v` out of `m`, as a `float`. -/
def normal (m v : ℕ) : Fl := .fin false (binary32.rnd ((v : ℚ) / m))

/-- The four bytes of a 32 bit pattern, most significant first. -/
def bigEndian (n : ℕ) : List UInt8 := [(n / 2 ^ 24).toUInt8, (n / 2 ^ 16).toUInt8, (n / 2 ^ 8).toUInt8, n.toUInt8]

/-- The bytes of a 32 bit pattern in a file. -/
def encode (little : Bool) (n : ℕ) : List UInt8 := if little then (bigEndian n).reverse else bigEndian n

/-- A pixel of a PFM: one or three bit patterns. -/
inductive Pixel where
  | gray (v : ℕ)
  | colour (r g b : ℕ)

namespace Pixel

/-- The bytes of a pixel. -/
def bytes (little : Bool) : Pixel → List UInt8
  | gray v => encode little v
  | colour r g b => encode little r ++ encode little g ++ encode little b

/-- The brightness of a pixel: the number itself, or the mean of the three in `float` arithmetic. -/
def sample : Pixel → Fl
  | gray v => floatOfBits v
  | colour r g b => binary32.div (binary32.add (binary32.add (floatOfBits r) (floatOfBits g)) (floatOfBits b)) (binary32.ofNat 3)

/-- The pixel is of this kind, and its numbers are 32 bit patterns. -/
def Ok (colour : Bool) : Pixel → Prop
  | gray v => colour = false ∧ v < 2 ^ 32
  | .colour r g b => colour = true ∧ r < 2 ^ 32 ∧ g < 2 ^ 32 ∧ b < 2 ^ 32

end Pixel

/-- An image in a PFM: kind, byte order and rows from top to bottom. -/
structure PfmImage where
  colour : Bool
  little : Bool
  rows : List (List Pixel)

/-- The image has this size. -/
def PfmImage.Ok (W H : ℕ) (i : PfmImage) : Prop :=
  i.rows.length = H ∧ ∀ r ∈ i.rows, r.length = W ∧ ∀ p ∈ r, p.Ok i.colour

/-- The samples from top to bottom. -/
def PfmImage.samples (i : PfmImage) : List Fl := (i.rows.map (fun r => r.map Pixel.sample)).flatten

/-- The pixel data in the file: the bottom row comes first. -/
def PfmImage.data (i : PfmImage) : List UInt8 := (i.rows.reverse.map (fun r => (r.map (Pixel.bytes i.little)).flatten)).flatten

/-- The scale factor: a decimal number whose sign says whether the data is little endian, and which is not so close to 0 or so
large that it cannot be told in a `float`. -/
inductive Scale (little : Bool) : List UInt8 → Prop where
  | int {sign i : List UInt8} : sign = (if little then [ch '-'] else []) → Digits i → i ≠ [] → 1 ≤ value i → value i < 2 ^ 127 →
    Scale little (sign ++ i)
  | frac {sign i f : List UInt8} : sign = (if little then [ch '-'] else []) → Digits i → i ≠ [] → Digits f →
    (2 : ℚ) ^ (-126 : ℤ) ≤ (value (i ++ f) : ℚ) / 10 ^ f.length → (value (i ++ f) : ℚ) / 10 ^ f.length < 2 ^ 127 →
    Scale little (sign ++ (i ++ (ch '.' :: f)))

/-- The header of an image of a PFM, with comments right after the first line. -/
inductive PfmHead (W H : ℕ) (colour little : Bool) : List UInt8 → Prop where
  | mk {s0 s1 nW s2 nH s3 nS : List UInt8} {lines : List (List UInt8)} {sp : UInt8} :
    Blank s0 → s0 ≠ [] → (∀ t ∈ lines, OneLine t) → Blank s1 → Numeral W nW → Blank s2 → s2 ≠ [] → Numeral H nH → Blank s3 →
    s3 ≠ [] → Scale little nS → Blank [sp] →
    PfmHead W H colour little (ch 'P' :: (if colour then ch 'F' else ch 'f') ::
      (s0 ++ (comments lines ++ (s1 ++ (nW ++ (s2 ++ (nH ++ (s3 ++ (nS ++ [sp])))))))))

/-- One image of a PFM. -/
inductive PfmPart (W H : ℕ) (i : PfmImage) : List UInt8 → Prop where
  | mk {head : List UInt8} : i.Ok W H → PfmHead W H i.colour i.little head → PfmPart W H i (head ++ i.data)

/-- Images one after another. -/
inductive PfmFile (W H : ℕ) : List PfmImage → List UInt8 → Prop where
  | nil : PfmFile W H [] []
  | cons {i : PfmImage} {is : List PfmImage} {a b : List UInt8} : PfmPart W H i a → PfmFile W H is b → PfmFile W H (i :: is) (a ++ b)

/-- How chroma is sampled. -/
inductive Sampling where
  | mono
  | s420
  | s411
  | s422
  | s444
  | s444alpha
deriving DecidableEq, Repr

/-- Chroma and alpha samples per frame: two planes, each with the size divided by the sampling factors and rounded up. -/
def Sampling.extra (W H : ℕ) : Sampling → ℕ
  | mono => 0
  | s420 => 2 * ((W + 1) / 2 * ((H + 1) / 2))
  | s411 => 2 * ((W + 3) / 4 * H)
  | s422 => 2 * ((W + 1) / 2 * H)
  | s444 => 2 * (W * H)
  | s444alpha => 3 * (W * H)

/-- The names of the layouts: sampling and depth. -/
def layouts : List (String × Sampling × ℕ) :=
  [("mono", .mono, 8), ("mono9", .mono, 9), ("mono10", .mono, 10), ("mono12", .mono, 12), ("mono14", .mono, 14), ("mono16", .mono, 16),
    ("420", .s420, 8), ("420jpeg", .s420, 8), ("420mpeg2", .s420, 8), ("420paldv", .s420, 8), ("420p9", .s420, 9), ("420p10", .s420, 10),
    ("420p12", .s420, 12), ("420p14", .s420, 14), ("420p16", .s420, 16), ("411", .s411, 8), ("422", .s422, 8), ("422p9", .s422, 9),
    ("422p10", .s422, 10), ("422p12", .s422, 12), ("422p14", .s422, 14), ("422p16", .s422, 16), ("444", .s444, 8), ("444p9", .s444, 9),
    ("444p10", .s444, 10), ("444p12", .s444, 12), ("444p14", .s444, 14), ("444p16", .s444, 16), ("444alpha", .s444alpha, 8)]

/-- A parameter in the first line of a YUV4MPEG2 stream. -/
inductive Param where
  | width (n : ℕ) (text : List UInt8)
  | height (n : ℕ) (text : List UInt8)
  | layout (name : String)
  | other (tag : UInt8) (text : List UInt8)

namespace Param

/-- What it looks like. -/
def bytes : Param → List UInt8
  | width _ t => ch 'W' :: t
  | height _ t => ch 'H' :: t
  | layout name => ch 'C' :: cs name
  | other tag t => tag :: t

/-- It is well-formed. -/
def Ok : Param → Prop
  | width n t => Numeral n t
  | height n t => Numeral n t
  | layout name => ∃ x, (name, x) ∈ layouts
  | other tag t => tag ≠ ch 'W' ∧ tag ≠ ch 'H' ∧ tag ≠ ch 'C' ∧ Solid (tag :: t) ∧ t ≠ []

/-- The width it gives. -/
def width? : Param → Option ℕ
  | width n _ => some n
  | _ => none

/-- The height it gives. -/
def height? : Param → Option ℕ
  | height n _ => some n
  | _ => none

/-- The layout it names. -/
def layout? : Param → Option String
  | layout name => some name
  | _ => none

end Param

/-- The first line: width, height and layout, each once, with anything else, in any order.  Without a layout it is 420jpeg. -/
inductive Y4mHead (W H : ℕ) (name : String) : List UInt8 → Prop where
  | mk {ps : List Param} : (∀ p ∈ ps, p.Ok) → ps.filterMap Param.width? = [W] → ps.filterMap Param.height? = [H] →
    ps.filterMap Param.layout? = [name] ∨ ps.filterMap Param.layout? = [] ∧ name = "420jpeg" →
    Y4mHead W H name (cs "YUV4MPEG2" ++ ((ps.map (fun p => ch ' ' :: p.bytes)).flatten ++ [ch '\n']))

/-- A sample: one byte, or two with the low one first. -/
def sampleBytes (depth v : ℕ) : List UInt8 := if depth = 8 then [v.toUInt8] else [v.toUInt8, (v / 256).toUInt8]

/-- One frame: its line, its luma samples, and whatever chroma and alpha. -/
inductive Y4mPart (W H : ℕ) (sampling : Sampling) (depth : ℕ) (luma : List ℕ) : List UInt8 → Prop where
  | mk {params extra : List UInt8} : OneLine params → luma.length = W * H → (∀ v ∈ luma, v < 2 ^ depth) →
    extra.length = sampling.extra W H * (if depth = 8 then 1 else 2) →
    Y4mPart W H sampling depth luma (cs "FRAME" ++ (params ++ (ch '\n' :: ((luma.map (sampleBytes depth)).flatten ++ extra))))

/-- Frames one after another. -/
inductive Y4mParts (W H : ℕ) (sampling : Sampling) (depth : ℕ) : List (List ℕ) → List UInt8 → Prop where
  | nil : Y4mParts W H sampling depth [] []
  | cons {l : List ℕ} {ls : List (List ℕ)} {a b : List UInt8} : Y4mPart W H sampling depth l a → Y4mParts W H sampling depth ls b →
    Y4mParts W H sampling depth (l :: ls) (a ++ b)

/-- A YUV4MPEG2 stream. -/
inductive Y4mFile (W H : ℕ) (sampling : Sampling) (depth : ℕ) (frames : List (List ℕ)) : List UInt8 → Prop where
  | mk {name : String} {a b : List UInt8} : (name, sampling, depth) ∈ layouts → Y4mHead W H name a → Y4mParts W H sampling depth frames b →
    Y4mFile W H sampling depth frames (a ++ b)

/-- Ways to open a file with the reader for `fmt`: by a type or file name with that extension, or by the name of the reader. -/
inductive Uses (s : Sys) (io : Io) (name fmt : List UInt8) : M Opened → Prop where
  | byType {ft : Option (List UInt8)} {ext : List UInt8} : Extension name ft ext → Plainly s.cfg ext → SameText ext fmt →
    Uses s io name fmt (resdetOpenImage s io (some name) ft true true true)
  | byName {rname : List UInt8} : Plainly s.cfg rname → SameText rname fmt →
    Uses s io name fmt (resdetOpenImageWithReader s io (some name) (some rname) true true true)

/-- Ways to open a file with a built-in reader; `n` is the least number of bytes that make a sample. -/
inductive Native (s : Sys) (io : Io) (name : List UInt8) (m : M Opened) : (n : ℕ) → Prop where
  | pgm : io.omitPgm = false → Uses s io name (cs "pgm") m → Native s io name m 1
  | pfm : io.omitPfm = false → Uses s io name (cs "pfm") m → Native s io name m 4
  | y4m : io.omitY4m = false → Uses s io name (cs "y4m") m → Native s io name m 1

/-- The image is opened with a built-in reader: it is asked for one, or there are no others. -/
def Inbuilt (s : Sys) (io : Io) (m : M Opened) : Prop := io.Plain ∨ ∃ name n, Native s io name m n

/-- Ways to open a file with a built-in reader of a format that can hold several images. -/
inductive Series (s : Sys) (io : Io) (name : List UInt8) (m : M Opened) : Prop where
  | pfm : io.omitPfm = false → Uses s io name (cs "pfm") m → Series s io name m
  | y4m : io.omitY4m = false → Uses s io name (cs "y4m") m → Series s io name m

/-- A call that was a successful read. -/
def IObs.got : IObs → Bool
  | .read ret _ _ => ret
  | .seek _ _ _ => false

/-- The same outcome of a call, up to the contents of the buffer after a read that failed. -/
def IObs.SameAs : IObs → IObs → Prop
  | .read r e d, .read r' e' d' => r = r' ∧ e = e' ∧ (r = true → d = d')
  | .seek r e c, .seek r' e' c' => r = r' ∧ e = e' ∧ c = c'
  | _, _ => False

/-- Two ways to open an image show the same: the same size, and for every sequence of calls the same outcomes. -/
def Alike (m m' : M Opened) (ok : List IOp → Prop) : Prop :=
  ∀ w w' : World, w.WF → w'.WF → Plenty w → Plenty w' → ∃ o w1 o' w1', m w = some (o, w1) ∧ m' w' = some (o', w1') ∧
    o.width = o'.width ∧ o.height = o'.height ∧ o.error = RDEOK ∧ o'.error = RDEOK ∧
    ∀ ops, ok ops → ∃ obs r w2 obs' r' w2', session ops o.image o.buf w1 = some ((obs, r), w2) ∧
      session ops o'.image o'.buf w1' = some ((obs', r'), w2') ∧ List.Forall₂ IObs.SameAs obs obs'

/-- A stream of at most one frame: `fresh` says that it is still to come, and no frame means that the data of the file do not
suffice for it. -/
inductive OneShot (frame : Option (List Fl)) : (fresh : Bool) → List IOp → List IObs → Prop where
  | nil (b : Bool) : OneShot frame b [] []
  | good {f : List Fl} {ops : List IOp} {obs : List IObs} : frame = some f → OneShot frame false ops obs →
    OneShot frame true (.read :: ops) (.read true RDEOK f :: obs)
  | bad {d : List Fl} {ops : List IOp} {obs : List IObs} : frame = none → OneShot frame false ops obs →
    OneShot frame true (.read :: ops) (.read false RDEINVAL d :: obs)
  | done {d : List Fl} {ops : List IOp} {obs : List IObs} : OneShot frame false ops obs →
    OneShot frame false (.read :: ops) (.read false RDEOK d :: obs)
  | stay {b : Bool} {ops : List IOp} {obs : List IObs} : OneShot frame b ops obs →
    OneShot frame b (.seek 0 :: ops) (.seek true RDEOK [] :: obs)
  | skip {k : ℕ} {ops : List IOp} {obs : List IObs} : OneShot frame false ops obs →
    OneShot frame true (.seek (k + 1) :: ops) (.seek (k = 0) RDEOK [1] :: obs)
  | beyond {k : ℕ} {ops : List IOp} {obs : List IObs} : OneShot frame false ops obs →
    OneShot frame false (.seek (k + 1) :: ops) (.seek false RDEOK [] :: obs)

/-- The text contains digits that stand for a number above `n`. -/
def Huge (n : ℕ) (l : List UInt8) : Prop := ∃ ds, ds <:+: l ∧ Digits ds ∧ n < value ds

/-- The text contains a negative number. -/
def Negative (l : List UInt8) : Prop := ∃ ds, ch '-' :: ds <:+: l ∧ Digits ds ∧ 0 < value ds

end Verif.Spec
