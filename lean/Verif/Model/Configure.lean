import Verif.Base.Mem

/-!
# The configuration of a build (configure, Makefile, lib/precision.h, lib/resdet_internal.h)

How the options of `configure` for limits and precisions become the constants and types the library is compiled with.
-/

namespace Verif

/-- What an option is set to, as the preprocessor sees it (Makefile:19-30): an identifier or an integer constant; expressions, and
constants that do not fit `uintmax_t`, are left out. -/
inductive Token where
  | name (s : String)
  | number (n : UInt64)
deriving DecidableEq, Repr

/-- A floating point type: `F`, `D` or `L` (precision.h:9-11). -/
inductive Prec where
  | f
  | d
  | l
deriving DecidableEq, Repr

/-- The host: its types, and which of the libraries of FFTW `pkg-config` finds (configure:127-129). -/
structure Platform where
  sizeMax : ℕ
  intMax : ℕ
  longMax : ℕ
  /-- `UINT_FAST32_MAX` -/
  fast32Max : ℕ
  /-- `long double` -/
  long : Fmt
  szLong : ℕ
  szPtr : ℕ
  /-- `sizeof(RDResolution)` -/
  szRes : ℕ
  littleEndian : Bool
  charSigned : Bool
  /-- the macros of the system headers that are integer constants, such as `SIZE_MAX`; negative ones are left out -/
  macros : String → Option ℕ
  fftw : Prec → Bool

/-- The options of `configure` (configure:81, 86, 90-93, 205-208); `none` is one that is not given. -/
structure Options where
  coeff : Option Token
  inter : Option Token
  pixelMax : Option Token
  defaultRange : Option Token
  withFftw : Bool

/-- The value of a token in an `#if`: identifiers that are not macros are 0 (C17 6.10.1). -/
def Token.value (macros : String → Option ℕ) : Token → ℕ
  | name s => (macros s).getD 0
  | number n => n.toNat

/-- The macros while precision.h is read (precision.h:9-11). -/
def precMacros (p : Platform) (s : String) : Option ℕ :=
  if s = "F" then some 1 else if s = "D" then some 2 else if s = "L" then some 3 else p.macros s

/-- `#if ... == F`, `#elif ... == D`, `#elif ... == L`, `#else #error` (precision.h:21-32, 40-54). -/
def precOf : ℕ → Option Prec
  | 1 => some .f
  | 2 => some .d
  | 3 => some .l
  | _ => none

/-- `COEFF_PRECISION` and the type `coeff` (precision.h:13-15, 21-32). -/
def coeffPrec (p : Platform) (o : Options) : Option Prec := precOf ((o.coeff.getD (.name "F")).value (precMacros p))

/-- `INTER_PRECISION`, raised to that of the coefficients if it is less, and the type `intermediate` (precision.h:17-19, 34-54). -/
def interPrec (p : Platform) (o : Options) : Option Prec :=
  let c := (o.coeff.getD (.name "F")).value (precMacros p)
  let i := (o.inter.getD (.name "D")).value (precMacros p)
  precOf (if i < c then c else i)

/-- The library of FFTW `configure` looks for, and `float` or `double` for the bundled transform (configure:214-218): decided by
the text of the option. -/
def textPrec (o : Options) : Prec :=
  match o.coeff with
  | some (.name "D") => .d
  | some (.name "L") => .l
  | _ => .f

/-- The format of a type (precision.h:23, 26, 29). -/
def Platform.fmt (p : Platform) : Prec → Fmt
  | .f => binary32
  | .d => binary64
  | .l => p.long

/-- Its size. -/
def Platform.bytes (p : Platform) : Prec → ℕ
  | .f => 4
  | .d => 8
  | .l => p.szLong

/-- Whether the transform is that of FFTW (configure:220-224; Makefile:11-17). -/
def usesFftw (p : Platform) (o : Options) : Bool := o.withFftw && p.fftw (textPrec o)

/-- `PIXEL_MAX` (resdet_internal.h:32-34) -/
def pixelLimit (p : Platform) (o : Options) : ℕ := (o.pixelMax.getD (.name "SIZE_MAX")).value p.macros

/-- `DEFAULT_RANGE` (resdet_internal.h:52-54) -/
def rangeDefault (p : Platform) (o : Options) : ℕ := (o.defaultRange.getD (.number 12)).value p.macros

/-- The constants and types of a build with coefficients of type `c` and intermediate results of type `i`. -/
def buildCfg (p : Platform) (o : Options) (c i : Prec) : Cfg :=
  -- `#elif PIXEL_MAX <= UINT32_MAX` (resdet_internal.h:38-44)
  let small := decide (pixelLimit p o ≤ 2 ^ 32 - 1)
  -- `-Dkiss_fft_scalar=double` (configure:216-217; kiss_fft.h:81-84)
  let szKiss := if textPrec o = .f then 4 else 8
  { sizeMax := p.sizeMax
    intMax := p.intMax
    longMax := p.longMax
    -- `(size_t)PIXEL_MAX` (resdet_internal.h:48)
    pixelMax := pixelLimit p o % (p.sizeMax + 1)
    idxMax := if small then p.fast32Max else p.sizeMax
    storMax := if small then 2 ^ 32 - 1 else p.sizeMax
    -- `.range = DEFAULT_RANGE` (resdet_internal.h:79-80; util.c:51-53)
    defaultRange := rangeDefault p o % (p.sizeMax + 1)
    coeff := p.fmt c
    inter := p.fmt i
    szCoeff := p.bytes c
    szInter := p.bytes i
    szRes := p.szRes
    szKiss := szKiss
    -- `struct kiss_fft_state` (_kiss_fft_guts.h:27-32): two `int`, 64 `int`, one complex number
    szFft := 4 * 66 + 2 * szKiss
    -- `struct kiss_fftr_state` (kiss_fftr.c:12-19): three pointers
    szFftr := 3 * p.szPtr
    kiss := if textPrec o = .f then binary32 else binary64
    backend := if usesFftw p o then .fftw else .kiss
    littleEndian := p.littleEndian
    charSigned := p.charSigned }

/-- The library that is built; `none` if the directive `#error` of an invalid precision (precision.h:31, 53), of `PIXEL_MAX`
(resdet_internal.h:36-37) or of `DEFAULT_RANGE` (resdet_internal.h:56-58) stops the build, or the linker does: the functions of FFTW
for `coeff` (fftw.c:10, 14, 29; precision.h:64-67) are missing from its libraries for other types. -/
def configured (p : Platform) (o : Options) : Option Cfg :=
  match coeffPrec p o, interPrec p o with
  | some c, some i =>
    if pixelLimit p o = 0 then none
    else if rangeDefault p o = 0 then none
    else if usesFftw p o = true ∧ c ≠ textPrec o then none
    else some (buildCfg p o c i)
  | _, _ => none

end Verif
