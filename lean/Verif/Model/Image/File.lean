import Verif.Base.Stream
import Verif.Model.Analysis

/-!
# Files

Simplification: standard input is opened by at most one image during a run, so its state can travel with the image.
-/

namespace Verif

/-- What is on disk and on standard input (pgm.c:47; pfm.c:95; y4m.c:37). -/
structure Fs where
  /-- `fopen(name, "rb")`: `errno` less one, or the bytes that can be read and the kind of stream -/
  fopen : List UInt8 → ℕ ⊕ (List UInt8 × Kind)
  stdin : List UInt8 × Kind

/-- A `FILE*`; `id` is `none` for standard input (pgm.c:47; pfm.c:95; y4m.c:37). -/
structure File where
  id : Option ℕ
  st : Stream
deriving DecidableEq, Repr

/-- `strcmp(filename,"-") ? fopen(filename,"rb") : stdin` (pgm.c:47, pfm.c:95, y4m.c:37): `-errno` or the stream. -/
def openFile (fs : Fs) (filename : List UInt8) : M (RDError ⊕ File) := fun w =>
  if filename = cs "-" then some (.inr ⟨none, ⟨fs.stdin.1, 0, fs.stdin.2⟩⟩, w)
  else
    match fs.fopen filename with
    | .inl e => some (.inl (-(e + 1 : ℤ)), w)
    | .inr (d, k) => some (.inr ⟨some w.next, ⟨d, 0, k⟩⟩, { w with files := w.next :: w.files, next := w.next + 1 })

/-- `if(f != stdin) fclose(f)`; closing a closed stream is undefined (pgm.c:22-23; pfm.c:72-73; y4m.c:22-23; libjpeg.c:29-30; libpng.c:30-31). -/
def closeFile (f : File) : M Unit := fun w =>
  match f.id with
  | none => some ((), w)
  | some i => if i ∈ w.files then some ((), { w with files := w.files.erase i }) else none

/-- Undefined unless the stream is open: inserted where the C code uses it (pgm.c:79; pfm.c:22; y4m.c:168). -/
def touchFile (f : File) : M Unit := fun w =>
  match f.id with
  | none => some ((), w)
  | some i => if i ∈ w.files then some ((), w) else none

/-- Bytes stored at the start of a buffer (pfm.c:22; y4m.c:168). -/
def store (buf bytes : List UInt8) : List UInt8 := bytes ++ buf.drop bytes.length

/-- `resdet_fskip` (image.c:16-24): error, stream and buffer afterwards.  The buffer must hold `offset` bytes. -/
def fskip (s : Sys) (st : Stream) (offset : ℕ) (buf : Option (List UInt8)) :
    Option (RDError × Stream × Option (List UInt8)) :=
  match buf with
  | some b =>
    if b.length < offset then none
    else
      let (bytes, st) := st.fread offset
      some (if bytes.length ≠ offset then RDEINVAL else RDEOK, st, some (store b bytes))
  | none => do
    let (ok, st) ← st.fseek s.cfg offset
    return (if ok then RDEOK else -(s.env.seekErrno + 1 : ℤ), st, none)

/-- `n <= LONG_MAX && !fseek(f,0,SEEK_CUR)` (pfm.c:179, y4m.c:116). -/
def canSeek (c : Cfg) (st : Stream) (n : ℕ) : Option (Bool × Stream) :=
  if n ≤ c.longMax then st.fseek c 0 else some (false, st)

/-- `skip_comments` (pgm.c:27-36, pfm.c:77-86); `fuel` bounds the number of comments. -/
def skipComments : (fuel : ℕ) → Stream → Bool × Stream
  | 0, s => (false, s)
  | fuel + 1, s =>
    match s.fgetc with
    | (none, s) => (false, s)
    | (some c, s) =>
      if c = ch '#' then
        let k := (s.rest.takeWhile (fun b => b != ch '\n')).length
        if k < s.rest.length then skipComments fuel (s.advance (k + 1)) else (false, s.advance k)
      else (true, s.ungetc c)

/-- `isspace(fgetc(f))`; end of file is not white space (pgm.c:57; pfm.c:107, 141). -/
def spaceNext (s : Stream) : Bool × Stream :=
  match s.fgetc with
  | (none, s) => (false, s)
  | (some c, s) => (isspace c, s)

/-- `width*height` as the C code computes it, in `size_t` (pgm.c:78; pfm.c:174; y4m.c:174). -/
def pixels (c : Cfg) (width height : ℕ) : ℕ := c.sz (width * height)

end Verif
