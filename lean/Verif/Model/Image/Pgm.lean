import Verif.Model.Image.File

/-! # The PGM reader (lib/image/pgm.c) -/

namespace Verif

/-- `struct pgm_context` (pgm.c:11-15). -/
structure PgmCtx where
  block : ℕ
  f : File
  eof : Bool
  depth : ℕ
deriving DecidableEq, Repr

/-- `pgm_reader_close` (pgm.c:17-25). -/
def pgmClose (ctx : Option PgmCtx) : M Unit :=
  match ctx with
  | none => pure ()
  | some ctx => do
    touch ctx.block
    closeFile ctx.f
    free (some ctx.block)

/-- `fscanf(f,"P5 ") < 0` (pgm.c:54): only the end of the file makes it true. -/
def pgmMagic (s : Stream) : Bool × Stream :=
  match s.scanChar (ch 'P') with
  | (.eof, s) => (true, s)
  | (.mismatch, s) => (false, s)
  | (.ok _, s) =>
    match s.scanChar (ch '5') with
    | (.eof, s) => (true, s)
    | (.mismatch, s) => (false, s)
    | (.ok _, s) => (false, s.skipSpace)

/-- `fscanf(f,"%zu %zu %" SCNu16, ...) != 3` (pgm.c:56): the three numbers. -/
def pgmNumbers (c : Cfg) (s : Stream) : Option (Option (ℕ × ℕ × ℕ) × Stream) := do
  match ← s.scanUnsigned c.sizeMax true with
  | (.ok width, s) =>
    match ← s.skipSpace.scanUnsigned c.sizeMax true with
    | (.ok height, s) =>
      match ← s.skipSpace.scanUnsigned 65535 false with
      | (.ok depth, s) => return (some (width, height, depth), s)
      | (_, s) => return (none, s)
    | (_, s) => return (none, s)
  | (_, s) => return (none, s)

/-- The header (pgm.c:53-62): `none` inside means RDEINVAL. -/
def pgmHeader (c : Cfg) (s : Stream) : Option (Option (ℕ × ℕ × ℕ) × Stream) :=
  let (bad, s) := pgmMagic s
  if bad then some (none, s)
  else
    let (ok, s) := skipComments (s.rest.length + 1) s
    if !ok then some (none, s)
    else do
      let (r, s) ← pgmNumbers c s
      match r with
      | none => return (none, s)
      | some (width, height, depth) =>
        let (sp, s) := spaceNext s
        if !sp || depth > 255 then return (none, s) else return (some (width, height, depth), s)

/-- `pgm_reader_open` (pgm.c:38-69): context, width, height, error. -/
def pgmOpen (s : Sys) (fs : Fs) (filename : List UInt8) : M (Option PgmCtx × ℕ × ℕ × RDError) := do
  match ← malloc with
  | none => return (none, 0, 0, RDENOMEM)
  | some b =>
    match ← openFile fs filename with
    | .inl e =>
      free (some b)
      return (none, 0, 0, e)
    | .inr f =>
      let (r, st) ← M.lift (pgmHeader s.cfg f.st)
      match r with
      | none =>
        pgmClose (some ⟨b, { f with st := st }, false, 0⟩)
        return (none, 0, 0, RDEINVAL)
      | some (width, height, depth) => return (some ⟨b, { f with st := st }, false, depth⟩, width, height, RDEOK)

/-- The sample loop (pgm.c:77-84): whether the data sufficed, stream and image afterwards. -/
def pgmLoop (depth : ℕ) : (todo i : ℕ) → Stream → List Fl → Option (Bool × Stream × List Fl)
  | 0, _, s, image => some (true, s, image)
  | todo + 1, i, s, image =>
    match s.fgetc with
    | (none, s) => some (false, s, image)
    | (some c, s) => do
      let image ← wr image i (binary32.div (binary32.ofNat c.toNat) (binary32.ofNat depth))
      pgmLoop depth todo (i + 1) s image

/-- `pgm_reader_read_frame` (pgm.c:71-88): result, error, image and context afterwards. -/
def pgmRead (s : Sys) (ctx : PgmCtx) (image : List Fl) (width height : ℕ) : M (Bool × RDError × List Fl × PgmCtx) := do
  touch ctx.block
  if ctx.eof then return (false, RDEOK, image, ctx)
  else
    touchFile ctx.f
    let (ok, st, image) ← M.lift (pgmLoop ctx.depth (pixels s.cfg width height) 0 ctx.f.st image)
    return (ok, if ok then RDEOK else RDEINVAL, image, { ctx with eof := true, f := { ctx.f with st := st } })

/-- The seek function of the single-image readers (pgm.c:90-99, libjpeg.c:110-119, libpng.c:148-157): result, values passed
to the progress callback, end-of-file flag afterwards. -/
def singleSeek (eof : Bool) (offset : ℕ) (progress : Bool) : Bool × List ℕ × Bool :=
  let ret := offset == 0 || !(eof || 1 < offset)
  if offset ≠ 0 ∧ eof = false then (ret, if progress then [1] else [], true) else (ret, [], eof)

/-- `pgm_reader_seek_frame` (pgm.c:90-99). -/
def pgmSeek (ctx : PgmCtx) (offset : ℕ) (progress : Bool) : M (Bool × RDError × List ℕ × PgmCtx) := do
  touch ctx.block
  let (ret, calls, eof) := singleSeek ctx.eof offset progress
  return (ret, RDEOK, calls, { ctx with eof := eof })

end Verif
