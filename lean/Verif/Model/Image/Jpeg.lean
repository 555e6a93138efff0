import Verif.Model.Image.Pgm

/-!
# The JPEG reader (lib/image/libjpeg.c)

libjpeg itself is not modelled: what its functions do is given by an arbitrary `Jpeg`.  Modelled are the objects it is handed:
the error manager and the `jmp_buf`, both compound literals with automatic storage duration (libjpeg.c:50, 56, 89), the rows,
and the buffer they point into.

Simplifications: `jpeg_stdio_src` is part of `jpeg_read_header`; libjpeg's position in the file is part of its own state; the
memory libjpeg allocates is one block, freed by `jpeg_destroy_decompress`; `JDIMENSION` products do not wrap around (JPEG
dimensions are below 65536).
-/

namespace Verif

/-- The lifetime of an object with automatic storage duration begins. -/
def enter : M ℕ := fun w => some (w.next, { w with live := w.next :: w.live, next := w.next + 1 })

/-- It ends (libjpeg.c:56, 89). -/
def leave (b : ℕ) : M Unit := free (some b)

/-- What a call into libjpeg comes to: it returns, having used `cinfo->err` for a warning or trace message (`talks`) or not; or
it gives up through `cinfo->err->error_exit` (libjpeg.c:14, 50-56). -/
inductive JRet (α : Type) where
  | ret (talks : Bool) (a : α)
  | exit
deriving DecidableEq, Repr

/-- libjpeg and the compiler.  The state of the decompressor is a number (libjpeg.c:61-65, 94-100). -/
structure Jpeg where
  /-- the lifetime of a compound literal in the condition of an `if` ends with the `if` statement, as C11 6.8.4p3 has it;
  otherwise it lasts until the function returns -/
  literalEnds : Bool
  /-- `jpeg_create_decompress` -/
  create : JRet Unit
  /-- `jpeg_stdio_src` and `jpeg_read_header` on a file with these bytes: state -/
  header : List UInt8 → JRet ℕ
  /-- `jpeg_start_decompress`: state, `output_width`, `output_height`, `rec_outbuf_height` -/
  start : ℕ → JRet (ℕ × ℕ × ℕ × ℕ)
  /-- `jpeg_read_scanlines` for at most so many rows: the rows and the state -/
  scanlines : ℕ → ℕ → JRet (List (List UInt8) × ℕ)

/-- `struct libjpeg_context` (libjpeg.c:17-21).  `err` is the object `cinfo.err` points to, `mem` libjpeg's memory, `recRows` is `cinfo.rec_outbuf_height`, `line` is
`cinfo.output_scanline`. -/
structure JpegCtx where
  block : ℕ
  f : File
  eof : Bool
  err : ℕ
  mem : Option ℕ
  state : ℕ
  width : ℕ
  height : ℕ
  recRows : ℕ
  line : ℕ
deriving DecidableEq, Repr

/-- A call into libjpeg.  Messages are stored in the error manager; `jerr_error_exit` (libjpeg.c:14) jumps to the `jmp_buf`:
`none` means that `setjmp` returned again. -/
def jcall {α : Type} (err jb : ℕ) (r : JRet α) : M (Option α) :=
  match r with
  | .ret talks a => do
    if talks then touch err
    return some a
  | .exit => do
    touch err
    touch jb
    return none

/-- `libjpeg_reader_close` (libjpeg.c:23-32). -/
def jpegClose (ctx : Option JpegCtx) : M Unit :=
  match ctx with
  | none => pure ()
  | some ctx => do
    touch ctx.block
    free ctx.mem
    closeFile ctx.f
    free (some ctx.block)

/-- `setjmp(ctx->cinfo.client_data = (jmp_buf){0})` (libjpeg.c:56, 89), first return. -/
def jpegSetjmp (lib : Jpeg) : M ℕ := do
  let jb ← enter
  if lib.literalEnds then leave jb
  return jb

/-- The `jmp_buf` when the function returns (libjpeg.c:56, 89). -/
def jpegReturn (lib : Jpeg) (jb : ℕ) : M Unit := if lib.literalEnds then pure () else leave jb

/-- The calls in `libjpeg_reader_open` (libjpeg.c:61-65): libjpeg's memory, and state and sizes unless libjpeg gave up. -/
def jpegStart (lib : Jpeg) (err jb : ℕ) (bytes : List UInt8) : M (Option ℕ × Option (ℕ × ℕ × ℕ × ℕ)) := do
  match ← jcall err jb lib.create with
  | none => return (none, none)
  | some () =>
    let mem ← enter
    match ← jcall err jb (lib.header bytes) with
    | none => return (some mem, none)
    | some st =>
      match ← jcall err jb (lib.start st) with
      | none => return (some mem, none)
      | some r => return (some mem, some r)

/-- `libjpeg_reader_open` (libjpeg.c:34-75): context, width, height, error. -/
def jpegOpen (fs : Fs) (lib : Jpeg) (filename : List UInt8) : M (Option JpegCtx × ℕ × ℕ × RDError) := do
  match ← malloc with
  | none => return (none, 0, 0, RDENOMEM)
  | some b =>
    match ← openFile fs filename with
    | .inl e =>
      free (some b)
      return (none, 0, 0, e)
    | .inr f =>
      let err ← enter
      let jb ← jpegSetjmp lib
      let (mem, r) ← jpegStart lib err jb f.st.rest
      match r with
      | none =>
        jpegClose (some ⟨b, f, false, err, mem, 0, 0, 0, 0, 0⟩)
        jpegReturn lib jb
        leave err
        return (none, 0, 0, RDEINVAL)
      | some (st, width, height, rows) =>
        jpegReturn lib jb
        leave err
        return (some ⟨b, f, false, err, mem, st, width, height, rows, 0⟩, width, height, RDEOK)

/-- Bytes stored in a buffer that was not initialised (libjpeg.c:83). -/
def poke (buf : List (Option UInt8)) (at' : ℕ) (bytes : List UInt8) : Option (List (Option UInt8)) :=
  if at' + bytes.length ≤ buf.length then some (buf.take at' ++ bytes.map some ++ buf.drop (at' + bytes.length)) else none

/-- What `jpeg_read_scanlines` stores: a row at each of the pointers (libjpeg.c:96-99). -/
def pokeRows (width : ℕ) : List (Option UInt8) → ℕ → List (List UInt8) → Option (List (Option UInt8))
  | buf, _, [] => some buf
  | buf, it, row :: rows => do pokeRows width (← poke buf it row) (it + width) rows

/-- The loop over the scan lines (libjpeg.c:94-100): buffer, state and line afterwards; `none` inside if libjpeg gave up.  The
array `rows` must not be empty, and its pointers must stay inside the buffer or one past its end. -/
def jpegScan (lib : Jpeg) (jb : ℕ) (ctx : JpegCtx) : (fuel : ℕ) → (buf : List (Option UInt8)) → (it line st : ℕ) →
    M (Option (List (Option UInt8) × ℕ × ℕ))
  | 0, _, _, _, _ => M.ub
  | fuel + 1, buf, it, line, st =>
    if line < ctx.height then
      if ctx.recRows = 0 ∨ buf.length < it + (ctx.recRows - 1) * ctx.width then M.ub
      else do
        match ← jcall ctx.err jb (lib.scanlines st ctx.recRows) with
        | none => return none
        | some (rows, st) =>
          if ctx.recRows < rows.length then M.ub
          else
            let buf ← M.lift (pokeRows ctx.width buf it rows)
            jpegScan lib jb ctx fuel buf (it + rows.length * ctx.width) (line + rows.length) st
    else return some (buf, line, st)

/-- `imagec[i]/255.f` (libjpeg.c:102, libpng.c:138). -/
def byteSample (b : UInt8) : Fl := binary32.div (binary32.ofNat b.toNat) (binary32.ofNat 255)

/-- The conversion loop (libjpeg.c:101-102).  Using a byte that was never stored is counted as undefined. -/
def jpegConvert (buf : List (Option UInt8)) : (todo i : ℕ) → List Fl → Option (List Fl)
  | 0, _, image => some image
  | todo + 1, i, image => do
    let b ← (← rd buf i)
    jpegConvert buf todo (i + 1) (← wr image i (byteSample b))

/-- `libjpeg_reader_read_frame` (libjpeg.c:77-108).  A loop over the lines that makes no progress counts as endless. -/
def jpegRead (s : Sys) (lib : Jpeg) (ctx : JpegCtx) (image : List Fl) (width height : ℕ) : M (Bool × RDError × List Fl × JpegCtx) := do
  touch ctx.block
  if ctx.eof then return (false, RDEOK, image, ctx)
  else
    match ← malloc with
    | none => return (false, RDENOMEM, image, { ctx with eof := true })
    | some b =>
      let jb ← jpegSetjmp lib
      match ← jpegScan lib jb ctx (ctx.height + 1) (List.replicate (pixels s.cfg width height) none) 0 ctx.line ctx.state with
      | none =>
        free (some b)
        jpegReturn lib jb
        return (false, RDEINVAL, image, { ctx with eof := true })
      | some (buf, line, st) =>
        let image ← M.lift (jpegConvert buf (pixels s.cfg width height) 0 image)
        free (some b)
        jpegReturn lib jb
        return (true, RDEOK, image, { ctx with eof := true, line := line, state := st })

/-- `libjpeg_reader_seek_frame` (libjpeg.c:110-119). -/
def jpegSeek (ctx : JpegCtx) (offset : ℕ) (progress : Bool) : M (Bool × RDError × List ℕ × JpegCtx) := do
  touch ctx.block
  let (ret, calls, eof) := singleSeek ctx.eof offset progress
  return (ret, RDEOK, calls, { ctx with eof := eof })

end Verif
