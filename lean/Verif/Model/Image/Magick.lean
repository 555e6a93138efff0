import Verif.Model.Image.Png

/-!
# The MagickWand reader (lib/image/magickwand.c)

ImageMagick is an arbitrary `Magick`.  `NewMagickWand` does not return NULL (it ends the process when memory runs out), and the
text of an exception is freed right after it is made, so it is left out.
-/

namespace Verif

/-- The exceptions the reader tells apart (magickwand.c:43-62). -/
inductive MagickEx where
  | blobError
  | fileOpenError
  | resourceLimitError
  | resourceLimitFatalError
  | missingDelegateError
  | other
deriving DecidableEq, Repr

/-- ImageMagick.  The state of a wand is a number (magickwand.c:39-70, 82-92). -/
structure Magick where
  /-- `MagickReadImage` on a new wand: the exception and `errno` after a failure, or the state after `MagickResetIterator` and
  the size of the current image before it -/
  read : List UInt8 → (MagickEx × ℕ) ⊕ (ℕ × ℕ × ℕ)
  /-- `MagickNextImage` -/
  next : ℕ → Option ℕ
  /-- `MagickExportImagePixels(wand,0,0,width,height,"I",FloatPixel,image)`: `none` if it fails -/
  export' : ℕ → (width height : ℕ) → Option (ℕ → Fl)

/-- `struct magickwand_context` (magickwand.c:20-22). -/
structure MagickCtx where
  block : ℕ
  wand : ℕ
  state : ℕ
deriving DecidableEq, Repr

/-- `magickwand_reader_close` (magickwand.c:24-30). -/
def magickClose (ctx : Option MagickCtx) : M Unit :=
  match ctx with
  | none => pure ()
  | some ctx => do
    touch ctx.block
    free (some ctx.wand)
    free (some ctx.block)

/-- The error for an exception (magickwand.c:43-62). -/
def magickError (fs : Fs) (filename : List UInt8) (ex : MagickEx) (errno : ℕ) : M RDError :=
  match ex with
  | .blobError | .fileOpenError => pure (-(errno : ℤ))
  | .resourceLimitError | .resourceLimitFatalError => pure RDENOMEM
  | .missingDelegateError =>
    if filename = cs "-" then pure RDEUNSUPP
    else do
      match ← openFile fs filename with
      | .inl e => return e
      | .inr tmp =>
        closeFile tmp
        return RDEUNSUPP
  | .other => pure RDEINVAL

/-- `magickwand_reader_open` (magickwand.c:32-77): context, width, height, error. -/
def magickOpen (fs : Fs) (lib : Magick) (filename : List UInt8) : M (Option MagickCtx × ℕ × ℕ × RDError) := do
  match ← malloc with
  | none =>
    magickClose none
    return (none, 0, 0, RDENOMEM)
  | some b =>
    let wand ← enter
    match lib.read filename with
    | .inl (ex, errno) =>
      let e ← magickError fs filename ex errno
      magickClose (some ⟨b, wand, 0⟩)
      return (none, 0, 0, e)
    | .inr (state, width, height) => return (some ⟨b, wand, state⟩, width, height, RDEOK)

/-- Samples stored from the start of the image (magickwand.c:85). -/
def fillFrom (f : ℕ → Fl) : (todo i : ℕ) → List Fl → Option (List Fl)
  | 0, _, image => some image
  | todo + 1, i, image => do fillFrom f todo (i + 1) (← wr image i (f i))

/-- `magickwand_reader_read_frame` (magickwand.c:79-87).  The result of `MagickExportImagePixels` is not looked at. -/
def magickRead (s : Sys) (lib : Magick) (ctx : MagickCtx) (image : List Fl) (width height : ℕ) :
    M (Bool × RDError × List Fl × MagickCtx) := do
  touch ctx.block
  touch ctx.wand
  match lib.next ctx.state with
  | none => return (false, RDEOK, image, ctx)
  | some st =>
    match lib.export' st width height with
    | none => return (true, RDEOK, image, { ctx with state := st })
    | some f =>
      let image ← M.lift (fillFrom f (pixels s.cfg width height) 0 image)
      return (true, RDEOK, image, { ctx with state := st })

/-- The loop of `magickwand_reader_seek_frame` (magickwand.c:91-96): result, values passed to the callback, state. -/
def magickSkip (lib : Magick) (progress : Bool) : (todo i st : ℕ) → Bool × List ℕ × ℕ
  | 0, _, st => (true, [], st)
  | todo + 1, i, st =>
    match lib.next st with
    | none => (false, [], st)
    | some st =>
      let (ret, calls, st) := magickSkip lib progress todo (i + 1) st
      (ret, if progress then (i + 1) :: calls else calls, st)

/-- `magickwand_reader_seek_frame` (magickwand.c:89-98). -/
def magickSeek (lib : Magick) (ctx : MagickCtx) (offset : ℕ) (progress : Bool) : M (Bool × RDError × List ℕ × MagickCtx) := do
  touch ctx.block
  touch ctx.wand
  let (ret, calls, st) := magickSkip lib progress offset 0 ctx.state
  return (ret, RDEOK, calls, { ctx with state := st })

end Verif
