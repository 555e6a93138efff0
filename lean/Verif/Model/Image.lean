import Verif.Model.Image.Pgm
import Verif.Model.Image.Pfm
import Verif.Model.Image.Y4m
import Verif.Model.Image.Ffmpeg

/-! # lib/image.c and lib/image_readers.c -/

namespace Verif

/-- `reader_ctx`.  `other` stands for the context of a reader not modelled here: the blocks and streams it owns and its
state (image.h:21-25). -/
inductive Ctx where
  | pgm (c : PgmCtx)
  | pfm (c : PfmCtx)
  | y4m (c : Y4mCtx)
  | jpeg (c : JpegCtx)
  | png (c : PngCtx)
  | ffmpeg (c : FfmpegCtx)
  | magick (c : MagickCtx)
  | other (blocks files : List ℕ) (state : List ℕ)
deriving DecidableEq, Repr

/-- `struct image_reader` (image.h:13-19).  `open` returns the context (`none` is NULL), `*width`, `*height`, `*error`; `read`
the result, `*error`, the image and the context afterwards; `seek` the result, `*error`, the values passed to the progress
callback and the context afterwards. -/
structure Reader where
  open' : (filename : List UInt8) → M (Option Ctx × ℕ × ℕ × RDError)
  read : Ctx → (image : List Fl) → (width height : ℕ) → M (Bool × RDError × List Fl × Ctx)
  seek : Ctx → (offset : ℕ) → (progress : Bool) → (width height : ℕ) → M (Bool × RDError × List ℕ × Ctx)
  close : Option Ctx → M Unit
  supportsExt : List UInt8 → Option Bool

/-- `resdet_strieq` (image.c:26-31).  Strings are lists without the final NUL.  A `char` outside the range of `unsigned char`
may not be passed to `tolower`. -/
def strieq (c : Cfg) : List UInt8 → List UInt8 → Option Bool
  | a :: l, b :: r =>
    if ctypeOk c a && ctypeOk c b then (if tolower a ≠ tolower b then some false else strieq c l r) else none
  | [], [] => some true
  | _, _ => some false

/-- `resdet_image_reader_pgm` (pgm.c:101-111). -/
def pgmReader (s : Sys) (fs : Fs) : Reader where
  open' filename := do
    let (ctx, w, h, e) ← pgmOpen s fs filename
    return (ctx.map Ctx.pgm, w, h, e)
  read ctx image w h :=
    match ctx with
    | .pgm ctx => do
      let (r, e, image, ctx) ← pgmRead s ctx image w h
      return (r, e, image, .pgm ctx)
    | _ => M.ub
  seek ctx offset progress _ _ :=
    match ctx with
    | .pgm ctx => do
      let (r, e, calls, ctx) ← pgmSeek ctx offset progress
      return (r, e, calls, .pgm ctx)
    | _ => M.ub
  close ctx :=
    match ctx with
    | none => pgmClose none
    | some (.pgm ctx) => pgmClose (some ctx)
    | _ => M.ub
  supportsExt ext := strieq s.cfg ext (cs "pgm")

/-- `resdet_image_reader_pfm` (pfm.c:208-218). -/
def pfmReader (s : Sys) (fs : Fs) : Reader where
  open' filename := do
    let (ctx, w, h, e) ← pfmOpen s fs filename
    return (ctx.map Ctx.pfm, w, h, e)
  read ctx image w h :=
    match ctx with
    | .pfm ctx => do
      let (r, e, image, ctx) ← pfmRead s ctx image w h
      return (r, e, image, .pfm ctx)
    | _ => M.ub
  seek ctx offset progress w h :=
    match ctx with
    | .pfm ctx => do
      let (r, e, calls, ctx) ← pfmSeek s ctx offset progress w h
      return (r, e, calls, .pfm ctx)
    | _ => M.ub
  close ctx :=
    match ctx with
    | none => pfmClose none
    | some (.pfm ctx) => pfmClose (some ctx)
    | _ => M.ub
  supportsExt ext := strieq s.cfg ext (cs "pfm")

/-- `resdet_image_reader_y4m` (y4m.c:208-218). -/
def y4mReader (s : Sys) (fs : Fs) : Reader where
  open' filename := do
    let (ctx, w, h, e) ← y4mOpen s fs filename
    return (ctx.map Ctx.y4m, w, h, e)
  read ctx image w h :=
    match ctx with
    | .y4m ctx => do
      let (r, e, image, ctx) ← y4mRead s ctx image w h
      return (r, e, image, .y4m ctx)
    | _ => M.ub
  seek ctx offset progress _ _ :=
    match ctx with
    | .y4m ctx => do
      let (r, e, calls, ctx) ← y4mSeek s ctx offset progress
      return (r, e, calls, .y4m ctx)
    | _ => M.ub
  close ctx :=
    match ctx with
    | none => y4mClose none
    | some (.y4m ctx) => y4mClose (some ctx)
    | _ => M.ub
  supportsExt ext := strieq s.cfg ext (cs "y4m")

/-- `resdet_image_reader_libjpeg` (libjpeg.c:121-131). -/
def jpegReader (s : Sys) (fs : Fs) (lib : Jpeg) : Reader where
  open' filename := do
    let (ctx, w, h, e) ← jpegOpen fs lib filename
    return (ctx.map Ctx.jpeg, w, h, e)
  read ctx image w h :=
    match ctx with
    | .jpeg ctx => do
      let (r, e, image, ctx) ← jpegRead s lib ctx image w h
      return (r, e, image, .jpeg ctx)
    | _ => M.ub
  seek ctx offset progress _ _ :=
    match ctx with
    | .jpeg ctx => do
      let (r, e, calls, ctx) ← jpegSeek ctx offset progress
      return (r, e, calls, .jpeg ctx)
    | _ => M.ub
  close ctx :=
    match ctx with
    | none => jpegClose none
    | some (.jpeg ctx) => jpegClose (some ctx)
    | _ => M.ub
  supportsExt ext := do
    if ← strieq s.cfg ext (cs "jpg") then return true else strieq s.cfg ext (cs "jpeg")

/-- `resdet_image_reader_libpng` (libpng.c:159-169). -/
def pngReader (s : Sys) (fs : Fs) (lib : Png) : Reader where
  open' filename := do
    let (ctx, w, h, e) ← pngOpen fs lib filename
    return (ctx.map Ctx.png, w, h, e)
  read ctx image w h :=
    match ctx with
    | .png ctx => do
      let (r, e, image, ctx) ← pngRead s lib ctx image w h
      return (r, e, image, .png ctx)
    | _ => M.ub
  seek ctx offset progress _ _ :=
    match ctx with
    | .png ctx => do
      let (r, e, calls, ctx) ← pngSeek ctx offset progress
      return (r, e, calls, .png ctx)
    | _ => M.ub
  close ctx :=
    match ctx with
    | none => pngClose none
    | some (.png ctx) => pngClose (some ctx)
    | _ => M.ub
  supportsExt ext := strieq s.cfg ext (cs "png")

/-- `resdet_image_reader_ffmpeg` (ffmpeg.c:170-190). -/
def ffmpegReader (s : Sys) (lib : Ffmpeg) : Reader where
  open' filename := do
    let (ctx, w, h, e) ← ffmpegOpen lib filename
    return (ctx.map Ctx.ffmpeg, w, h, e)
  read ctx image w h :=
    match ctx with
    | .ffmpeg ctx => do
      let (r, e, image, ctx) ← ffmpegRead s lib ctx image w h
      return (r, e, image, .ffmpeg ctx)
    | _ => M.ub
  seek ctx offset progress _ _ :=
    match ctx with
    | .ffmpeg ctx => do
      let (r, e, calls, ctx) ← ffmpegSeek lib ctx offset progress
      return (r, e, calls, .ffmpeg ctx)
    | _ => M.ub
  close ctx :=
    match ctx with
    | none => ffmpegClose none
    | some (.ffmpeg ctx) => ffmpegClose (some ctx)
    | _ => M.ub
  supportsExt ext := some (lib.supports ext)

/-- `resdet_image_reader_magickwand` (magickwand.c:100-110). -/
def magickReader (s : Sys) (fs : Fs) (lib : Magick) : Reader where
  open' filename := do
    let (ctx, w, h, e) ← magickOpen fs lib filename
    return (ctx.map Ctx.magick, w, h, e)
  read ctx image w h :=
    match ctx with
    | .magick ctx => do
      let (r, e, image, ctx) ← magickRead s lib ctx image w h
      return (r, e, image, .magick ctx)
    | _ => M.ub
  seek ctx offset progress _ _ :=
    match ctx with
    | .magick ctx => do
      let (r, e, calls, ctx) ← magickSeek lib ctx offset progress
      return (r, e, calls, .magick ctx)
    | _ => M.ub
  close ctx :=
    match ctx with
    | none => magickClose none
    | some (.magick ctx) => magickClose (some ctx)
    | _ => M.ub
  supportsExt _ := some true

/-- The file system and the readers compiled in (image_readers.c:8-28): the built-in ones unless omitted, and those on top
of libraries, which may be those above or any others. -/
structure Io where
  fs : Fs
  omitPgm : Bool
  omitPfm : Bool
  omitY4m : Bool
  libjpeg : Option Reader
  libpng : Option Reader
  ffmpeg : Option Reader
  magickwand : Option Reader

/-- `resdet_image_readers` (image_readers.c:30-57). -/
def imageReaders (s : Sys) (io : Io) : List Reader :=
  (if io.omitPgm then [] else [pgmReader s io.fs]) ++ (if io.omitPfm then [] else [pfmReader s io.fs]) ++
    (if io.omitY4m then [] else [y4mReader s io.fs]) ++ io.libjpeg.toList ++ io.libpng.toList ++ io.ffmpeg.toList ++
    io.magickwand.toList

/-- `resdet_list_image_readers` (image_readers.c:59-86). -/
def listImageReaders (io : Io) : List (List UInt8) :=
  (if io.omitPgm then [] else [cs "PGM"]) ++ (if io.omitPfm then [] else [cs "PFM"]) ++
    (if io.omitY4m then [] else [cs "Y4M"]) ++ (io.libjpeg.map fun _ => cs "libjpeg").toList ++
    (io.libpng.map fun _ => cs "libpng").toList ++ (io.ffmpeg.map fun _ => cs "FFmpeg").toList ++
    (io.magickwand.map fun _ => cs "MagickWand").toList

/-- `RDImage` (image.h:21-25). -/
structure RDImage where
  block : ℕ
  reader : Option Reader
  ctx : Option Ctx
  width : ℕ
  height : ℕ

/-- `resdet_close_image` (image.c:209-216). -/
def closeImage (rdimage : Option RDImage) : M Unit :=
  match rdimage with
  | none => pure ()
  | some i => do
    touch i.block
    match i.reader with
    | some r => r.close i.ctx
    | none => pure ()
    free (some i.block)

/-- `ext_from_mimetype` (image.c:33-45). -/
def extFromMimetype (t : List UInt8) : List UInt8 :=
  if t = cs "image/jpeg" then cs "jpg"
  else if t = cs "image/png" then cs "png"
  else if t = cs "video/yuv4mpeg" then cs "y4m"
  else if t = cs "image/x-portable-graymap" then cs "pgm"
  else if t = cs "image/x-portable-floatmap" then cs "pfm"
  else []

/-- What the callers of `resdet_open_image` see: the handle, `*width`, `*height`, `*imagebuf`, `*error` (image.c:92-137). -/
structure Opened where
  image : Option RDImage
  width : ℕ
  height : ℕ
  buf : Option (Buf Fl)
  error : RDError

/-- The failure exit of `open_image` (image.c:85-89). -/
def openFail (i : Option RDImage) (e : RDError) : M Opened := do
  closeImage i
  return ⟨none, 0, 0, none, e⟩

/-- `open_image` (image.c:47-90).  `wantBuf` says that `imagebuf` is not NULL. -/
def openImage (s : Sys) (reader : Option Reader) (filename : List UInt8) (wantBuf : Bool) : M Opened := do
  let c := s.cfg
  match ← malloc with
  | none => openFail none RDENOMEM
  | some b =>
    match reader with
    | none => openFail (some ⟨b, none, none, 0, 0⟩) RDEUNSUPP
    | some r =>
      let (ctx, width, height, e) ← r.open' filename
      let i : RDImage := ⟨b, some r, ctx, width, height⟩
      if e ≠ 0 then openFail (some i) e
      else if dimsExceedLimit c width height 1 4 then openFail (some i) RDETOOBIG
      else if wantBuf then
        match ← malloc with
        | none => openFail (some i) RDENOMEM
        | some b2 =>
          return ⟨some i, width, height, some ⟨b2, List.replicate (c.sz (c.sz (width * height) * 4) / 4) s.env.junk⟩, RDEOK⟩
      else return ⟨some i, width, height, none, RDEOK⟩

/-- The text after the last `.`, or nothing (image.c:118-119). -/
def fileExt (filename : List UInt8) : List UInt8 :=
  if ch '.' ∈ filename then (filename.reverse.takeWhile (fun b => b != ch '.')).reverse else []

/-- The extension used to choose a reader (image.c:114-120). -/
def extension (filename : List UInt8) (filetype : Option (List UInt8)) : List UInt8 :=
  match filetype with
  | some t => if ch '/' ∈ t then extFromMimetype t else t
  | none => fileExt filename

/-- The loop over the readers (image.c:124-128). -/
def findReader : List Reader → List UInt8 → Option (Option Reader)
  | [], _ => some none
  | r :: rs, ext => do
    if ← r.supportsExt ext then return some r else findReader rs ext

/-- The loop over the names (image.c:163-167): the index found. -/
def findName (c : Cfg) : List (List UInt8) → List UInt8 → ℕ → Option (Option ℕ)
  | [], _, _ => some none
  | n :: ns, name, i => do
    if ← strieq c n name then return some i else findName c ns name (i + 1)

/-- `resdet_open_image` (image.c:92-137).  `none` for a string is NULL; `hasW`, `hasH`, `wantBuf` say whether the pointers are
not NULL. -/
def resdetOpenImage (s : Sys) (io : Io) (filename filetype : Option (List UInt8)) (hasW hasH wantBuf : Bool) : M Opened :=
  if !(hasW && hasH) then pure ⟨none, 0, 0, none, RDEPARAM⟩
  else
    match filename with
    | none => pure ⟨none, 0, 0, none, RDEPARAM⟩
    | some filename => do
      let reader ← M.lift (findReader (imageReaders s io) (extension filename filetype))
      openImage s reader filename wantBuf

/-- `resdet_open_image_with_reader` (image.c:139-176). -/
def resdetOpenImageWithReader (s : Sys) (io : Io) (filename name : Option (List UInt8)) (hasW hasH wantBuf : Bool) :
    M Opened :=
  if !(hasW && hasH) then pure ⟨none, 0, 0, none, RDEPARAM⟩
  else
    match filename, name with
    | some filename, some name => do
      let i ← M.lift (findName s.cfg (listImageReaders io) name 0)
      let reader ← match i with
        | none => pure none
        | some i => M.lift ((rd (imageReaders s io) i).map some)
      openImage s reader filename wantBuf
    | _, _ => pure ⟨none, 0, 0, none, RDEPARAM⟩

/-- `resdet_read_image_frame` (image.c:178-191) with `image` pointing `off` floats into a block: result, `*error`, block and
handle afterwards. -/
def readImageFrame (rdimage : Option RDImage) (image : Option (Buf Fl)) (off : ℕ) :
    M (Bool × RDError × Option (Buf Fl) × Option RDImage) :=
  match rdimage, image with
  | some i, some buf => do
    touch i.block
    touch buf.id
    let r ← need i.reader
    let ctx ← need i.ctx
    if buf.data.length < off then M.ub
    else
      let (ret, e, data, ctx) ← r.read ctx (buf.data.drop off) i.width i.height
      return (ret, e, some { buf with data := buf.data.take off ++ data }, some { i with ctx := some ctx })
  | i, b => pure (false, RDEPARAM, b, i)

/-- `resdet_seek_frame` (image.c:193-207): result, `*error`, values passed to the progress callback, handle afterwards. -/
def seekFrame (rdimage : Option RDImage) (offset : ℕ) (progress : Bool) : M (Bool × RDError × List ℕ × Option RDImage) :=
  match rdimage with
  | none => pure (false, RDEPARAM, [], none)
  | some i => do
    touch i.block
    let r ← need i.reader
    let ctx ← need i.ctx
    let (ret, e, calls, ctx) ← r.seek ctx offset progress i.width i.height
    return (ret, e, calls, some { i with ctx := some ctx })

/-- C `realloc` of a live block: NULL and the old block stays, or a new block in its place (image.c:235). -/
def realloc (b : ℕ) : M (Option ℕ) := fun w =>
  if b ∈ w.live then
    if w.sched 0 then
      some (some w.next, { w with live := w.next :: w.live.erase b, next := w.next + 1, sched := advance w.sched })
    else some (none, { w with sched := advance w.sched })
  else none

/-- Contents after growing or shrinking to `n` floats (image.c:235). -/
def resize (s : Sys) (l : List Fl) (n : ℕ) : List Fl := (l ++ List.replicate (n - l.length) s.env.junk).take n

/-- The loop of `resdet_read_image` (image.c:227-242): error, block, number of images, handle. -/
def readLoop (s : Sys) (width height : ℕ) : (fuel : ℕ) → RDImage → Buf Fl → (nimages : ℕ) →
    M (RDError × Buf Fl × ℕ × RDImage)
  | 0, _, _, _ => M.ub
  | fuel + 1, i, buf, n => do
    let c := s.cfg
    let (ret, e, buf, i) ← readImageFrame (some i) (some buf) (c.sz (c.sz (width * height) * n))
    let buf ← need buf
    let i ← need i
    if !ret then return (e, buf, n, i)
    else
      let n := c.sz (n + 1)
      if dimsExceedLimit c width height (c.sz (n + 1)) 4 then return (RDETOOBIG, buf, n, i)
      else
        match ← realloc buf.id with
        | none => return (RDENOMEM, buf, n, i)
        | some b =>
          let cap := c.sz (c.sz (c.sz (width * height) * c.sz (n + 1)) * 4) / 4
          readLoop s width height fuel i ⟨b, resize s buf.data cap⟩ n

/-- What the callers of `resdet_read_image` see: error, `*images`, `*nimages`, `*width`, `*height` (image.c:218-252). -/
structure ReadOut where
  error : RDError
  images : Option (Buf Fl)
  nimages : ℕ
  width : ℕ
  height : ℕ
deriving DecidableEq, Repr

/-- `resdet_read_image` (image.c:218-252).  The limit on the size ends the loop, so the fuel is never used up. -/
def readImage (s : Sys) (io : Io) (filename filetype : Option (List UInt8)) (hasW hasH : Bool) : M ReadOut := do
  let o ← resdetOpenImage s io filename filetype hasW hasH true
  if o.error ≠ 0 then return ⟨o.error, none, 0, o.width, o.height⟩
  else
    let i ← need o.image
    let buf ← need o.buf
    let (e, buf, n, i) ← readLoop s o.width o.height (s.cfg.pixelMax + 1) i buf 0
    let images ← if e ≠ 0 then (do free (some buf.id); return none) else pure (some buf)
    closeImage (some i)
    return ⟨e, images, n, o.width, o.height⟩

/-- The loop of `resdetect_file` (resdetect.c:62-64): error, handle, image, analysis.  The loop has no bound of its own;
`none` when `fuel` frames are not enough. -/
def fileLoop (s : Sys) : (fuel : ℕ) → RDImage → Buf Fl → Analysis → M (RDError × RDImage × Buf Fl × Analysis)
  | 0, _, _, _ => M.ub
  | fuel + 1, i, buf, a => do
    let (ret, e, buf, i) ← readImageFrame (some i) (some buf) 0
    let buf ← need buf
    let i ← need i
    if !ret then return (e, i, buf, a)
    else
      let (e, a) ← analyzeImage s (some a) (some buf.data)
      let a ← need a
      if e ≠ 0 then return (e, i, buf, a) else fileLoop s fuel i buf a

/-- `resdetect_file` (resdetect.c:40-74). -/
def resdetectFile (s : Sys) (io : Io) (fuel : ℕ) (filename filetype : Option (List UInt8)) (ptr : Ptrs)
    (method : Option Method) (params : Option Params) : M (RDError × Out) :=
  if (ptr.rw && !ptr.cw) || (ptr.rh && !ptr.ch) then pure (RDEPARAM, Out.nothing)
  else do
    let o ← resdetOpenImage s io filename filetype true true true
    if o.error ≠ 0 then return (o.error, Out.nothing)
    else
      let i ← need o.image
      let buf ← need o.buf
      let (a, e) ← createAnalysis s method o.width o.height params
      if e ≠ 0 then
        free (some buf.id)
        destroyAnalysis a
        closeImage (some i)
        return (e, Out.nothing)
      else
        let a ← need a
        let (e, i, buf, a) ← fileLoop s fuel i buf a
        let (e, out, a) ← if e = 0 then analysisResults s (some a) ptr else pure (e, Out.nothing, some a)
        free (some buf.id)
        destroyAnalysis a
        closeImage (some i)
        return (e, out)

end Verif
