import Verif.Model.Image.Magick

/-!
# The FFmpeg reader (lib/image/ffmpeg.c)

FFmpeg's libraries are an arbitrary `Ffmpeg`.  Modelled are the order of the calls, what happens to their results, and who owns
what.

Simplifications: the objects FFmpeg allocates are one block each; `avformat_open_input` leaves NULL behind when it fails; the
options set at ffmpeg.c:93-98 and the frame header at 102-104 are part of `swsInit` and `scale`; packets are not told apart.
-/

namespace Verif

/-- FFmpeg.  The state of demuxer and decoder is a number.  Results are FFmpeg's `int`s. -/
structure Ffmpeg where
  /-- `avformat_open_input` -/
  openInput : List UInt8 → ℤ
  /-- `avformat_find_stream_info` -/
  findInfo : ℤ
  /-- `av_find_best_stream` -/
  bestStream : ℤ
  /-- `avcodec_parameters_to_context` -/
  toContext : ℤ
  /-- `avcodec_open2` -/
  open2 : ℤ
  /-- `sws_init_context` -/
  swsInit : ℤ
  /-- `codec->width` and `codec->height`, converted to `size_t` -/
  size : ℕ × ℕ
  /-- state after opening -/
  state : ℕ
  /-- `avcodec_receive_frame` -/
  receive : ℕ → ℤ × ℕ
  /-- `av_read_frame`: result, `packet->stream_index` -/
  readPacket : ℕ → ℤ × ℤ × ℕ
  /-- `avcodec_send_packet` with the packet, or with NULL -/
  send : ℕ → (packet : Bool) → ℤ × ℕ
  /-- `sws_scale_frame` of the frame received last: result and samples -/
  scale : ℕ → ℤ × (ℕ → Fl)
  /-- `strcmp(av_err2str(averr),strerror(AVUNERROR(averr)))` is zero -/
  isErrno : ℤ → Bool
  /-- `AVERROR(EAGAIN)` -/
  again : ℤ
  /-- `AVERROR_EOF` -/
  eof : ℤ
  /-- rounds after which a loop in `read_frame` counts as endless -/
  patience : ℕ
  /-- what `ffmpeg_reader_supports_ext` answers -/
  supports : List UInt8 → Bool

/-- `rderror_from_averror` (ffmpeg.c:23-32); `-AVUNERROR(averr)` is `averr`. -/
def rderrorFromAverror (lib : Ffmpeg) (averr : ℤ) : RDError :=
  if averr = 0 then RDEOK else if lib.isErrno averr then averr else RDEINVAL

/-- `struct ffmpeg_context` (ffmpeg.c:14-21): the objects, the index of the stream, the state of the libraries. -/
structure FfmpegCtx where
  block : ℕ
  fmt : Option ℕ
  codec : Option ℕ
  sws : Option ℕ
  frame : Option ℕ
  swsframe : Option ℕ
  packet : Option ℕ
  streamIndex : ℤ
  state : ℕ
deriving DecidableEq, Repr

/-- `ffmpeg_reader_close` (ffmpeg.c:34-46). -/
def ffmpegClose (ctx : Option FfmpegCtx) : M Unit :=
  match ctx with
  | none => pure ()
  | some ctx => do
    touch ctx.block
    free ctx.codec
    free ctx.frame
    free ctx.swsframe
    free ctx.packet
    free ctx.sws
    free ctx.fmt
    free (some ctx.block)

/-- The exit `error` of `ffmpeg_reader_open` (ffmpeg.c:111-116). -/
def ffmpegFail (lib : Ffmpeg) (ctx : FfmpegCtx) (averr : ℤ) (error : RDError) : M (Option FfmpegCtx × ℕ × ℕ × RDError) := do
  ffmpegClose (some ctx)
  return (none, 0, 0, if averr ≠ 0 then rderrorFromAverror lib averr else error)

/-- The objects allocated in the condition at ffmpeg.c:85-88: the context with those that were made, and whether all were. -/
def ffmpegObjects (ctx : FfmpegCtx) : M (FfmpegCtx × Bool) := do
  match ← malloc with
  | none => return (ctx, false)
  | some b =>
    let ctx := { ctx with sws := some b }
    match ← malloc with
    | none => return (ctx, false)
    | some b =>
      let ctx := { ctx with frame := some b }
      match ← malloc with
      | none => return (ctx, false)
      | some b =>
        let ctx := { ctx with swsframe := some b }
        match ← malloc with
        | none => return (ctx, false)
        | some b => return ({ ctx with packet := some b }, true)

/-- `ffmpeg_reader_open` (ffmpeg.c:50-117): context, width, height, error. -/
def ffmpegOpen (lib : Ffmpeg) (filename : List UInt8) : M (Option FfmpegCtx × ℕ × ℕ × RDError) := do
  match ← malloc with
  | none => return (none, 0, 0, RDENOMEM)
  | some b =>
    let ctx : FfmpegCtx := ⟨b, none, none, none, none, none, none, 0, 0⟩
    let filename := if filename = cs "-" then cs "pipe:" else filename
    let averr := lib.openInput filename
    if averr ≠ 0 then ffmpegFail lib ctx averr RDEOK
    else
      let fmt ← enter
      let ctx := { ctx with fmt := some fmt }
      let averr := lib.findInfo
      if averr < 0 then ffmpegFail lib ctx averr RDEOK
      else
        let averr := lib.bestStream
        let ctx := { ctx with streamIndex := averr }
        if averr < 0 then ffmpegFail lib ctx averr RDEOK
        else
          match ← malloc with
          | none => ffmpegFail lib ctx averr RDENOMEM
          | some codec =>
            let ctx := { ctx with codec := some codec }
            -- `averr = avcodec_parameters_to_context(...) < 0`: the result of the comparison
            let averr : ℤ := if lib.toContext < 0 then 1 else 0
            if averr ≠ 0 then ffmpegFail lib ctx averr RDEOK
            else
              let averr := lib.open2
              if averr ≠ 0 then ffmpegFail lib ctx averr RDEOK
              else
                let (ctx, ok) ← ffmpegObjects ctx
                if !ok then ffmpegFail lib ctx averr RDENOMEM
                else
                  let averr := lib.swsInit
                  if averr < 0 then ffmpegFail lib ctx averr RDEOK
                  else return (some { ctx with state := lib.state }, lib.size.1, lib.size.2, RDEOK)

/-- The inner loop of `read_frame` (ffmpeg.c:122-123): the last result and the state. -/
def ffmpegPacket (lib : Ffmpeg) (idx : ℤ) : (fuel st : ℕ) → Option (ℤ × ℕ)
  | 0, _ => none
  | fuel + 1, st =>
    let (averr, stream, st) := lib.readPacket st
    if averr = 0 ∧ stream ≠ idx then ffmpegPacket lib idx fuel st else some (averr, st)

/-- `read_frame` (ffmpeg.c:119-134): result and state. -/
def ffmpegFrame (lib : Ffmpeg) (idx : ℤ) : (fuel st : ℕ) → Option (ℤ × ℕ)
  | 0, _ => none
  | fuel + 1, st =>
    let (averr, st) := lib.receive st
    if averr = lib.again then do
      let (averr, st) ← ffmpegPacket lib idx lib.patience st
      let (averr, st) := lib.send st (averr = 0)
      if averr ≠ 0 then return (averr, st) else ffmpegFrame lib idx fuel st
    else some (averr, st)

/-- The objects the libraries use are there (ffmpeg.c:119-152). -/
def ffmpegTouch (ctx : FfmpegCtx) : M Unit := do
  touch ctx.block
  touch (← need ctx.fmt)
  touch (← need ctx.codec)
  touch (← need ctx.swsframe)
  touch (← need ctx.packet)

/-- `ffmpeg_reader_read_frame` (ffmpeg.c:136-152). -/
def ffmpegRead (s : Sys) (lib : Ffmpeg) (ctx : FfmpegCtx) (image : List Fl) (width height : ℕ) :
    M (Bool × RDError × List Fl × FfmpegCtx) := do
  ffmpegTouch ctx
  let (averr, st) ← M.lift (ffmpegFrame lib ctx.streamIndex lib.patience ctx.state)
  let ctx := { ctx with state := st }
  if averr ≠ 0 then return (false, if averr ≠ lib.eof then rderrorFromAverror lib averr else RDEOK, image, ctx)
  else
    touch (← need ctx.sws)
    touch (← need ctx.frame)
    let (averr, f) := lib.scale st
    if averr < 0 then return (false, if averr ≠ lib.eof then rderrorFromAverror lib averr else RDEOK, image, ctx)
    else
      let image ← M.lift (fillFrom f (pixels s.cfg width height) 0 image)
      return (true, RDEOK, image, ctx)

/-- The loop of `ffmpeg_reader_seek_frame` (ffmpeg.c:158-163): the last result, values passed to the callback, state. -/
def ffmpegSkip (lib : Ffmpeg) (idx : ℤ) (progress : Bool) : (todo i st : ℕ) → Option (ℤ × List ℕ × ℕ)
  | 0, _, st => some (0, [], st)
  | todo + 1, i, st => do
    let (averr, st) ← ffmpegFrame lib idx lib.patience st
    if averr ≠ 0 then return (averr, [], st)
    else
      let (averr, calls, st) ← ffmpegSkip lib idx progress todo (i + 1) st
      return (averr, if progress then (i + 1) :: calls else calls, st)

/-- `ffmpeg_reader_seek_frame` (ffmpeg.c:154-168). -/
def ffmpegSeek (lib : Ffmpeg) (ctx : FfmpegCtx) (offset : ℕ) (progress : Bool) : M (Bool × RDError × List ℕ × FfmpegCtx) := do
  ffmpegTouch ctx
  let (averr, calls, st) ← M.lift (ffmpegSkip lib ctx.streamIndex progress offset 0 ctx.state)
  let ctx := { ctx with state := st }
  return (averr = 0, if averr ≠ 0 ∧ averr ≠ lib.eof then rderrorFromAverror lib averr else RDEOK, calls, ctx)

end Verif
