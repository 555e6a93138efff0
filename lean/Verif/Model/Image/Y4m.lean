import Verif.Model.Image.File

/-! # The YUV4MPEG2 reader (lib/image/y4m.c) -/

namespace Verif

/-- `struct y4m_context` (y4m.c:10-16). -/
structure Y4mCtx where
  block : ℕ
  f : File
  buf : Option (Buf UInt8)
  ySize : ℕ
  uvSize : ℕ
  depth : ℕ
  seekable : Bool
deriving DecidableEq, Repr

/-- `y4m_reader_close` (y4m.c:18-26). -/
def y4mClose (ctx : Option Y4mCtx) : M Unit :=
  match ctx with
  | none => pure ()
  | some ctx => do
    touch ctx.block
    freeBuf ctx.buf
    closeFile ctx.f
    free (some ctx.block)

/-- The parameters seen so far: width, height and the array `csp` (y4m.c:47-70). -/
structure Y4mParams where
  width : ℕ
  height : ℕ
  csp : List UInt8
deriving DecidableEq, Repr

/-- `char csp[10] = "420jpeg"` (y4m.c:47). -/
def y4mCspInit : List UInt8 := cs "420jpeg" ++ [0, 0, 0]

/-- The parameter loop (y4m.c:49-70): `none` inside is `goto invalid`.  Every round reads a character, so the number of
bytes bounds the number of rounds. -/
def y4mParams (c : Cfg) : (fuel : ℕ) → Y4mParams → Stream → Option (Option Y4mParams × Stream)
  | 0, _, st => some (none, st)
  | fuel + 1, p, st =>
    match st.fgetc with
    | (none, st) => some (none, st)
    | (some b, st) =>
      if b = ch '\n' then some (some p, st)
      else if b = ch 'W' then do
        match ← st.scanUnsigned c.sizeMax true with
        | (.ok v, st) => y4mParams c fuel { p with width := v } st
        | (_, st) => return (none, st)
      else if b = ch 'H' then do
        match ← st.scanUnsigned c.sizeMax true with
        | (.ok v, st) => y4mParams c fuel { p with height := v } st
        | (_, st) => return (none, st)
      else if b = ch 'C' then
        match st.scanWord (some 9) with
        | (.ok v, st) => y4mParams c fuel { p with csp := store p.csp (v ++ [0]) } st
        | (_, st) => some (none, st)
      else if b = ch ' ' then y4mParams c fuel p st
      else
        match st.scanWord none with
        | (.eof, st) => some (none, st)
        | (_, st) => y4mParams c fuel p st

/-- `strtoul(csp+4, NULL, 10)` of a string that starts with a digit (y4m.c:85, 101). -/
def y4mDepth (csp : List UInt8) : ℕ := Stream.decimal ((csp.drop 4).takeWhile isdigit)

/-- `isdigit(csp[4]) ? strtoul(csp+4,NULL,10) : 8` (y4m.c:80, 84-85, 100-101). -/
def y4mDigits (c : Cfg) (csp : List UInt8) : Option ℕ := do
  let b ← rd csp 4
  if ctypeOk c b then return (if isdigit b then y4mDepth csp else 8) else none

/-- Chroma samples and depth for a layout (y4m.c:80-102); `none` inside is `goto invalid`. -/
def y4mLayout (c : Cfg) (width height : ℕ) (csp : List UInt8) : Option (Option (ℕ × ℕ)) :=
  if csp.take 4 = cs "mono" then do
    let depth ← y4mDigits c csp
    return some (0, depth)
  else
    let uv :=
      if csp.take 3 = cs "420" ∨ csp.take 3 = cs "411" then
        some (c.sz (c.sz (c.sz (width + 1) / 2 * (c.sz (height + 1) / 2)) * 2))
      else if csp.take 3 = cs "422" then some (c.sz (c.sz (c.sz (width + 1) / 2 * height) * 2))
      else if csp.take 3 = cs "444" then some (c.sz (c.sz (width * height) * 2))
      else if csp.takeWhile (fun b => b != 0) = cs "444alpha" then some (c.sz (c.sz (width * height) * 3))
      else none
    match uv with
    | none => some none
    | some uv => do
      let b ← rd csp 3
      if b = ch 'p' then
        let depth ← y4mDigits c csp
        return some (uv, depth)
      else return some (uv, 8)

/-- The header up to the end of the first line (y4m.c:43-70). -/
def y4mHeader (c : Cfg) (st : Stream) : Option (Option Y4mParams × Stream) :=
  let (magic, st) := st.fread 10
  if magic.length < 10 ∨ magic ≠ cs "YUV4MPEG2 " then some (none, st)
  else y4mParams c (st.rest.length + 1) ⟨0, 0, y4mCspInit⟩ st

/-- The plane sizes in bytes and the depth, or an error (y4m.c:73-114). -/
def y4mSizes (c : Cfg) (p : Y4mParams) : Option (RDError ⊕ (ℕ × ℕ × ℕ)) :=
  if ¬(p.width ≠ 0 ∧ p.height ≠ 0) then some (.inl RDEINVAL)
  else if dimsExceedLimit c p.width p.height 4 1 then some (.inl RDETOOBIG)
  else do
    let ySize := c.sz (p.width * p.height)
    match ← y4mLayout c p.width p.height p.csp with
    | none => return .inl RDEINVAL
    | some (uvSize, depth) =>
      if depth < 8 ∨ depth > 16 then return .inl RDEINVAL
      else
        let bytewidth := (depth + 7) / 8
        if c.sizeMax / bytewidth < c.sz (ySize + uvSize) then return .inl RDETOOBIG
        else return .inr (c.sz (ySize * bytewidth), c.sz (uvSize * bytewidth), depth)

/-- The failure exit of `y4m_reader_open` once the stream is open (y4m.c:130-132). -/
def y4mFail (b : ℕ) (f : File) (e : RDError) : M (Option Y4mCtx × ℕ × ℕ × RDError) := do
  y4mClose (some ⟨b, f, none, 0, 0, 0, false⟩)
  return (none, 0, 0, e)

/-- `y4m_reader_open` (y4m.c:28-137). -/
def y4mOpen (s : Sys) (fs : Fs) (filename : List UInt8) : M (Option Y4mCtx × ℕ × ℕ × RDError) := do
  let c := s.cfg
  match ← malloc with
  | none => return (none, 0, 0, RDENOMEM)
  | some b =>
    match ← openFile fs filename with
    | .inl e =>
      free (some b)
      return (none, 0, 0, e)
    | .inr f =>
      let (r, st) ← M.lift (y4mHeader c f.st)
      let f := { f with st := st }
      match r with
      | none => y4mFail b f RDEINVAL
      | some p =>
        match ← M.lift (y4mSizes c p) with
        | .inl e => y4mFail b f e
        | .inr (ySize, uvSize, depth) =>
          let (seekable, st) ← M.lift (canSeek c st (c.sz (ySize + uvSize)))
          let f := { f with st := st }
          let bufsize := if seekable then ySize else if uvSize < ySize then ySize else uvSize
          match ← malloc with
          | none => y4mFail b f RDENOMEM
          | some b2 =>
            return (some ⟨b, f, some ⟨b2, List.replicate bufsize 0⟩, ySize, uvSize, depth, seekable⟩, p.width, p.height, RDEOK)

/-- `read_frame_header` (y4m.c:139-161): result, error, stream afterwards. -/
def y4mFrameHeader (st : Stream) : Bool × RDError × Stream :=
  let (frame, st) := st.fread 5
  if frame.length < 5 then (false, if frame.length = 0 && st.feof then RDEOK else RDEINVAL, st)
  else if frame ≠ cs "FRAME" then (false, RDEINVAL, st)
  else
    let k := (st.rest.takeWhile (fun b => b != ch '\n')).length
    if k < st.rest.length then (true, RDEOK, st.advance (k + 1)) else (false, RDEINVAL, st.advance k)

/-- The sample `val` (y4m.c:175-179). -/
def y4mSample (c : Cfg) (depth : ℕ) (buf : List UInt8) (i : ℕ) : Option ℕ :=
  if depth > 8 then do
    let a ← rd buf (c.sz (i * 2))
    let b ← rd buf (c.sz (i * 2) + 1)
    return if c.littleEndian then a.toNat + 256 * b.toNat else 256 * a.toNat + b.toNat
  else (rd buf i).map UInt8.toNat

/-- The sample loop (y4m.c:173-182). -/
def y4mLoop (c : Cfg) (depth : ℕ) (buf : List UInt8) : (todo i : ℕ) → List Fl → Option (List Fl)
  | 0, _, image => some image
  | todo + 1, i, image => do
    let v ← y4mSample c depth buf i
    let image ← wr image i (binary32.div (binary32.ofNat v) (binary32.ofNat (2 ^ depth - 1)))
    y4mLoop c depth buf todo (i + 1) image

/-- `ctx->seekable ? NULL : ctx->buf` (y4m.c:185, 198-199). -/
def Y4mCtx.skipBuf (ctx : Y4mCtx) : Option (List UInt8) := if ctx.seekable then none else ctx.buf.map Buf.data

/-- `y4m_reader_read_frame` (y4m.c:163-189).  The contents the buffer is left with are never used again and not kept. -/
def y4mRead (s : Sys) (ctx : Y4mCtx) (image : List Fl) (width height : ℕ) : M (Bool × RDError × List Fl × Y4mCtx) := do
  touch ctx.block
  touchFile ctx.f
  let (ok, e, st) := y4mFrameHeader ctx.f.st
  let at' (st : Stream) : Y4mCtx := { ctx with f := { ctx.f with st := st } }
  if !ok then return (false, e, image, at' st)
  else
    let buf ← need ctx.buf
    touch buf.id
    if buf.data.length < ctx.ySize then M.ub
    else
      let (bytes, st) := st.fread ctx.ySize
      if bytes.length ≠ ctx.ySize then return (false, RDEINVAL, image, at' st)
      else
        let image ← M.lift (y4mLoop s.cfg ctx.depth (store buf.data bytes) (pixels s.cfg width height) 0 image)
        let (e, st, _) ← M.lift (fskip s st ctx.uvSize ctx.skipBuf)
        if e ≠ 0 then return (false, e, image, at' st) else return (true, RDEOK, image, at' st)

/-- The loop of `y4m_reader_seek_frame` (y4m.c:194-204). -/
def y4mSkip (s : Sys) (ctx : Y4mCtx) (progress : Bool) : (todo i : ℕ) → Stream → List ℕ →
    Option (Bool × RDError × List ℕ × Stream)
  | 0, _, st, calls => some (true, RDEOK, calls, st)
  | todo + 1, i, st, calls =>
    let (ok, e, st) := y4mFrameHeader st
    if !ok then some (false, e, calls, st)
    else do
      let (e, st, _) ← fskip s st ctx.ySize ctx.skipBuf
      if e ≠ 0 then return (false, e, calls, st)
      else
        let (e, st, _) ← fskip s st ctx.uvSize ctx.skipBuf
        if e ≠ 0 then return (false, e, calls, st)
        else y4mSkip s ctx progress todo (i + 1) st (if progress then calls ++ [i + 1] else calls)

/-- `y4m_reader_seek_frame` (y4m.c:191-206). -/
def y4mSeek (s : Sys) (ctx : Y4mCtx) (offset : ℕ) (progress : Bool) : M (Bool × RDError × List ℕ × Y4mCtx) := do
  touch ctx.block
  touchFile ctx.f
  let (ret, e, calls, st) ← M.lift (y4mSkip s ctx progress offset 0 ctx.f.st [])
  return (ret, e, calls, { ctx with f := { ctx.f with st := st } })

end Verif
