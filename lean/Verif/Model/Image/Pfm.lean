import Verif.Model.Image.File

/-! # The PFM reader (lib/image/pfm.c) -/

namespace Verif

/-- The `float` with the given 32 bit pattern (IEEE 754 binary32; NaN payloads are not kept) (pfm.c:31, 56). -/
def floatOfBits (n : ℕ) : Fl :=
  let neg := n / 2 ^ 31 % 2 == 1
  let e : ℕ := n / 2 ^ 23 % 256
  let m : ℕ := n % 2 ^ 23
  let sgn : ℚ := if neg then -1 else 1
  if e = 255 then (if m = 0 then .inf neg else .nan neg)
  else if e = 0 then .fin neg (sgn * m * pow2 (-149))
  else .fin neg (sgn * ((2 ^ 23 + m : ℕ) : ℚ) * pow2 ((e : ℤ) - 150))

/-- The `float` stored in four bytes on this host (pfm.c:22, 43). -/
def nativeFloat (c : Cfg) (b : List UInt8) : Fl :=
  floatOfBits ((if c.littleEndian then b.reverse else b).foldl (fun n d => 256 * n + d.toNat) 0)

/-- `struct pfm_context` (pfm.c:10-15). -/
structure PfmCtx where
  block : ℕ
  f : File
  scale : Fl
  format : UInt8
  headerConsumed : Bool
deriving DecidableEq, Repr

/-- The test `(endianness_scale < 0) == little_endian()` (pfm.c:17,20,39). -/
def sameOrder (c : Cfg) (scale : Fl) : Bool := scale.lt (.fin false 0) == c.littleEndian

/-- Successive elements of four bytes (pfm.c:22). -/
def chunks4 : List UInt8 → List (List UInt8)
  | a :: b :: c :: d :: l => [a, b, c, d] :: chunks4 l
  | _ => []

/-- Store consecutive floats at an offset; out of bounds is undefined (pfm.c:22). -/
def storeFloats (image : List Fl) (off : ℕ) (v : List Fl) : Option (List Fl) :=
  if off + v.length ≤ image.length then some (image.take off ++ v ++ image.drop (off + v.length)) else none

/-- Rows of a grey plane in host byte order (pfm.c:21-23).  After a short read the row is unspecified. -/
def pfmGrayRows (s : Sys) (width height : ℕ) : (todo j : ℕ) → Stream → List Fl → Option (Bool × Stream × List Fl)
  | 0, _, st, image => some (true, st, image)
  | todo + 1, j, st, image => do
    let off := s.cfg.sz ((height - j - 1) * width)
    let (bytes, st) := st.fread (4 * width)
    if bytes.length < 4 * width then
      let image ← storeFloats image off (List.replicate width s.env.junk)
      return (false, st, image)
    else
      let image ← storeFloats image off ((chunks4 bytes).map (nativeFloat s.cfg))
      pfmGrayRows s width height todo (j + 1) st image

/-- One pixel of `n` floats in either byte order (pfm.c:28-31, 42-44, 51-56); `none` if the file is too short. -/
def pfmPixel (c : Cfg) (swap : Bool) (n : ℕ) (st : Stream) : Option (List Fl) × Stream :=
  let (bytes, st) := st.fread (4 * n)
  if bytes.length < 4 * n then (none, st)
  else (some ((chunks4 bytes).map (fun b => nativeFloat c (if swap then b.reverse else b))), st)

/-- What a pixel contributes to the image: itself, or `(pixel[0] + pixel[1] + pixel[2])/3` (pfm.c:31, 45, 57). -/
def pfmValue : List Fl → Option Fl
  | [v] => some v
  | [r, g, b] => some (binary32.div (binary32.add (binary32.add r g) b) (binary32.ofNat 3))
  | _ => none

/-- The inner loop over one row (pfm.c:27-32, 41-46, 50-58). -/
def pfmRow (c : Cfg) (swap : Bool) (n width height j : ℕ) : (todo i : ℕ) → Stream → List Fl →
    Option (Bool × Stream × List Fl)
  | 0, _, st, image => some (true, st, image)
  | todo + 1, i, st, image =>
    match pfmPixel c swap n st with
    | (none, st) => some (false, st, image)
    | (some p, st) => do
      let v ← pfmValue p
      let image ← wr image (c.sz (c.sz ((height - j - 1) * width) + i)) v
      pfmRow c swap n width height j todo (i + 1) st image

/-- The loop over rows around it (pfm.c:26, 40, 49). -/
def pfmRows (c : Cfg) (swap : Bool) (n width height : ℕ) : (todo j : ℕ) → Stream → List Fl →
    Option (Bool × Stream × List Fl)
  | 0, _, st, image => some (true, st, image)
  | todo + 1, j, st, image => do
    let (ok, st, image) ← pfmRow c swap n width height j width 0 st image
    if ok then pfmRows c swap n width height todo (j + 1) st image else return (false, st, image)

/-- `read_pfm_plane` with `read_pfm_plane_gray`, `read_pfm_plane_rgb` (pfm.c:19-65). -/
def pfmPlane (s : Sys) (st : Stream) (image : List Fl) (width height : ℕ) (scale : Fl) (format : UInt8) :
    Option (Bool × Stream × List Fl) :=
  if format = ch 'f' then
    if sameOrder s.cfg scale then pfmGrayRows s width height height 0 st image
    else pfmRows s.cfg true 1 width height height 0 st image
  else pfmRows s.cfg (!sameOrder s.cfg scale) 3 width height height 0 st image

/-- `pfm_reader_close` (pfm.c:67-75). -/
def pfmClose (ctx : Option PfmCtx) : M Unit :=
  match ctx with
  | none => pure ()
  | some ctx => do
    touch ctx.block
    closeFile ctx.f
    free (some ctx.block)

/-- `fscanf(f,"%zu %zu %f", ...) != 3` (pfm.c:106, 140). -/
def pfmNumbers (c : Cfg) (s : Stream) : Option (Option (ℕ × ℕ × Fl) × Stream) := do
  match ← s.scanUnsigned c.sizeMax true with
  | (.ok width, s) =>
    match ← s.skipSpace.scanUnsigned c.sizeMax true with
    | (.ok height, s) =>
      match ← s.skipSpace.scanFloat with
      | (.ok scale, s) => return (some (width, height, scale), s)
      | (_, s) => return (none, s)
    | (_, s) => return (none, s)
  | (_, s) => return (none, s)

/-- The part of the header after the `P` (pfm.c:102-107, 136-141): format, width, height, scale.  `fscanf(f," ")` never
returns EOF. -/
def pfmFields (c : Cfg) (s : Stream) : Option (Option (UInt8 × ℕ × ℕ × Fl) × Stream) :=
  match s.scanAny with
  | (.ok format, s) =>
    if !(format = ch 'f' || format = ch 'F') then some (none, s)
    else
      let s := s.skipSpace
      let (ok, s) := skipComments (s.rest.length + 1) s
      if !ok then some (none, s)
      else do
        let (r, s) ← pfmNumbers c s
        match r with
        | none => return (none, s)
        | some (width, height, scale) =>
          let (sp, s) := spaceNext s
          if sp then return (some (format, width, height, scale), s) else return (none, s)
  | (_, s) => some (none, s)

/-- The header in `pfm_reader_open` (pfm.c:101-111). -/
def pfmHeader (c : Cfg) (s : Stream) : Option (Option (UInt8 × ℕ × ℕ × Fl) × Stream) :=
  match s.scanChar (ch 'P') with
  | (.ok _, s) => pfmFields c s
  | (_, s) => some (none, s)

/-- `pfm_reader_open` (pfm.c:88-120). -/
def pfmOpen (s : Sys) (fs : Fs) (filename : List UInt8) : M (Option PfmCtx × ℕ × ℕ × RDError) := do
  match ← malloc with
  | none => return (none, 0, 0, RDENOMEM)
  | some b =>
    match ← openFile fs filename with
    | .inl e =>
      free (some b)
      return (none, 0, 0, e)
    | .inr f =>
      let (r, st) ← M.lift (pfmHeader s.cfg f.st)
      match r with
      | none =>
        pfmClose (some ⟨b, { f with st := st }, .fin false 0, 0, false⟩)
        return (none, 0, 0, RDEINVAL)
      | some (format, width, height, scale) =>
        return (some ⟨b, { f with st := st }, scale, format, true⟩, width, height, RDEOK)

/-- `read_header` (pfm.c:122-153): result, error, context afterwards. -/
def pfmReadHeader (c : Cfg) (ctx : PfmCtx) (width height : ℕ) : Option (Bool × RDError × PfmCtx) :=
  if ctx.headerConsumed then some (true, RDEOK, ctx)
  else
    match ctx.f.st.fgetc with
    | (none, st) => some (false, if st.feof then RDEOK else RDEINVAL, { ctx with f := { ctx.f with st := st } })
    | (some b, st) =>
      if b ≠ ch 'P' then some (false, RDEINVAL, { ctx with f := { ctx.f with st := st } })
      else do
        let (r, st) ← pfmFields c st
        let ctx := { ctx with f := { ctx.f with st := st } }
        match r with
        | none => return (false, RDEINVAL, ctx)
        | some (format, w, h, scale) =>
          if w ≠ width ∨ h ≠ height then return (false, RDEINVAL, ctx)
          else return (true, RDEOK, { ctx with scale := scale, format := format })

/-- `pfm_reader_read_frame` (pfm.c:155-169). -/
def pfmRead (s : Sys) (ctx : PfmCtx) (image : List Fl) (width height : ℕ) : M (Bool × RDError × List Fl × PfmCtx) := do
  touch ctx.block
  touchFile ctx.f
  let (ok, e, ctx) ← M.lift (pfmReadHeader s.cfg ctx width height)
  if !ok then return (false, e, image, ctx)
  else
    let (ok, st, image) ← M.lift (pfmPlane s ctx.f.st image width height ctx.scale ctx.format)
    let ctx := { ctx with f := { ctx.f with st := st } }
    if !ok then return (false, RDEINVAL, image, ctx)
    else return (true, RDEOK, image, { ctx with headerConsumed := false })

/-- The loop of `pfm_reader_seek_frame` (pfm.c:186-198). -/
def pfmSkip (s : Sys) (width height bytes : ℕ) (progress : Bool) : (todo i : ℕ) → PfmCtx → Option (List UInt8) → List ℕ →
    Option (Bool × RDError × List ℕ × PfmCtx)
  | 0, _, ctx, _, calls => some (true, RDEOK, calls, ctx)
  | todo + 1, i, ctx, buf, calls => do
    let (ok, e, ctx) ← pfmReadHeader s.cfg ctx width height
    if !ok then return (false, e, calls, ctx)
    else
      let (e, st, buf) ← fskip s ctx.f.st bytes buf
      let ctx := { ctx with f := { ctx.f with st := st } }
      if e ≠ 0 then return (false, e, calls, ctx)
      else
        pfmSkip s width height bytes progress todo (i + 1) { ctx with headerConsumed := false } buf
          (if progress then calls ++ [i + 1] else calls)

/-- `pfm_reader_seek_frame` (pfm.c:171-206). -/
def pfmSeek (s : Sys) (ctx : PfmCtx) (offset : ℕ) (progress : Bool) (width height : ℕ) :
    M (Bool × RDError × List ℕ × PfmCtx) := do
  touch ctx.block
  touchFile ctx.f
  let c := s.cfg
  let imgsize := c.sz (width * height)
  let imgsize := if ctx.format = ch 'F' then c.sz (imgsize * 3) else imgsize
  let bytes := c.sz (imgsize * 4)
  let (seekable, st) ← M.lift (canSeek c ctx.f.st bytes)
  let ctx := { ctx with f := { ctx.f with st := st } }
  if seekable then
    let (ret, e, calls, ctx) ← M.lift (pfmSkip s width height bytes progress offset 0 ctx none [])
    return (ret, e, calls, { ctx with headerConsumed := false })
  else
    match ← malloc with
    | none => return (false, RDENOMEM, [], ctx)
    | some b =>
      let (ret, e, calls, ctx) ← M.lift (pfmSkip s width height bytes progress offset 0 ctx (some (List.replicate bytes 0)) [])
      free (some b)
      return (ret, e, calls, { ctx with headerConsumed := false })

end Verif
