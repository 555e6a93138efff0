import Verif.Model.Image.Jpeg

/-!
# The PNG reader (lib/image/libpng.c)

What libpng reads from the file is given by an arbitrary `Png`.  Modelled, after libpng 1.6, is what libpng does with the
reader's requests: the transformations and the row format they lead to (`png_read_update_info`), and which calls of
`png_read_row` store which pixels.

Simplifications: libpng's position in the file is part of its own state; `png_destroy_read_struct` frees two blocks.
-/

namespace Verif

/-- What a call into libpng comes to: it returns, or it gives up and `png_longjmp` jumps to the buffer inside `png_ptr` (libpng.c:54-77, 115-125). -/
inductive PRet (α : Type) where
  | ret (a : α)
  | exit
deriving DecidableEq, Repr

/-- What `png_read_info` finds (libpng.c:78-95). -/
structure PngInfo where
  width : ℕ
  height : ℕ
  depth : ℕ
  /-- `PNG_COLOR_TYPE_*` -/
  color : ℕ
  /-- a valid tRNS chunk -/
  trns : Bool
  interlaced : Bool
deriving DecidableEq, Repr

/-- The contents of a file as libpng decodes them (libpng.c:54-97, 127-133). -/
structure Png where
  /-- `png_read_info` on a file that continues with these bytes -/
  info : List UInt8 → PRet (PngInfo × ℕ)
  /-- whether `png_read_update_info` returns -/
  update : PRet Unit
  /-- the next row of image data, transformed and, if it belongs to a pass, spread to the width of the image: byte `i` of the row,
  and the state -/
  row : ℕ → PRet ((ℕ → UInt8) × ℕ)
  /-- whether `png_read_end` returns -/
  end' : PRet Unit

/-- `PNG_COLOR_MASK_PALETTE` (libpng.c:86-90). -/
def maskPalette : ℕ := 1
/-- `PNG_COLOR_MASK_COLOR` (libpng.c:113). -/
def maskColor : ℕ := 2
/-- `PNG_COLOR_MASK_ALPHA` (libpng.c:86-88). -/
def maskAlpha : ℕ := 4
/-- `PNG_COLOR_TYPE_PALETTE` (libpng.c:90). -/
def typePalette : ℕ := 3

/-- The transformations the reader can ask for (libpng.c:82-95). -/
structure PngFlags where
  /-- `PNG_EXPAND` -/
  expand : Bool
  /-- `PNG_EXPAND_tRNS` -/
  expandTrns : Bool
  /-- `PNG_STRIP_ALPHA` -/
  stripAlpha : Bool
  /-- `PNG_16_TO_8` -/
  strip16 : Bool
deriving DecidableEq, Repr

/-- The requests of `libpng_reader_open` (libpng.c:82-95).  `png_set_tRNS_to_alpha` and `png_set_palette_to_rgb` set
`PNG_EXPAND` and `PNG_EXPAND_tRNS`, `png_set_expand_gray_1_2_4_to_8` sets `PNG_EXPAND`. -/
def pngRequests (i : PngInfo) : PngFlags :=
  let color := if i.trns then i.color ||| maskAlpha else i.color
  let palette := color == typePalette
  let wide := i.depth == 16
  { expand := i.trns || palette || (!wide && decide (i.depth < 8))
    expandTrns := i.trns || palette
    stripAlpha := color &&& maskAlpha != 0
    strip16 := wide }

/-- The colour type and bit depth after `png_read_update_info`: `png_init_read_transformations` ignores transparency that is
going to be stripped, `png_read_transform_info` does the rest (libpng.c:97). -/
def pngTransformed (i : PngInfo) (r : PngFlags) : ℕ × ℕ :=
  let trns := i.trns && !r.stripAlpha
  let expandTrns := r.expandTrns && !r.stripAlpha
  let (color, depth) :=
    if r.expand then
      if i.color = typePalette then (if trns then 6 else 2, 8)
      else (if trns && expandTrns then i.color ||| maskAlpha else i.color, max i.depth 8)
    else (i.color, i.depth)
  let depth := if r.strip16 && depth == 16 then 8 else depth
  let color := if r.stripAlpha then color &&& 3 else color
  (color, depth)

/-- Samples per pixel of a colour type in libpng (libpng.c:113). -/
def pngChannels (color : ℕ) : ℕ :=
  (if color = typePalette then 1 else if color &&& maskColor ≠ 0 then 3 else 1) + (if color &&& maskAlpha ≠ 0 then 1 else 0)

/-- `PNG_ROWBYTES` (libpng.c:128-130). -/
def pngRowBytes (color depth width : ℕ) : ℕ :=
  let pixel := pngChannels color * depth
  if 8 ≤ pixel then width * (pixel / 8) else (width * pixel + 7) / 8

/-- `struct libpng_context` (libpng.c:16-21) and what it points to: `color`, `depth` after the transformations, `numRows` the
number of rows per pass, `pass` and `row` the position. -/
structure PngCtx where
  block : ℕ
  f : File
  eof : Bool
  png : Option ℕ
  info : Option ℕ
  width : ℕ
  color : ℕ
  depth : ℕ
  interlaced : Bool
  numRows : ℕ
  pass : ℕ
  row : ℕ
  state : ℕ
deriving DecidableEq, Repr

/-- `libpng_reader_close` (libpng.c:23-33). -/
def pngClose (ctx : Option PngCtx) : M Unit :=
  match ctx with
  | none => pure ()
  | some ctx => do
    touch ctx.block
    if ctx.png.isSome then
      free ctx.png
      free ctx.info
    closeFile ctx.f
    free (some ctx.block)

/-- The signature (libpng.c:58). -/
def pngSignature : List UInt8 := [137, 80, 78, 71, 13, 10, 26, 10]

/-- The rows `png_read_update_info` prepares for (`png_read_start_row`): interlace handling has not been asked for at that
point (libpng.c:97), so that in an interlaced image there are those of the first pass. -/
def pngNumRows (i : PngInfo) : ℕ := if i.interlaced then (i.height + 7) / 8 else i.height

/-- `libpng_reader_open` (libpng.c:35-104): context, width, height, error. -/
def pngOpen (fs : Fs) (lib : Png) (filename : List UInt8) : M (Option PngCtx × ℕ × ℕ × RDError) := do
  match ← malloc with
  | none => return (none, 0, 0, RDENOMEM)
  | some b =>
    match ← openFile fs filename with
    | .inl e =>
      free (some b)
      return (none, 0, 0, e)
    | .inr f =>
      let ctx : PngCtx := ⟨b, f, false, none, none, 0, 0, 0, false, 0, 0, 0, 0⟩
      let (header, st) := f.st.fread 8
      if header ≠ pngSignature then
        pngClose (some ctx)
        return (none, 0, 0, RDEINVAL)
      else
        match ← malloc with
        | none =>
          pngClose (some ctx)
          return (none, 0, 0, RDENOMEM)
        | some png =>
          match ← malloc with
          | none =>
            pngClose (some { ctx with png := some png })
            return (none, 0, 0, RDENOMEM)
          | some info =>
            let ctx := { ctx with png := some png, info := some info }
            match lib.info st.rest with
            | .exit =>
              pngClose (some ctx)
              return (none, 0, 0, RDEINVAL)
            | .ret (i, state) =>
              match lib.update with
              | .exit =>
                pngClose (some ctx)
                -- `*width` and `*height` have been set (libpng.c:79-80)
                return (none, i.width, i.height, RDEINVAL)
              | .ret () =>
                let (color, depth) := pngTransformed i (pngRequests i)
                return (some { ctx with
                  width := i.width, color := color, depth := depth, interlaced := i.interlaced, numRows := pngNumRows i,
                  state := state }, i.width, i.height, RDEOK)

/-- Passes of an interlaced image: `png_read_row` has nothing to read for these rows (`default` in libpng is the last pass) (libpng.c:127-130). -/
def pngSkips (width pass row : ℕ) : Bool :=
  match pass with
  | 0 => row % 8 != 0
  | 1 => row % 8 != 0 || decide (width < 5)
  | 2 => row % 8 != 4
  | 3 => row % 4 != 0 || decide (width < 3)
  | 4 => row % 4 != 2
  | 5 => row % 2 != 0 || decide (width < 2)
  | _ => row % 2 == 0

/-- Whether pixel `x` of a row belongs to the pass (libpng.c:127-130). -/
def pngInPass (pass x : ℕ) : Bool :=
  match pass with
  | 0 => x % 8 == 0
  | 1 => x % 8 == 4
  | 2 => x % 4 == 0
  | 3 => x % 4 == 2
  | 4 => x % 2 == 0
  | 5 => x % 2 == 1
  | _ => true

/-- `png_read_finish_row`: on to the next row or pass (libpng.c:130). -/
def PngCtx.next (ctx : PngCtx) : PngCtx :=
  if ctx.row + 1 < ctx.numRows then { ctx with row := ctx.row + 1 }
  else if ctx.interlaced then { ctx with row := 0, pass := ctx.pass + 1 }
  else { ctx with row := ctx.row + 1, pass := 7 }

/-- `png_combine_row`: store the bytes of the pixels in the pass (libpng.c:130). -/
def pngCombine (inPass : ℕ → Bool) (bytes : ℕ → UInt8) (it : ℕ) : (todo i : ℕ) → List (Option UInt8) → Option (List (Option UInt8))
  | 0, _, buf => some buf
  | todo + 1, i, buf => do
    let buf ← if inPass i then wr buf (it + i) (some (bytes i)) else some buf
    pngCombine inPass bytes it todo (i + 1) buf

/-- `png_read_row(png_ptr,it,NULL)` with interlace handling on: nothing for rows that are not in the pass, failure after the
last row of the last pass (libpng.c:130). -/
def pngReadRow (lib : Png) (ctx : PngCtx) (buf : List (Option UInt8)) (it : ℕ) : Option (PRet (List (Option UInt8) × PngCtx)) :=
  if ctx.interlaced && pngSkips ctx.width ctx.pass ctx.row then some (.ret (buf, ctx.next))
  else if 7 ≤ ctx.pass then some .exit
  else
    match lib.row ctx.state with
    | .exit => some .exit
    | .ret (bytes, state) => do
      let pixel := max 1 (pngChannels ctx.color * ctx.depth / 8)
      let buf ← pngCombine (fun i => !ctx.interlaced || pngInPass ctx.pass (i / pixel)) bytes it (pngRowBytes ctx.color ctx.depth ctx.width) 0 buf
      return .ret (buf, { ctx with state := state }.next)

/-- The loop over the rows (libpng.c:128-130). -/
def pngRows (lib : Png) (step : ℕ) : (todo it : ℕ) → PngCtx → List (Option UInt8) → Option (PRet (List (Option UInt8) × PngCtx))
  | 0, _, ctx, buf => some (.ret (buf, ctx))
  | todo + 1, it, ctx, buf => do
    match ← pngReadRow lib ctx buf it with
    | .exit => return .exit
    | .ret (buf, ctx) => pngRows lib step todo (it + step) ctx buf

/-- The loop over the passes (libpng.c:127-131). -/
def pngPasses (lib : Png) (step height : ℕ) : (todo : ℕ) → PngCtx → List (Option UInt8) → Option (PRet (List (Option UInt8) × PngCtx))
  | 0, ctx, buf => some (.ret (buf, ctx))
  | todo + 1, ctx, buf => do
    match ← pngRows lib step height 0 ctx buf with
    | .exit => return .exit
    | .ret (buf, ctx) => pngPasses lib step height todo ctx buf

/-- The sum of the channels of a pixel (libpng.c:136-138).  Using a byte that was never stored is counted as undefined. -/
def pngSum (buf : List (Option UInt8)) (start : ℕ) : (todo c : ℕ) → Fl → Option Fl
  | 0, _, acc => some acc
  | todo + 1, c, acc => do
    let b ← (← rd buf (start + c))
    pngSum buf start todo (c + 1) (binary32.add acc (byteSample b))

/-- The conversion loop (libpng.c:135-140). -/
def pngConvert (buf : List (Option UInt8)) (channels : ℕ) : (todo i : ℕ) → List Fl → Option (List Fl)
  | 0, _, image => some image
  | todo + 1, i, image => do
    let sum ← pngSum buf (i * channels) channels 0 (binary32.ofNat 0)
    pngConvert buf channels todo (i + 1) (← wr image i (binary32.div sum (binary32.ofNat channels)))

/-- `libpng_reader_read_frame` (libpng.c:106-146); `png_set_interlace_handling` returns 7 for an interlaced image. -/
def pngRead (s : Sys) (lib : Png) (ctx : PngCtx) (image : List Fl) (width height : ℕ) : M (Bool × RDError × List Fl × PngCtx) := do
  let c := s.cfg
  touch ctx.block
  if ctx.eof then return (false, RDEOK, image, ctx)
  else
    let png ← need ctx.png
    touch png
    let channels := if ctx.color &&& maskColor ≠ 0 then 3 else 1
    match ← malloc with
    | none => return (false, RDENOMEM, image, { ctx with eof := true })
    | some b =>
      let passes := if ctx.interlaced then 7 else 1
      match ← M.lift (pngPasses lib (c.sz (width * channels)) height passes ctx
          (List.replicate (c.sz (pixels c width height * channels)) none)) with
      | .exit =>
        free (some b)
        return (false, RDEINVAL, image, { ctx with eof := true })
      | .ret (buf, ctx) =>
        match lib.end' with
        | .exit =>
          free (some b)
          return (false, RDEINVAL, image, { ctx with eof := true })
        | .ret () =>
          let image ← M.lift (pngConvert buf channels (pixels c width height) 0 image)
          free (some b)
          return (true, RDEOK, image, { ctx with eof := true })

/-- `libpng_reader_seek_frame` (libpng.c:148-157). -/
def pngSeek (ctx : PngCtx) (offset : ℕ) (progress : Bool) : M (Bool × RDError × List ℕ × PngCtx) := do
  touch ctx.block
  let (ret, calls, eof) := singleSeek ctx.eof offset progress
  return (ret, RDEOK, calls, { ctx with eof := eof })

end Verif
