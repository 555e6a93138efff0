import Verif.Spec.Image
import Verif.Spec.Formats

/-!
# What the readers on top of libraries rely on

Descriptions of what the libraries do with a file, independent of how the readers use them.
-/

namespace Verif

open Spec

/-- Opening the image and any sequence of calls on it is defined, however much memory there is. -/
def Defined (m : M Opened) : Prop :=
  ∀ w : World, w.WF → ∃ o w1, m w = some (o, w1) ∧ (o.error = RDEOK → ∀ ops, ∃ r, session ops o.image o.buf w1 = some r)

/-! ## libjpeg -/

/-- What a call into libjpeg comes to, messages aside. -/
def JRet.value {α : Type} : JRet α → Option α
  | .ret _ a => some a
  | .exit => none

/-- What libjpeg makes of a file: state, width, height, `rec_outbuf_height`; `none` if it gives up. -/
def Jpeg.startup (lib : Jpeg) (bytes : List UInt8) : Option (ℕ × ℕ × ℕ × ℕ) :=
  match lib.create.value, (lib.header bytes).value with
  | some (), some st => (lib.start st).value
  | _, _ => none

/-- From state `st`, libjpeg delivers these rows, at least one and at most `rec` per call, without a message. -/
inductive Jpeg.Delivers (lib : Jpeg) (rec' : ℕ) : (st : ℕ) → (rows : List (List UInt8)) → Prop where
  | done (st : ℕ) : lib.Delivers rec' st []
  | more {st st' : ℕ} {now later : List (List UInt8)} : lib.scanlines st rec' = .ret false (now, st') → now ≠ [] →
    now.length ≤ rec' → lib.Delivers rec' st' later → lib.Delivers rec' st (now ++ later)

/-- libjpeg decodes the file to these rows without a message after the header.  One row is recommended per call, or two. -/
structure Jpeg.Decodes (lib : Jpeg) (bytes : List UInt8) (width height : ℕ) (rows : List (List UInt8)) : Prop where
  startup : ∃ st rec', lib.startup bytes = some (st, width, height, rec') ∧ rec' ≤ 2 ∧ lib.Delivers rec' st rows
  height : rows.length = height
  width : ∀ r ∈ rows, r.length = width

/-- While decoding `lines` more lines libjpeg uses its error manager, for a message or to give up. -/
inductive Jpeg.Complains (lib : Jpeg) (rec' : ℕ) : (st lines : ℕ) → Prop where
  | exit {st lines : ℕ} : 0 < lines → lib.scanlines st rec' = .exit → lib.Complains rec' st lines
  | message {st lines : ℕ} {r : List (List UInt8) × ℕ} : 0 < lines → lib.scanlines st rec' = .ret true r → lib.Complains rec' st lines
  | later {st st' lines : ℕ} {now : List (List UInt8)} : 0 < lines → lib.scanlines st rec' = .ret false (now, st') →
    lib.Complains rec' st' (lines - now.length) → lib.Complains rec' st lines

/-! ## libpng -/

/-- The combinations of colour type and bit depth there are in PNG, and the colour types that can have a tRNS chunk.  libpng
refuses or ignores all others. -/
def PngInfo.Legal (i : PngInfo) : Prop :=
  (i.color = 0 ∧ i.depth ∈ [1, 2, 4, 8, 16] ∨ i.color = 2 ∧ i.depth ∈ [8, 16] ∨ i.color = 3 ∧ i.depth ∈ [1, 2, 4, 8] ∨
    i.color = 4 ∧ i.depth ∈ [8, 16] ∨ i.color = 6 ∧ i.depth ∈ [8, 16]) ∧ (i.trns = true → i.color ∈ [0, 2, 3])

/-- A pixel of 8 bit samples. -/
inductive Dot where
  | gray (v : UInt8)
  | colour (r g b : UInt8)

namespace Dot

/-- The bytes of a pixel. -/
def bytes : Dot → List UInt8
  | gray v => [v]
  | colour r g b => [r, g, b]

/-- The brightness of a pixel: the mean of its samples in `float` arithmetic, scaled to 1. -/
def sample : Dot → Fl
  | gray v => normal 255 v.toNat
  | colour r g b => binary32.div (binary32.add (binary32.add (normal 255 r.toNat) (normal 255 g.toNat)) (normal 255 b.toNat)) (binary32.ofNat 3)

/-- Colour or gray. -/
def isColour : Dot → Bool
  | gray _ => false
  | colour _ _ _ => true

end Dot

/-- From state `st` libpng delivers these rows. -/
inductive Png.Delivers (lib : Png) : (st : ℕ) → (rows : List (List UInt8)) → Prop where
  | done (st : ℕ) : lib.Delivers st []
  | more {st st' : ℕ} {f : ℕ → UInt8} {now : List UInt8} {later : List (List UInt8)} : lib.row st = .ret (f, st') →
    (∀ j (h : j < now.length), f j = now[j]) → lib.Delivers st' later → lib.Delivers st (now :: later)

/-- What libpng makes of a file: the header and its state; `none` if it gives up before the image data or is not asked. -/
def Png.startup (lib : Png) (file : List UInt8) : Option (PngInfo × ℕ) :=
  if file.take 8 = [0x89, 0x50, 0x4E, 0x47, 0x0D, 0x0A, 0x1A, 0x0A] then
    match lib.info (file.drop 8), lib.update with
    | .ret r, .ret () => some r
    | _, _ => none
  else none

/-- libpng decodes the file to these rows of pixels; images with a palette count as colour. -/
structure Png.Decodes (lib : Png) (file : List UInt8) (i : PngInfo) (rows : List (List Dot)) : Prop where
  startup : ∃ st, lib.startup file = some (i, st) ∧ lib.Delivers st (rows.map (fun r => (r.map Dot.bytes).flatten)) ∧ lib.end' = .ret ()
  legal : i.Legal
  height : rows.length = i.height
  width : ∀ r ∈ rows, r.length = i.width
  kind : ∀ r ∈ rows, ∀ d ∈ r, d.isColour = decide (i.color ∈ [2, 3, 6])

/-! ## MagickWand -/

/-- From state `st` the wand shows these images, and the export of each succeeds. -/
inductive Magick.Shows (lib : Magick) (width height : ℕ) : (st : ℕ) → (frames : List (List Fl)) → Prop where
  | done {st : ℕ} : lib.next st = none → lib.Shows width height st []
  | more {st st' : ℕ} {f : ℕ → Fl} {frame : List Fl} {frames : List (List Fl)} : lib.next st = some st' →
    lib.export' st' width height = some f → frame.length = width * height → (∀ j (h : j < frame.length), f j = frame[j]) →
    lib.Shows width height st' frames → lib.Shows width height st (frame :: frames)

/-! ## FFmpeg -/

/-- What `avformat_open_input` is asked for. -/
def Ffmpeg.url (name : List UInt8) : List UInt8 := if name = cs "-" then cs "pipe:" else name

/-- The result of the first call that fails while opening, 0 if none does. -/
def Ffmpeg.failure (lib : Ffmpeg) (name : List UInt8) : ℤ :=
  if lib.openInput (Ffmpeg.url name) ≠ 0 then lib.openInput (Ffmpeg.url name)
  else if lib.findInfo < 0 then lib.findInfo
  else if lib.bestStream < 0 then lib.bestStream
  else if lib.toContext < 0 then lib.toContext
  else if lib.open2 ≠ 0 then lib.open2
  else if lib.swsInit < 0 then lib.swsInit
  else 0

/-- From state `st` the demuxer comes to the next packet of stream `idx` (`more`), or to the end, in `n` steps. -/
inductive Ffmpeg.Packet (lib : Ffmpeg) (idx : ℤ) : (n st : ℕ) → (more : Bool) → (st' : ℕ) → Prop where
  | found {st st' : ℕ} : lib.readPacket st = (0, idx, st') → lib.Packet idx 1 st true st'
  | over {st st' : ℕ} {e j : ℤ} : lib.readPacket st = (e, j, st') → e ≠ 0 → lib.Packet idx 1 st false st'
  | skip {n st st1 st' : ℕ} {j : ℤ} {more : Bool} : lib.readPacket st = (0, j, st1) → j ≠ idx → lib.Packet idx n st1 more st' →
    lib.Packet idx (n + 1) st more st'

/-- From state `st` the decoder, fed with the packets of stream `idx`, comes to a frame (`r = 0`) or to an error in `n` rounds. -/
inductive Ffmpeg.Comes (lib : Ffmpeg) (idx : ℤ) : (n st : ℕ) → (r : ℤ) → (st' : ℕ) → Prop where
  | now {st st' : ℕ} {r : ℤ} : lib.receive st = (r, st') → r ≠ lib.again → lib.Comes idx 1 st r st'
  | refused {k st st1 st2 st' : ℕ} {r r' : ℤ} {more : Bool} : lib.receive st = (r', st1) → r' = lib.again → lib.Packet idx k st1 more st2 →
    k ≤ lib.patience → lib.send st2 more = (r, st') → r ≠ 0 → lib.Comes idx 1 st r st'
  | fed {n k st st1 st2 st3 st' : ℕ} {r r' : ℤ} {more : Bool} : lib.receive st = (r', st1) → r' = lib.again → lib.Packet idx k st1 more st2 →
    k ≤ lib.patience → lib.send st2 more = (0, st3) → lib.Comes idx n st3 r st' → lib.Comes idx (n + 1) st r st'

/-- From state `st` the frames of stream `idx` are these, and then there is the end, for good. -/
inductive Ffmpeg.Shows (lib : Ffmpeg) (idx : ℤ) (size : ℕ) : (st : ℕ) → (frames : List (List Fl)) → Prop where
  | done {n st st' : ℕ} : lib.Comes idx n st lib.eof st' → n ≤ lib.patience → lib.receive st' = (lib.eof, st') → lib.eof ≠ 0 →
    lib.eof ≠ lib.again → lib.Shows idx size st []
  | more {n st st' : ℕ} {e : ℤ} {f : ℕ → Fl} {frame : List Fl} {frames : List (List Fl)} : lib.Comes idx n st 0 st' → n ≤ lib.patience →
    lib.scale st' = (e, f) → 0 ≤ e → frame.length = size → (∀ j (h : j < frame.length), f j = frame[j]) → lib.Shows idx size st' frames →
    lib.Shows idx size st (frame :: frames)

/-! ## A build with libraries -/

/-- The built-in readers left out, and the libraries present. -/
structure Libs where
  omitPgm : Bool
  omitPfm : Bool
  omitY4m : Bool
  jpeg : Option Jpeg
  png : Option Png
  ffmpeg : Option Ffmpeg
  magick : Option Magick

/-- The readers of such a build. -/
def Libs.io (libs : Libs) (s : Sys) (fs : Fs) : Io where
  fs := fs
  omitPgm := libs.omitPgm
  omitPfm := libs.omitPfm
  omitY4m := libs.omitY4m
  libjpeg := libs.jpeg.map (jpegReader s fs)
  libpng := libs.png.map (pngReader s fs)
  ffmpeg := libs.ffmpeg.map (ffmpegReader s)
  magickwand := libs.magick.map (magickReader s fs)

/-- FFmpeg's error numbers that come from the system are negated `errno`s. -/
def Libs.Errnos (libs : Libs) : Prop := ∀ lib, libs.ffmpeg = some lib → ∀ a, lib.isErrno a = true → a < 0

/-- The format with this extension has a reader of its own in this build. -/
def Libs.Known (libs : Libs) (ext : List UInt8) : Prop :=
  (SameText ext (cs "pgm") ∧ libs.omitPgm = false) ∨ (SameText ext (cs "pfm") ∧ libs.omitPfm = false) ∨
  (SameText ext (cs "y4m") ∧ libs.omitY4m = false) ∨ ((SameText ext (cs "jpg") ∨ SameText ext (cs "jpeg")) ∧ libs.jpeg.isSome) ∨
  (SameText ext (cs "png") ∧ libs.png.isSome)

end Verif
