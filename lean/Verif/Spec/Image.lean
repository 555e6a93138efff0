import Verif.Model.Image
import Verif.Spec.Plenty

/-!
# What reading images means

A client opens an image and then reads and seeks in any order.  The reference is a list of frames.
-/

namespace Verif

/-- The named file, or standard input for `-`, has these contents and can or cannot seek. -/
def Fs.Holds (fs : Fs) (name : List UInt8) (r : List UInt8 × Kind) : Prop :=
  (name = cs "-" ∧ fs.stdin = r) ∨ (name ≠ cs "-" ∧ fs.fopen name = .inr r)

namespace Spec

/-- A call on an open image. -/
inductive IOp where
  | read
  | seek (k : ℕ)
deriving DecidableEq, Repr

/-- What the caller sees: a read gives the result, the error and the contents of the image buffer; a seek the result, the
error and the arguments of the progress callback. -/
inductive IObs where
  | read (ret : Bool) (e : RDError) (data : List Fl)
  | seek (ret : Bool) (e : RDError) (calls : List ℕ)
deriving DecidableEq, Repr

/-- The call reports that the images have come to their end. -/
def IObs.ended : IObs → Bool
  | .read ret e _ => !ret && e == RDEOK
  | .seek ret e _ => !ret && e == RDEOK

/-- Perform one call through the API. -/
def istep (op : IOp) (i : Option RDImage) (buf : Option (Buf Fl)) : M (IObs × Option RDImage × Option (Buf Fl)) :=
  match op with
  | .read => do
    let (ret, e, buf, i) ← readImageFrame i buf 0
    return (.read ret e ((buf.map Buf.data).getD []), i, buf)
  | .seek k => do
    let (ret, e, calls, i) ← seekFrame i k true
    return (.seek ret e calls, i, buf)

/-- Perform a sequence of calls. -/
def session : List IOp → Option RDImage → Option (Buf Fl) → M (List IObs × Option RDImage × Option (Buf Fl))
  | [], i, buf => pure ([], i, buf)
  | op :: ops, i, buf => do
    let (o, i, buf) ← istep op i buf
    let (os, i, buf) ← session ops i buf
    return (o :: os, i, buf)

/-- The reference: what the calls show when `frames` are still to come and the buffer holds `data`. -/
def playback : List IOp → (frames : List (List Fl)) → (data : List Fl) → List IObs
  | [], _, _ => []
  | .read :: ops, [], data => .read false RDEOK data :: playback ops [] data
  | .read :: ops, f :: frames, _ => .read true RDEOK f :: playback ops frames f
  | .seek k :: ops, frames, data =>
    .seek (k ≤ frames.length) RDEOK ((List.range (min k frames.length)).map (· + 1)) :: playback ops (frames.drop k) data

/-- Opening the image shows size `width` x `height`, and after that every sequence of calls is a playback of `frames`.  When
the image is closed and its buffer freed, no blocks or streams are left behind. -/
def Plays (open' : M Opened) (width height : ℕ) (frames : List (List Fl)) (ok : List IOp → Prop) : Prop :=
  ∀ w : World, w.WF → Plenty w → ∃ i buf w1,
    open' w = some (⟨some i, width, height, some buf, RDEOK⟩, w1) ∧ buf.data.length = width * height ∧
    ∀ ops, ok ops → ∃ i' buf' w2, session ops (some i) (some buf) w1 = some ((playback ops frames buf.data, i', some buf'), w2) ∧
      ∃ w3, (do closeImage i'; free (some buf'.id)) w2 = some ((), w3) ∧
        (∀ b, b ∈ w3.live ↔ b ∈ w.live) ∧ (∀ f, f ∈ w3.files ↔ f ∈ w.files)

/-- Opening the image shows size `width` x `height`, and reading it frame by frame gives `frames` and then stops with `e`. -/
def Yields (open' : M Opened) (width height : ℕ) (frames : List (List Fl)) (e : RDError) : Prop :=
  ∀ w : World, w.WF → Plenty w → ∃ i buf w1,
    open' w = some (⟨some i, width, height, some buf, RDEOK⟩, w1) ∧ buf.data.length = width * height ∧
    ∃ last i' buf' w2, session (List.replicate (frames.length + 1) .read) (some i) (some buf) w1 =
      some ((frames.map (.read true RDEOK) ++ [.read false e last], i', buf'), w2)

/-- The same blocks are live and the same streams open. -/
def Unchanged (w w' : World) : Prop := (∀ b, b ∈ w'.live ↔ b ∈ w.live) ∧ (∀ f, f ∈ w'.files ↔ f ∈ w.files)

/-- Opening fails with `e`, and nothing is left behind. -/
def Rejects (open' : M Opened) (e : RDError) : Prop :=
  ∀ w : World, w.WF → Plenty w → ∃ w', open' w = some (⟨none, 0, 0, none, e⟩, w') ∧ Unchanged w w'

/-- Closing an image and freeing its buffer. -/
def release (i : Option RDImage) (b : Option (Buf Fl)) : M Unit := do closeImage i; free (b.map Buf.id)

/-- What opening an image in `w` may come to. -/
structure OpenOutcome (s : Sys) (wantBuf : Bool) (w : World) (o : Opened) (w' : World) : Prop where
  image : o.image = none ↔ o.error ≠ RDEOK
  failed : o.error ≠ RDEOK → o.width = 0 ∧ o.height = 0 ∧ o.buf = none ∧ Unchanged w w'
  size : o.error = RDEOK → 0 < o.width ∧ 0 < o.height ∧ o.width * o.height ≤ s.cfg.pixelMax
  buf : o.error = RDEOK → wantBuf = true → ∃ b, o.buf = some b ∧ b.data.length = o.width * o.height ∧ b.id ∉ w.live ∧ b.id ∈ w'.live
  noBuf : wantBuf = false → o.buf = none
  release : o.error = RDEOK → ∀ ops seen i b w2, session ops o.image o.buf w' = some ((seen, i, b), w2) →
    ∃ w3, release i b w2 = some ((), w3) ∧ Unchanged w w3

/-- Lower case, letter by letter. -/
def lower (b : UInt8) : UInt8 := if 65 ≤ b.toNat ∧ b.toNat ≤ 90 then b + 32 else b

/-- Equal up to case. -/
def SameText (a b : List UInt8) : Prop := a.map lower = b.map lower

/-- The types with a known extension. -/
def mimeTypes : List (List UInt8 × List UInt8) :=
  [(cs "image/jpeg", cs "jpg"), (cs "image/png", cs "png"), (cs "video/yuv4mpeg", cs "y4m"), (cs "image/x-portable-graymap", cs "pgm"),
    (cs "image/x-portable-floatmap", cs "pfm")]

/-- `ext` is the extension that decides about the reader. -/
inductive Extension (name : List UInt8) : Option (List UInt8) → List UInt8 → Prop where
  | mime (t ext : List UInt8) : (t, ext) ∈ mimeTypes → Extension name (some t) ext
  | unknown (t : List UInt8) : ch '/' ∈ t → (∀ ext, (t, ext) ∉ mimeTypes) → Extension name (some t) []
  | given (t : List UInt8) : ch '/' ∉ t → Extension name (some t) t
  | suffix (stem ext : List UInt8) : name = stem ++ ch '.' :: ext → ch '.' ∉ ext → Extension name none ext
  | bare : ch '.' ∉ name → Extension name none []

/-- `x` is the first in the list with `p`. -/
def First {α : Type} (p : α → Prop) (l : List α) (x : α) : Prop := ∃ l1 l2, l = l1 ++ x :: l2 ∧ p x ∧ ∀ y ∈ l1, ¬ p y

/-- Characters that may be passed to `tolower`: `char` is unsigned, or they are ASCII. -/
def Plainly (c : Cfg) (t : List UInt8) : Prop := c.charSigned = false ∨ ∀ b ∈ t, b.toNat < 128

/-- Opening with a given reader: the handle uses it. -/
def OpensWith (m : M Opened) (s : Sys) (r : Reader) (name : List UInt8) (wantBuf : Bool) : Prop :=
  m = openImage s (some r) name wantBuf ∧ ∀ w o w' i, m w = some (o, w') → o.image = some i → i.reader = some r

/-- Refusing with the error for unknown formats, unless there is not even memory for the handle. -/
def Refuses (m : M Opened) : Prop :=
  ∀ w, w.WF → ∃ o w', m w = some (o, w') ∧ (o.error = RDEUNSUPP ∨ o.error = RDENOMEM ∧ ∃ j, w.sched j = false)

/-- The readers compiled in, each with its name. -/
def named (s : Sys) (io : Io) : List (List UInt8 × Reader) :=
  (if io.omitPgm then [] else [(cs "PGM", pgmReader s io.fs)]) ++ (if io.omitPfm then [] else [(cs "PFM", pfmReader s io.fs)]) ++
    (if io.omitY4m then [] else [(cs "Y4M", y4mReader s io.fs)]) ++ (io.libjpeg.map (fun r => (cs "libjpeg", r))).toList ++
    (io.libpng.map (fun r => (cs "libpng", r))).toList ++ (io.ffmpeg.map (fun r => (cs "FFmpeg", r))).toList ++
    (io.magickwand.map (fun r => (cs "MagickWand", r))).toList

/-- Only the readers that come with the library are compiled in. -/
def _root_.Verif.Io.Plain (io : Io) : Prop := io.libjpeg = none ∧ io.libpng = none ∧ io.ffmpeg = none ∧ io.magickwand = none

end Spec

end Verif
