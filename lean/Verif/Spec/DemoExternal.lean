import Verif.Spec.DemoImage
import Verif.Spec.External

/-! # Concrete libraries for examples -/

namespace Verif.Demo

open Spec

/-- A libjpeg that knows one picture of 2 x 3 pixels; it may have something to say (`talks`) or give up (`stops`) before the
last line, and rejects files starting with 0. -/
def jpeg (ends talks stops : Bool) : Jpeg where
  literalEnds := ends
  create := .ret false ()
  header bytes := if bytes.headD 0 = 0 then .exit else .ret true 7
  start st := .ret false (st, 2, 3, 1)
  scanlines st _ :=
    if st = 7 then .ret false ([[0, 255]], 8)
    else if st = 8 then .ret false ([[255, 0]], 9)
    else if st = 9 ∧ stops = false then .ret talks ([[0, 0]], 10)
    else .exit

/-- The three rows. -/
def jpegRows : List (List UInt8) := [[0, 255], [255, 0], [0, 0]]

theorem jpeg_decodes (ends : Bool) : (jpeg ends false false).Decodes pgmBytes 2 3 jpegRows where
  startup := ⟨7, 1, by cases ends <;> decide +kernel, by decide,
    .more (now := [[0, 255]]) (by cases ends <;> rfl) (by simp) (by simp)
      (.more (now := [[255, 0]]) (by cases ends <;> rfl) (by simp) (by simp)
        (.more (now := [[0, 0]]) (by cases ends <;> rfl) (by simp) (by simp) (.done 10)))⟩
  height := rfl
  width := by simp [jpegRows]

theorem jpeg_complains (ends talks stops : Bool) (h : talks = true ∨ stops = true) : (jpeg ends talks stops).Complains 1 7 3 := by
  refine .later (by omega) (now := [[0, 255]]) (st' := 8) (by cases ends <;> rfl) ?_
  refine .later (by simp) (now := [[255, 0]]) (st' := 9) (by cases ends <;> rfl) ?_
  cases stops with
  | true => exact .exit (by simp) (by cases ends <;> rfl)
  | false =>
    cases talks with
    | true => exact .message (by simp) (r := ([[0, 0]], 10)) (by cases ends <;> rfl)
    | false => simp at h

/-- A libpng that knows one picture with palette of 2 x `h` pixels; its rows get brighter. -/
def png (h : ℕ) (interlaced : Bool) : Png where
  info bytes := if bytes = [] then .exit else .ret (⟨2, h, 4, 3, true, interlaced⟩, 7)
  update := .ret ()
  row st := .ret (fun i => UInt8.ofNat (st + i), st + 1)
  end' := .ret ()

/-- Its file. -/
def pngFile : List UInt8 := [0x89, 0x50, 0x4E, 0x47, 0x0D, 0x0A, 0x1A, 0x0A, 1]

/-- The file on the standard input. -/
def pngFs : Fs := { fs with stdin := (pngFile, false) }

theorem holds_png : pngFs.Holds (cs "-") (pngFile, false) := Or.inl ⟨rfl, rfl⟩

theorem png_startup (h : ℕ) (interlaced : Bool) : (png h interlaced).startup pngFile = some (⟨2, h, 4, 3, true, interlaced⟩, 7) := by
  unfold Png.startup
  rw [if_pos (by decide)]
  rfl

theorem png_legal (h : ℕ) (interlaced : Bool) : (⟨2, h, 4, 3, true, interlaced⟩ : PngInfo).Legal := by
  unfold PngInfo.Legal
  simp

/-- The rows of the picture with two rows. -/
def pngRows : List (List Dot) := [[.colour 7 8 9, .colour 10 11 12], [.colour 8 9 10, .colour 11 12 13]]

theorem png_decodes : (png 2 false).Decodes pngFile ⟨2, 2, 4, 3, true, false⟩ pngRows where
  startup := ⟨7, png_startup _ _, .more (f := fun i => UInt8.ofNat (7 + i)) rfl (by decide)
    (.more (f := fun i => UInt8.ofNat (8 + i)) rfl (by decide) (.done _)), rfl⟩
  legal := png_legal _ _
  height := rfl
  width := by simp [pngRows]
  kind := by simp [pngRows, Dot.isColour]

/-- An ImageMagick that knows one file with two images, the first of which may not be exportable, and fails on all others. -/
def magick (ok : Bool) (ex : MagickEx) (errno : ℕ) : Magick where
  read name := if name = cs "a.gif" then .inr (0, 1, 2) else .inl (ex, errno)
  next st := if st < 2 then some (st + 1) else none
  export' st _ _ := if st = 1 ∧ ok = false then none else some (fun j => .fin false ((st + j : ℕ) / 4))

theorem magick_shows : (magick true .other 0).Shows 1 2 0 [[.fin false (1 / 4), .fin false (2 / 4)], [.fin false (2 / 4), .fin false (3 / 4)]] := by
  refine .more (st' := 1) (f := fun j => .fin false ((1 + j : ℕ) / 4)) rfl rfl rfl (fun j h => ?_)
    (.more (st' := 2) (f := fun j => .fin false ((2 + j : ℕ) / 4)) rfl rfl rfl (fun j h => ?_) (.done rfl))
  · match j, h with
    | 0, _ => norm_num
    | 1, _ => norm_num
  · match j, h with
    | 0, _ => norm_num
    | 1, _ => norm_num

/-- An FFmpeg that knows one file.  Its video is stream 1 and consists of one packet, after a packet of another stream; the decoder
makes two frames of it, the second after the demuxer has stopped with `last`. -/
def ffmpeg (params last : ℤ) : Ffmpeg where
  openInput name := if name = cs "a.mkv" then 0 else -2
  findInfo := 0
  bestStream := 1
  toContext := params
  open2 := 0
  swsInit := 0
  size := (1, 2)
  state := 0
  receive st := if st = 0 ∨ st = 4 then (-11, st) else if st = 3 then (0, 4) else if st = 6 then (0, 7) else (-541478725, st)
  readPacket st := if st = 0 then (0, 0, 1) else if st = 1 then (0, 1, 2) else (last, 0, st + 1)
  send st _ := (0, st + 1)
  scale st := (0, fun j => .fin false ((st + j : ℕ) / 16))
  isErrno e := decide (-100 < e ∧ e < 0)
  again := -11
  eof := -541478725
  patience := 10
  supports _ := true

theorem ffmpeg_errno (params last : ℤ) : ∀ a, (ffmpeg params last).isErrno a = true → a < 0 := by
  intro a h
  exact (of_decide_eq_true h).2

/-- Its frames. -/
def ffmpegFrames : List (List Fl) := [[.fin false (4 / 16), .fin false (5 / 16)], [.fin false (7 / 16), .fin false (8 / 16)]]

theorem ffmpeg_shows (params : ℤ) : (ffmpeg params (-541478725)).Shows 1 2 0 ffmpegFrames := by
  refine .more (n := 2) (st' := 4) (e := 0) (f := fun j => .fin false ((4 + j : ℕ) / 16))
    (.fed (k := 2) (st1 := 0) (st2 := 2) (st3 := 3) (more := true) rfl rfl (.skip (j := 0) (st1 := 1) rfl (by decide) (.found rfl)) (by simp [ffmpeg]) rfl
      (.now rfl (by simp [ffmpeg]))) (by simp [ffmpeg]) rfl (by decide) rfl (fun j h => ?_)
    (.more (n := 2) (st' := 7) (e := 0) (f := fun j => .fin false ((7 + j : ℕ) / 16))
      (.fed (k := 1) (st1 := 4) (st2 := 5) (st3 := 6) (more := false) rfl rfl (.over (e := -541478725) (j := 0) rfl (by decide)) (by simp [ffmpeg]) rfl
        (.now rfl (by simp [ffmpeg]))) (by simp [ffmpeg]) rfl (by decide) rfl (fun j h => ?_)
      (.done (n := 1) (st' := 7) (.now rfl (by simp [ffmpeg])) (by simp [ffmpeg]) rfl (by simp [ffmpeg]) (by simp [ffmpeg])))
  · match j, h with
    | 0, _ => norm_num
    | 1, _ => norm_num
  · match j, h with
    | 0, _ => norm_num
    | 1, _ => norm_num

/-- A build with everything. -/
def libs : Libs :=
  ⟨false, false, false, some (jpeg true false false), some (png 2 false), some (ffmpeg 0 0), some (magick true .other 0)⟩

theorem libs_errnos : libs.Errnos := fun lib h => by cases h; exact ffmpeg_errno _ _

end Verif.Demo
