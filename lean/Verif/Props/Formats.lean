import Verif.Proofs.SeekAny
import Verif.Props.Readers
import Verif.Spec.DemoFiles

/-!
# PFM and Y4M (C33–C40), and header numbers (C46)
-/

namespace Verif.Props

open Spec

variable {s : Sys} {io io' : Io} {name name' file : List UInt8} {k : Bool} {m m' : M Opened} {W H d : ℕ} {x : Sampling}

/-! ## PFM -/

/-- **C35** A sequence of PFM images, gray and colour in any mix and either byte order, gives the images in order and then
ends. -/
theorem C35_pfm {images : List PfmImage} (ho : io.omitPfm = false) (hu : Uses s io name (cs "pfm") m) (hh : io.fs.Holds name (file, k))
    (hf : PfmFile W H images file) (h0 : images ≠ []) (hw : Within s.cfg W H) (hk : k = true → file.length ≤ s.cfg.longMax) :
    Yields m W H (images.map PfmImage.samples) RDEOK :=
  (pfm_plays hu ho hh hf h0 hw hk rfl).yields (Or.inl fun _ h => List.eq_of_mem_replicate h)

example : PfmFile 1 2 Demo.pfmImages Demo.pfmBytes ∧ Demo.pfmImages ≠ [] ∧ Within Demo.sys.cfg 1 2 ∧ Demo.pfmBytes.length ≤ Demo.sys.cfg.longMax ∧
    Uses Demo.sys (Demo.disk Demo.pfmBytes true) (cs "a." ++ cs "pfm") (cs "pfm") (Demo.openAs "pfm" Demo.pfmBytes true) ∧
    (Demo.disk Demo.pfmBytes true).fs.Holds (cs "a." ++ cs "pfm") (Demo.pfmBytes, true) :=
  ⟨Demo.pfm_file, by decide, by unfold Within; decide, by decide, Demo.uses_as (by decide) _ _, Demo.disk_holds (by decide)⟩

/-- **C34** PFM: complete images, and then one whose data ends early, give the images and an error. -/
theorem C34_pfm {k : Kind} {images : List PfmImage} {a head data : List UInt8} {colour little : Bool} (ho : io.omitPfm = false)
    (hu : Uses s io name (cs "pfm") m) (hh : io.fs.Holds name (a ++ (head ++ data), k)) (hf : PfmFile W H images a)
    (hp : PfmHead W H colour little head) (hl : data.length < 4 * (if colour then 3 else 1) * W * H) (hw : Within s.cfg W H) :
    Yields m W H (images.map PfmImage.samples) RDEINVAL := by
  refine pfm_cut hu ho hh hf hp ?_ hw
  unfold comps
  exact hl

example : PfmFile 1 2 Demo.pfmImages Demo.pfmBytes ∧ PfmHead 1 2 true false (cs "PF 1 2 1\n") ∧
    (List.replicate 23 (7 : UInt8)).length < 4 * (if true then 3 else 1) * 1 * 2 := ⟨Demo.pfm_file, Demo.pfm_head2, by decide⟩

/-- **C36** (partial) On a PFM whose images are all gray or all colour, every sequence of calls that does not start with a seek
by 0 is a playback of the images; in particular a seek by `n` has the effect of `n` reads.  Missing: seeking by 0 before
anything else, and images of both kinds, see `C36_fails`; on a 32 bit system also images whose data does not fit `size_t`. -/
theorem C36_partial {images : List PfmImage} {colour : Bool} (ho : io.omitPfm = false) (hu : Uses s io name (cs "pfm") m)
    (hh : io.fs.Holds name (file, k)) (hf : PfmFile W H images file) (h0 : images ≠ []) (hc : ∀ i ∈ images, i.colour = colour)
    (hw : Within s.cfg W H) (hz : 4 * (if colour then 3 else 1) * W * H ≤ s.cfg.sizeMax) (hk : k = true → file.length ≤ s.cfg.longMax) :
    Plays m W H (images.map PfmImage.samples) (fun ops => ops.head? ≠ some (.seek 0)) := by
  intro w h1 h2
  obtain ⟨i, buf, w1, g1, g2, g3⟩ := pfm_plays hu ho hh hf h0 hw hk rfl w h1 h2
  exact ⟨i, buf, w1, g1, g2, fun ops hok => g3 ops (Or.inr ⟨hok, colour, hc, by unfold comps; exact hz⟩)⟩

theorem dots : PfmFile 1 1 [Demo.dot, Demo.dot] ((cs "Pf 1 1 -1\n" ++ Demo.one) ++ ((cs "Pf 1 1 -1\n" ++ Demo.one) ++ [])) :=
  .cons Demo.dot_part (.cons Demo.dot_part .nil)

example : PfmFile 1 1 [Demo.dot, Demo.dot] ((cs "Pf 1 1 -1\n" ++ Demo.one) ++ ((cs "Pf 1 1 -1\n" ++ Demo.one) ++ [])) ∧
    (∀ i ∈ [Demo.dot, Demo.dot], i.colour = false) ∧ [IOp.seek 1, .seek 0, .read].head? ≠ some (.seek 0) := ⟨dots, by decide, by decide⟩

/-- **C36** (negation) A one-pixel file on which seeking by 0 right after opening is not harmless, and a sequence of gray and
colour images on which seeking is not reading, both from files and from pipes. -/
theorem C36_fails :
    (∃ file, PfmFile 1 1 [Demo.dot] file ∧ ∀ k, ¬ Plays (Demo.openAs "pfm" file k) 1 1 [Demo.dot.samples] (fun _ => True)) ∧
    (∃ file, PfmFile 1 1 [Demo.dot, Demo.spot, Demo.dot] file ∧
      ∀ k, ¬ Plays (Demo.openAs "pfm" file k) 1 1 ([Demo.dot, Demo.spot, Demo.dot].map PfmImage.samples)
        (fun ops => ops.head? ≠ some (.seek 0))) := by
  refine ⟨⟨_, .cons Demo.dot_part .nil, fun k h => ?_⟩, ⟨_, .cons Demo.dot_part (.cons Demo.spot_part (.cons Demo.dot_part .nil)), fun k h => ?_⟩⟩
  · obtain ⟨data, h⟩ := Demo.plays_shows (ops := [.seek 0, .read]) h trivial
    rw [show Demo.shows "pfm" (cs "Pf 1 1 -1\n" ++ Demo.one ++ []) k [.seek 0, .read] =
      some [.seek true RDEOK [], .read false RDEINVAL [.fin false 0]] by rcases k with ⟨_ | _, _ | _⟩ <;> decide +kernel] at h
    simp [playback] at h
  · obtain ⟨data, h⟩ := Demo.plays_shows (ops := [.seek 2, .read]) h (by simp)
    rw [show Demo.shows "pfm" (cs "Pf 1 1 -1\n" ++ Demo.one ++ (cs "PF 1 1 -1\n" ++ (Demo.one ++ Demo.one ++ Demo.one) ++
      (cs "Pf 1 1 -1\n" ++ Demo.one ++ []))) k [.seek 2, .read] =
      some [.seek true RDEOK [1, 2], .read false RDEINVAL [.fin false 0]] by rcases k with ⟨_ | _, _ | _⟩ <;> decide +kernel] at h
    simp [playback] at h

/-! ## Y4M -/

/-- The frame is skipped by its right size: its chroma layout is not 4:4:4 with alpha, and if it is 4:1:1 the size is one for
which that is the same as for 4:2:0. -/
def Skippable (W H : ℕ) (x : Sampling) : Prop :=
  x ≠ .s444alpha ∧ (x = .s411 → Sampling.extra W H .s411 = Sampling.extra W H .s420)

theorem Skippable.assumed (h : Skippable W H x) : (assumed x).extra W H = x.extra W H := by
  cases x with
  | s411 => exact (h.2 rfl).symm
  | s444alpha => exact absurd rfl h.1
  | _ => rfl

/-- The planes of a frame are within the limits, with the pixel limit counted at 4 per pixel, and the host can make sense of
the samples: they are bytes, or it is little endian as they are. -/
structure Feasible (c : Cfg) (W H : ℕ) (x : Sampling) (d : ℕ) : Prop where
  width : 0 < W
  height : 0 < H
  pixels : W * H * 4 ≤ c.pixelMax
  floats : W * H * 4 ≤ c.sizeMax
  bytes : (W * H + x.extra W H) * (if d = 8 then 1 else 2) ≤ c.sizeMax
  order : d = 8 ∨ c.littleEndian = true

/-- The samples of the frames. -/
def lumas (d : ℕ) (frames : List (List ℕ)) : List (List Fl) := frames.map (fun l => l.map (normal (2 ^ d - 1)))

theorem y4m_all {frames : List (List ℕ)} (ho : io.omitY4m = false) (hu : Uses s io name (cs "y4m") m) (hh : io.fs.Holds name (file, k))
    (hf : Y4mFile W H x d frames file) (hx : Skippable W H x) (hs : Feasible s.cfg W H x d) (hk : k = true → file.length ≤ s.cfg.longMax) :
    Plays m W H (lumas d frames) (fun _ => True) :=
  y4m_plays hu ho hh hf hs.width hs.height hs.pixels hs.floats (by unfold wide; exact hs.bytes) hx.assumed hs.order hk rfl

/-- **C37** (partial) A Y4M stream gives the luma of its frames, normalised by the depth, in order and then ends.  Missing: the
layouts that are skipped by a wrong size, see `C38_fails`, and samples of two bytes on big endian hosts, see `C37_fails`. -/
theorem C37_partial {frames : List (List ℕ)} (ho : io.omitY4m = false) (hu : Uses s io name (cs "y4m") m) (hh : io.fs.Holds name (file, k))
    (hf : Y4mFile W H x d frames file) (hx : Skippable W H x) (hs : Feasible s.cfg W H x d) (hk : k = true → file.length ≤ s.cfg.longMax) :
    Yields m W H (lumas d frames) RDEOK := (y4m_all ho hu hh hf hx hs hk).yields trivial

example : Y4mFile 2 1 .mono 8 [[0, 255], [255, 0]] Demo.y4mBytes ∧ Skippable 2 1 .mono ∧ Feasible Demo.sys.cfg 2 1 .mono 8 :=
  ⟨Demo.y4m_file, ⟨by decide, by decide⟩, by constructor <;> decide⟩

/-- Two frames with four bytes each: luma, chroma, alpha. -/
def alphaBytes : List UInt8 := cs "YUV4MPEG2 W1 H1 C444alpha\nFRAME\n" ++ [255, 0, 0, 0] ++ cs "FRAME\n" ++ [255, 0, 0, 0]

theorem alpha_file : Y4mFile 1 1 .s444alpha 8 [[255], [255]] alphaBytes := by
  have hh := Demo.y4m_head (W := 1) (H := 1) (nW := cs "1") (nH := cs "1") (name := "444alpha") ⟨by decide, by unfold Digits; decide, by decide⟩
    ⟨by decide, by unfold Digits; decide, by decide⟩ ⟨(.s444alpha, 8), by decide⟩
  have h1 := Demo.y4m_part (W := 1) (H := 1) (d := 8) (x := .s444alpha) (luma := [255]) (extra := [0, 0, 0]) (by decide) (by decide) (by decide)
  exact (Y4mFile.mk (name := "444alpha") (by decide) hh (.cons h1 (.cons h1 .nil))).copy (by decide)

/-- Two frames with six bytes each. -/
def quarterBytes : List UInt8 := cs "YUV4MPEG2 W4 H1 C411\nFRAME\n" ++ [255, 0, 0, 0, 1, 1] ++ cs "FRAME\n" ++ [255, 0, 0, 0, 1, 1]

theorem quarter_file : Y4mFile 4 1 .s411 8 [[255, 0, 0, 0], [255, 0, 0, 0]] quarterBytes := by
  have hh := Demo.y4m_head (W := 4) (H := 1) (nW := cs "4") (nH := cs "1") (name := "411") ⟨by decide, by unfold Digits; decide, by decide⟩
    ⟨by decide, by unfold Digits; decide, by decide⟩ ⟨(.s411, 8), by decide⟩
  have h1 := Demo.y4m_part (W := 4) (H := 1) (d := 8) (x := .s411) (luma := [255, 0, 0, 0]) (extra := [1, 1]) (by decide) (by decide) (by decide)
  exact (Y4mFile.mk (name := "411") (by decide) hh (.cons h1 (.cons h1 .nil))).copy (by decide)

/-- One frame of six bytes. -/
def shortBytes : List UInt8 := cs "YUV4MPEG2 W4 H1 C411\nFRAME\n" ++ [255, 0, 0, 0, 1, 1]

theorem short_file : Y4mFile 4 1 .s411 8 [[255, 0, 0, 0]] shortBytes := by
  have hh := Demo.y4m_head (W := 4) (H := 1) (nW := cs "4") (nH := cs "1") (name := "411") ⟨by decide, by unfold Digits; decide, by decide⟩
    ⟨by decide, by unfold Digits; decide, by decide⟩ ⟨(.s411, 8), by decide⟩
  have h1 := Demo.y4m_part (W := 4) (H := 1) (d := 8) (x := .s411) (luma := [255, 0, 0, 0]) (extra := [1, 1]) (by decide) (by decide) (by decide)
  exact (Y4mFile.mk (name := "411") (by decide) hh (.cons h1 .nil)).copy (by decide)

/-- **C38** (partial) For every layout, size and order of parameters, what is skipped after the luma is what the layout
prescribes.  Missing: 4:4:4 with alpha, and 4:1:1 for most sizes, see `C38_fails`. -/
theorem C38_partial {lname : String} {head rest : List UInt8} (hl : (lname, x, d) ∈ layouts) (hp : Y4mHead W H lname head) (hx : Skippable W H x)
    (hs : Feasible s.cfg W H x d) :
    ∃ p st, y4mHeader s.cfg ⟨head ++ rest, 0, k⟩ = some (some p, st) ∧ st.rest = rest ∧
      y4mSizes s.cfg p = some (.inr (W * H * (if d = 8 then 1 else 2), x.extra W H * (if d = 8 then 1 else 2), d)) := by
  have hw : Within s.cfg W H := ⟨hs.width, hs.height, by have := hs.pixels; omega, hs.floats⟩
  obtain ⟨hW, hH⟩ := Within.le_size hw
  refine ⟨_, _, y4mHeader_eq hp hW hH, rfl, ?_⟩
  have h3 := hs.bytes
  rw [← hx.assumed] at h3
  rw [y4mSizes_eq hl hs.width hs.height hs.pixels hs.floats h3, hx.assumed]
  rfl

example : ("422p10", Sampling.s422, 10) ∈ layouts ∧ Skippable 3 5 .s422 ∧ Feasible Demo.sys.cfg 3 5 .s422 10 :=
  ⟨by decide, ⟨by decide, by decide⟩, by constructor <;> decide⟩

/-- **C38** (negation) For 4:4:4 with alpha the size is wrong whatever the size of the image, for 4:1:1 it is for a line of 4
pixels, and the second frame of such streams is not found. -/
theorem C38_fails :
    (∀ {c : Cfg} {W H y uv d : ℕ}, y4mSizes c ⟨W, H, cs "444alpha" ++ [0, 0]⟩ = some (.inr (y, uv, d)) → uv ≠ Sampling.extra W H .s444alpha) ∧
    (∃ y uv, y4mSizes Demo.sys.cfg ⟨4, 1, cs "411" ++ List.replicate 7 0⟩ = some (.inr (y, uv, 8)) ∧ uv ≠ Sampling.extra 4 1 .s411) ∧
    (Y4mFile 1 1 .s444alpha 8 [[255], [255]] alphaBytes ∧ ∀ k, ¬ Yields (Demo.openAs "y4m" alphaBytes k) 1 1 (lumas 8 [[255], [255]]) RDEOK) ∧
    (Y4mFile 4 1 .s411 8 [[255, 0, 0, 0], [255, 0, 0, 0]] quarterBytes ∧
      ∀ k, ¬ Yields (Demo.openAs "y4m" quarterBytes k) 4 1 (lumas 8 [[255, 0, 0, 0], [255, 0, 0, 0]]) RDEOK) := by
  refine ⟨?_, ⟨4, 4, by decide +kernel, by decide⟩, ⟨alpha_file, fun k h => ?_⟩, ⟨quarter_file, fun k h => ?_⟩⟩
  · intro c W H y uv d h
    obtain ⟨h1, h2, _⟩ := y4mSizes_ok h
    obtain ⟨d8, d16, _, _, u, hu, h7⟩ := C41_sizes h
    have hpos : 0 < W * H := Nat.mul_pos h1 h2
    have hb : (d + 7) / 8 = 1 ∨ (d + 7) / 8 = 2 := by omega
    rcases h7 with ⟨h, _⟩ | ⟨h | h, _⟩ | ⟨h, _⟩ | ⟨_, h⟩
    · simp only at h; exact absurd h (by decide)
    · simp only at h; exact absurd h (by decide)
    · simp only at h; exact absurd h (by decide)
    · simp only at h; exact absurd h (by decide)
    · simp only at h
      simp only [Sampling.extra]
      rcases hb with hb | hb <;> rw [hb] at hu <;> omega
  · obtain ⟨last, h⟩ := Demo.yields_shows h
    rw [show Demo.shows "y4m" alphaBytes k (List.replicate ((lumas 8 [[255], [255]]).length + 1) .read) = some [.read true RDEOK [.fin false 1],
      .read false RDEINVAL [.fin false 1], .read false RDEINVAL [.fin false 1]] by rcases k with ⟨_ | _, _ | _⟩ <;> decide +kernel] at h
    simp [lumas] at h
  · obtain ⟨last, h⟩ := Demo.yields_shows h
    rw [show Demo.shows "y4m" quarterBytes k (List.replicate ((lumas 8 [[255, 0, 0, 0], [255, 0, 0, 0]]).length + 1) .read) =
      some (.read true RDEOK [.fin false 1, .fin false 0, .fin false 0, .fin false 0] :: List.replicate 2
        (.read false RDEINVAL [.fin false 1, .fin false 0, .fin false 0, .fin false 0])) by rcases k with ⟨_ | _, _ | _⟩ <;> decide +kernel] at h
    simp [lumas] at h

/-- One frame with a sample of two bytes, the lower one first. -/
def wideBytes : List UInt8 := cs "YUV4MPEG2 W1 H1 Cmono16\nFRAME\n" ++ [1, 0]

theorem wide_file : Y4mFile 1 1 .mono 16 [[1]] wideBytes := by
  have hh := Demo.y4m_head (W := 1) (H := 1) (nW := cs "1") (nH := cs "1") (name := "mono16") ⟨by decide, by unfold Digits; decide, by decide⟩
    ⟨by decide, by unfold Digits; decide, by decide⟩ ⟨(.mono, 16), by decide⟩
  have h1 := Demo.y4m_part (W := 1) (H := 1) (d := 16) (x := .mono) (luma := [1]) (extra := []) (by decide) (by decide) (by decide)
  exact (Y4mFile.mk (name := "mono16") (by decide) hh (.cons h1 .nil)).copy (by decide)

/-- The demonstration build on a big endian host. -/
def bigSys : Sys := { Demo.sys with cfg := { Demo.sys.cfg with littleEndian := false } }

theorem bigSys_build : Build bigSys where
  wf := by
    have h := Demo.sys_build.wf
    exact ⟨h.1, h.2, h.3, h.4, h.5, h.6, h.7, h.8, h.9, h.10, h.11, h.12, h.13, h.14⟩
  kiss := fun h => ⟨(Demo.sys_build.kiss h).1, (Demo.sys_build.kiss h).2, (Demo.sys_build.kiss h).3⟩
  results := Demo.sys_build.results

/-- **C37** (negation) Samples of two bytes are read in the order of the host: on a big endian host a sample of 1 becomes 256.  For the layouts
see `C38_fails`. -/
theorem C37_fails (k : Kind) : Y4mFile 1 1 .mono 16 [[1]] wideBytes ∧ Skippable 1 1 .mono ∧ Build bigSys ∧ Uses bigSys (Demo.disk wideBytes k) (cs "a.y4m") (cs "y4m")
      (resdetOpenImage bigSys (Demo.disk wideBytes k) (some (cs "a.y4m")) none true true true) ∧
    ¬ Yields (resdetOpenImage bigSys (Demo.disk wideBytes k) (some (cs "a.y4m")) none true true true) 1 1 (lumas 16 [[1]]) RDEOK := by
  refine ⟨wide_file, ⟨by decide, by decide⟩, bigSys_build, .byType (ext := cs "y4m") (.suffix (cs "a") (cs "y4m") (by decide) (by decide)) (Or.inr (by decide)) rfl, fun h => ?_⟩
  obtain ⟨i, buf, w1, h1, _, last, i', buf', w2, h4⟩ := h Demo.w0 Demo.w0_wf Demo.w0_plenty
  have key : ∀ m : M (List IObs), m = (do
      let o ← resdetOpenImage bigSys (Demo.disk wideBytes k) (some (cs "a.y4m")) none true true true
      let r ← session [.read, .read] o.image o.buf
      pure r.1) → (m Demo.w0).map (fun r => r.1.head?) = some (some (.read true RDEOK [normal 65535 256])) := by
    rintro m rfl
    rcases k with ⟨_ | _, _ | _⟩ <;> decide +kernel
  have h4 : session [.read, .read] (some i) (some buf) w1 = _ := h4
  have := key _ rfl
  rw [M.bind_some h1, M.bind_some h4] at this
  revert this
  show ¬ (some (some (IObs.read true RDEOK [normal 65535 1])) = _)
  decide +kernel

/-- **C34** Y4M: complete frames, and then one that ends inside its line or its luma, give the frames and an error. -/
theorem C34_y4m {k : Kind} {frames : List (List ℕ)} {lname : String} {head a cut params luma : List UInt8} (ho : io.omitY4m = false)
    (hu : Uses s io name (cs "y4m") m) (hh : io.fs.Holds name (head ++ (a ++ cut), k)) (hl : (lname, x, d) ∈ layouts)
    (hp : Y4mHead W H lname head) (hf : Y4mParts W H x d frames a) (hx : Skippable W H x) (hs : Feasible s.cfg W H x d)
    (hk : k.seekable = true → (head ++ (a ++ cut)).length ≤ s.cfg.longMax) (h1 : OneLine params)
    (hc : cut <+: cs "FRAME" ++ (params ++ (ch '\n' :: luma))) (h0 : cut ≠ [])
    (hn : cut.length < 5 + params.length + 1 + W * H * (if d = 8 then 1 else 2)) :
    Yields m W H (lumas d frames) RDEINVAL := by
  have hw : Within s.cfg W H := ⟨hs.width, hs.height, by have := hs.pixels; omega, hs.floats⟩
  obtain ⟨hW, hH⟩ := Within.le_size hw
  obtain ⟨_, _, h8, h16⟩ := layouts_read _ hl
  have h3 := hs.bytes
  rw [← hx.assumed] at h3
  rw [uses_y4m hu ho]
  have hd := (y4m_determined (s := s) name).1 _ k hh
  unfold y4mOutcome at hd
  rw [y4mHeader_eq hp hW hH] at hd
  simp only at hd
  rw [y4mSizes_eq hl hs.width hs.height hs.pixels hs.floats h3, hx.assumed] at hd
  simp only at hd
  refine Builtin.y4m.yields hd hw ?_
  refine y4m_frames h8 h16 (Nat.mul_pos hs.width hs.height) hs.order hf ?_ (fun p => y4m_step_cut h1 hc h0 hn)
  intro hmode
  have hkk : k.seekable = true := by
    unfold seekMode at hmode
    simp only [Bool.and_eq_true] at hmode
    exact hmode.2.1
  refine ⟨hkk, ?_⟩
  have := hk hkk
  simpa using this

example : Demo.cutBytes = (cs "YUV4MPEG2 W2 H1 Cmono\n") ++ ((cs "FRAME\n" ++ [0, 255]) ++ (cs "FRAME\n" ++ [255])) ∧
    cs "FRAME\n" ++ [255] <+: cs "FRAME" ++ ([] ++ (ch '\n' :: [255, 0])) ∧ (cs "FRAME\n" ++ [255]).length < 5 + 0 + 1 + 2 * 1 * 1 := by decide

/-- **C33** (partial) Y4M: if the samples are below two to the power of the depth, as they should be, they are read as numbers
from 0 to 1.  Missing: streams with larger samples, see `C33_y4m_fails`. -/
theorem C33_y4m_partial {frames : List (List ℕ)} (ho : io.omitY4m = false) (hu : Uses s io name (cs "y4m") m) (hh : io.fs.Holds name (file, k))
    (hf : Y4mFile W H x d frames file) (hx : Skippable W H x) (hs : Feasible s.cfg W H x d) (hk : k = true → file.length ≤ s.cfg.longMax) :
    ∃ fl, Yields m W H fl RDEOK ∧ ∀ f ∈ fl, f.length = W * H ∧ ∀ v ∈ f, InUnit v := by
  refine ⟨_, C37_partial ho hu hh hf hx hs hk, ?_⟩
  cases hf with
  | mk hl hp hf =>
    obtain ⟨_, _, h8, h16⟩ := layouts_read _ hl
    simp only at h8
    clear hh hk
    induction hf with
    | nil => intro f h; cases h
    | cons h1 _ ih =>
      intro f h
      simp only [lumas, List.map_cons, List.mem_cons] at h
      rcases h with rfl | h
      · cases h1 with
        | mk _ g1 g2 _ =>
          refine ⟨by simpa using g1, fun v hv => ?_⟩
          obtain ⟨b, hb, rfl⟩ := List.mem_map.mp hv
          have := g2 b hb
          have : 2 ^ 8 ≤ 2 ^ d := Nat.pow_le_pow_right (by omega) h8
          exact normal_unit (by omega) (by omega)
      · exact ih f h

example : Y4mFile 2 1 .mono 8 [[0, 255], [255, 0]] Demo.y4mBytes ∧ Skippable 2 1 .mono ∧ Feasible Demo.sys.cfg 2 1 .mono 8 :=
  ⟨Demo.y4m_file, ⟨by decide, by decide⟩, by constructor <;> decide⟩

/-- A sample of ten bits with all sixteen bits set. -/
def overBytes : List UInt8 := cs "YUV4MPEG2 W1 H1 Cmono10\nFRAME\n" ++ [255, 255]

/-- **C33** (negation) A Y4M stream with a sample that is read as more than 64. -/
theorem C33_y4m_fails : Demo.shows "y4m" overBytes k [.read] = some [.read true RDEOK [.fin false (1049585 / 16384)]] ∧
    ¬ InUnit (.fin false (1049585 / 16384)) := by
  refine ⟨by rcases k with ⟨_ | _, _ | _⟩ <;> decide +kernel, ?_⟩
  rintro ⟨_, q, h, _, h1⟩
  cases h
  norm_num at h1

/-! ## Seeking in Y4M streams -/

/-- What a session on a Y4M stream shows. -/
theorem y4m_runs (ho : io.omitY4m = false) (hu : Uses s io name (cs "y4m") m) {w w1 : World} {o : Opened} (hw : w.WF)
    (hm : m w = some (o, w1)) (he : o.error = RDEOK) :
    ∃ x : Y4mCtx, ∀ ops, ∃ obs r w2 x', session ops o.image o.buf w1 = some ((obs, r), w2) ∧
      Runs s o.width o.height (∃ j, w.sched j = false) (.y4m x) ops obs x' := by
  rw [uses_y4m hu ho] at hm
  obtain ⟨a, hd⟩ := Builtin.y4m.determined (s := s) (fs := io.fs) name
  obtain ⟨x, _, h2, _, h4⟩ := Builtin.y4m.opened hd hw hm he
  cases x with
  | y4m x =>
    obtain ⟨y, hy⟩ : ∃ y, (Ctx.y4m x).erase = .y4m y := ⟨_, rfl⟩
    rw [hy] at h4
    refine ⟨y, fun ops => ?_⟩
    rcases h4 ops with ⟨_, h⟩ | ⟨obs', i', b', w2', x', h, hr, _⟩
    · exact (not_breaks_y4m h).elim
    · exact ⟨_, _, _, _, h, hr⟩
  | _ => exact h2.elim

/-- **C39** Whatever the file and the calls before: where `n` frames can be read, seeking by `n` succeeds, reports 1, 2, …, `n`, and
all later calls show the same as after reading.  In particular seeking by 0 changes nothing. -/
theorem C39_seek (ho : io.omitY4m = false) (hu : Uses s io name (cs "y4m") m) {w w1 w2 : World} {o : Opened} (hw : w.WF)
    (hm : m w = some (o, w1)) (he : o.error = RDEOK) {pre post : List IOp} {n : ℕ} {obs1 obs2 obs3 : List IObs} {r : Option RDImage × Option (Buf Fl)}
    (hs : session (pre ++ (List.replicate n .read ++ post)) o.image o.buf w1 = some ((obs1 ++ (obs2 ++ obs3), r), w2))
    (h1 : obs1.length = pre.length) (h2 : obs2.length = n) (hg : ∀ y ∈ obs2, y.got = true) :
    ∃ obs1' obs3' r' w2', session (pre ++ (.seek n :: post)) o.image o.buf w1 =
        some ((obs1' ++ (.seek true RDEOK ((List.range n).map (· + 1)) :: obs3'), r'), w2') ∧
      List.Forall₂ IObs.SameAs obs1 obs1' ∧ List.Forall₂ IObs.SameAs obs3 obs3' := by
  obtain ⟨x, hx⟩ := y4m_runs ho hu hw hm he
  obtain ⟨obs, r0, w20, x', e1, hr⟩ := hx (pre ++ (List.replicate n .read ++ post))
  rw [hs] at e1
  cases e1
  obtain ⟨a, b, x1, e2, ha, hr⟩ := hr.append
  obtain ⟨c, d, x2, rfl, hc, hd⟩ := hr.append
  have la := ha.length
  have lc := hc.length
  rw [List.length_replicate] at lc
  obtain ⟨rfl, e5⟩ := List.append_inj e2 (by omega)
  obtain ⟨rfl, rfl⟩ := List.append_inj e5 (by omega)
  obtain ⟨y1, rfl⟩ := runs_y4m ha rfl
  obtain ⟨st', rfl, e3⟩ := y4m_skip_read (i := 0) (calls := []) hc hg
  obtain ⟨obs', r', w2', x3, e4, hr'⟩ := hx (pre ++ (.seek n :: post))
  obtain ⟨a', b', x4, rfl, ha', hb'⟩ := hr'.append
  obtain ⟨s1, rfl⟩ := runs_same ha rfl ha'
  cases hb' with
  | oom _ g _ => exact g.elim
  | seek g1 g2 =>
    simp only [Ctx.skip, e3, Option.some.injEq, Prod.mk.injEq] at g1
    obtain ⟨rfl, rfl, rfl, rfl⟩ := g1
    obtain ⟨s2, _⟩ := runs_same hd rfl g2
    refine ⟨a', _, r', w2', ?_, s1, s2⟩
    rw [e4]
    simp

example : (Demo.shows "y4m" Demo.y4mBytes true ([] ++ (List.replicate 2 .read ++ [.seek 1]))) =
    some ([] ++ ([.read true RDEOK [.fin false 0, .fin false 1], .read true RDEOK [.fin false 1, .fin false 0]] ++ [.seek false RDEOK []])) ∧
    (Demo.shows "y4m" Demo.y4mBytes true ([] ++ (.seek 2 :: [.seek 1]))) = some [.seek true RDEOK [1, 2], .seek false RDEOK []] := by
  constructor <;> decide +kernel

/-- **C39** Whatever the file: seeking by `n` successfully and then by `j` shows the same as seeking by `n + j`. -/
theorem C39_add (ho : io.omitY4m = false) (hu : Uses s io name (cs "y4m") m) {w w1 w2 : World} {o : Opened} (hw : w.WF)
    (hm : m w = some (o, w1)) (he : o.error = RDEOK) {pre post : List IOp} {n j : ℕ} {obs1 obs3 : List IObs} {e e' : RDError} {ret : Bool}
    {calls calls' : List ℕ} {r : Option RDImage × Option (Buf Fl)}
    (hs : session (pre ++ (.seek n :: .seek j :: post)) o.image o.buf w1 = some ((obs1 ++ (.seek true e calls :: .seek ret e' calls' :: obs3), r), w2))
    (h1 : obs1.length = pre.length) :
    ∃ obs1' obs3' r' w2', session (pre ++ (.seek (n + j) :: post)) o.image o.buf w1 =
        some ((obs1' ++ (.seek ret e' (calls ++ calls'.map (n + ·)) :: obs3'), r'), w2') ∧
      List.Forall₂ IObs.SameAs obs1 obs1' ∧ List.Forall₂ IObs.SameAs obs3 obs3' := by
  obtain ⟨x, hx⟩ := y4m_runs ho hu hw hm he
  obtain ⟨obs, r0, w20, x', e1, hr⟩ := hx (pre ++ (.seek n :: .seek j :: post))
  rw [hs] at e1
  cases e1
  obtain ⟨a, b, x1, e2, ha, hr⟩ := hr.append
  have la := ha.length
  obtain ⟨rfl, rfl⟩ := List.append_inj e2 (by omega)
  obtain ⟨y1, rfl⟩ := runs_y4m ha rfl
  cases hr with
  | seek g1 hr =>
    obtain ⟨y2, rfl⟩ := runs_y4m (.seek g1 (.nil _) : Runs s o.width o.height (∃ j, w.sched j = false) _ [.seek n] _ _) rfl
    cases hr with
    | oom _ g _ => exact g.elim
    | seek g2 hr =>
      simp only [Ctx.skip, Option.some.injEq, Prod.mk.injEq, Ctx.y4m.injEq] at g1 g2
      obtain ⟨a1, a2, a3, rfl⟩ := g1
      obtain ⟨b1, b2, b3, rfl⟩ := g2
      obtain ⟨obs', r', w2', x3, e4, hr'⟩ := hx (pre ++ (.seek (n + j) :: post))
      obtain ⟨a', b', x4, rfl, ha', hb'⟩ := hr'.append
      obtain ⟨s1, rfl⟩ := runs_same ha rfl ha'
      have hadd := y4mSkips_add (s := s) (x := y1) (j := j) n (i := 0) (st := y1.f.st) (st' := (y4mSkips s y1 true n 0 y1.f.st []).2.2.2)
        (calls := []) (calls' := calls) (e := e) (Prod.ext a1 (Prod.ext a2 (Prod.ext a3 rfl)))
      obtain ⟨rr, ee, nn, st', c1, c2⟩ := y4mSkips_shift (s := s) (x := y1) j (i := 0 + n) (i' := 0)
        (st := (y4mSkips s y1 true n 0 y1.f.st []).2.2.2) (calls := calls) (calls' := [])
      have c3 := y4mSkips_same (s := s) (x := { y1 with f := { y1.f with st := (y4mSkips s y1 true n 0 y1.f.st []).2.2.2 } }) (y := y1)
        rfl rfl rfl j (i := 0) (st := (y4mSkips s y1 true n 0 y1.f.st []).2.2.2) (calls := [])
      rw [c3, c2] at b1 b2 b3 hr
      rw [c1] at hadd
      cases hb' with
      | oom _ g _ => exact g.elim
      | seek g1 g2 =>
        simp only [Ctx.skip, hadd, Option.some.injEq, Prod.mk.injEq] at g1
        obtain ⟨rfl, rfl, rfl, rfl⟩ := g1
        obtain ⟨s2, _⟩ := runs_same hr rfl g2
        refine ⟨a', _, r', w2', ?_, s1, s2⟩
        rw [e4, ← b1, ← b2, ← b3]
        simp [Function.comp_def, Nat.add_assoc]

example : Demo.shows "y4m" Demo.y4mBytes true ([] ++ (.seek 1 :: .seek 2 :: [.read])) =
    some ([] ++ (.seek true RDEOK [1] :: .seek false RDEOK [1] :: [.read false RDEOK [.fin false 0, .fin false 0]])) ∧
    Demo.shows "y4m" Demo.y4mBytes true ([] ++ (.seek (1 + 2) :: [.read])) =
    some ([] ++ (.seek false RDEOK ([1] ++ [1].map (1 + ·)) :: [.read false RDEOK [.fin false 0, .fin false 0]])) := by
  constructor <;> decide +kernel

/-- **C39** (partial) On a Y4M stream every sequence of reads and seeks is a playback of its frames; in particular seeking past
the end returns false without an error.  Missing: as for `C37_partial`. -/
theorem C39_partial {frames : List (List ℕ)} (ho : io.omitY4m = false) (hu : Uses s io name (cs "y4m") m) (hh : io.fs.Holds name (file, k))
    (hf : Y4mFile W H x d frames file) (hx : Skippable W H x) (hs : Feasible s.cfg W H x d) (hk : k = true → file.length ≤ s.cfg.longMax) :
    Plays m W H (lumas d frames) (fun _ => True) := y4m_all ho hu hh hf hx hs hk

example : Y4mFile 2 1 .mono 8 [[0, 255], [255, 0]] Demo.y4mBytes ∧ Skippable 2 1 .mono ∧ Feasible Demo.sys.cfg 2 1 .mono 8 :=
  ⟨Demo.y4m_file, ⟨by decide, by decide⟩, by constructor <;> decide⟩

/-- **C39** (negation) Seeking past the end of a 4:1:1 stream of two frames gives an error after the first. -/
theorem C39_fails {k : Kind} : Y4mFile 4 1 .s411 8 [[255, 0, 0, 0], [255, 0, 0, 0]] quarterBytes ∧
    Demo.shows "y4m" quarterBytes k [.seek 3] = some [.seek false RDEINVAL [1]] := ⟨quarter_file, by rcases k with ⟨_ | _, _ | _⟩ <;> decide +kernel⟩

/-! ## Pipes and files -/

theorem sameAs_playback (ops : List IOp) : ∀ (frames : List (List Fl)) (a b : List Fl),
    List.Forall₂ IObs.SameAs (playback ops frames a) (playback ops frames b) := by
  induction ops with
  | nil => intros; exact .nil
  | cons op ops ih =>
    intro frames a b
    cases op with
    | read =>
      cases frames with
      | nil => exact .cons ⟨rfl, rfl, by simp⟩ (ih _ _ _)
      | cons f fs => exact .cons ⟨rfl, rfl, fun _ => rfl⟩ (ih _ _ _)
    | seek k => exact .cons ⟨rfl, rfl, rfl⟩ (ih _ _ _)

theorem Plays.alike {frames : List (List Fl)} {ok : List IOp → Prop} (h : Plays m W H frames ok) (h' : Plays m' W H frames ok) : Alike m m' ok := by
  intro w w' hw hw' hp hp'
  obtain ⟨i, buf, w1, e1, _, e2⟩ := h w hw hp
  obtain ⟨i', buf', w1', e1', _, e2'⟩ := h' w' hw' hp'
  refine ⟨_, w1, _, w1', e1, e1', rfl, rfl, rfl, rfl, fun ops hok => ?_⟩
  obtain ⟨_, _, w2, e3, _⟩ := e2 ops hok
  obtain ⟨_, _, w2', e3', _⟩ := e2' ops hok
  exact ⟨_, _, w2, _, _, w2', e3, e3', sameAs_playback _ _ _ _⟩

/-- **C40** (partial) A Y4M stream shows the same from a file and from a pipe, whatever the calls.  Missing: as for
`C37_partial`. -/
theorem C40_y4m_partial {frames : List (List ℕ)} (ho : io.omitY4m = false) (hu : Uses s io name (cs "y4m") m)
    (hh : io.fs.Holds name (file, true)) (ho' : io'.omitY4m = false) (hu' : Uses s io' name' (cs "y4m") m') (hh' : io'.fs.Holds name' (file, false))
    (hf : Y4mFile W H x d frames file) (hx : Skippable W H x) (hs : Feasible s.cfg W H x d) (hk : file.length ≤ s.cfg.longMax) :
    Alike m m' (fun _ => True) :=
  Plays.alike (y4m_all ho hu hh hf hx hs (fun _ => hk)) (y4m_all ho' hu' hh' hf hx hs (fun h => by cases h))

/-- **C40** PFM: reads show the same from a file and from a pipe. -/
theorem C40_pfm_reads {images : List PfmImage} (ho : io.omitPfm = false) (hu : Uses s io name (cs "pfm") m)
    (hh : io.fs.Holds name (file, true)) (ho' : io'.omitPfm = false) (hu' : Uses s io' name' (cs "pfm") m') (hh' : io'.fs.Holds name' (file, false))
    (hf : PfmFile W H images file) (h0 : images ≠ []) (hw : Within s.cfg W H) (hk : file.length ≤ s.cfg.longMax) :
    Alike m m' (fun ops => ∀ op ∈ ops, op = .read) := by
  have h1 := pfm_plays hu ho hh hf h0 hw (fun _ => hk) rfl
  have h2 := pfm_plays hu' ho' hh' hf h0 hw (fun h => by cases h) rfl
  intro w w' g1 g2 g3 g4
  obtain ⟨o, w1, o', w1', a1, a2, a3, a4, a5, a6, a7⟩ := Plays.alike h1 h2 w w' g1 g2 g3 g4
  exact ⟨o, w1, o', w1', a1, a2, a3, a4, a5, a6, fun ops h => a7 ops (Or.inl h)⟩

/-- **C40** (partial) PFM: on images of one kind reads and seeks show the same from a file and from a pipe.  Missing: as for
`C36_partial`. -/
theorem C40_pfm_partial {images : List PfmImage} {colour : Bool} (ho : io.omitPfm = false) (hu : Uses s io name (cs "pfm") m)
    (hh : io.fs.Holds name (file, true)) (ho' : io'.omitPfm = false) (hu' : Uses s io' name' (cs "pfm") m') (hh' : io'.fs.Holds name' (file, false))
    (hf : PfmFile W H images file) (h0 : images ≠ []) (hc : ∀ i ∈ images, i.colour = colour) (hw : Within s.cfg W H)
    (hz : 4 * (if colour then 3 else 1) * W * H ≤ s.cfg.sizeMax) (hk : file.length ≤ s.cfg.longMax) :
    Alike m m' (fun ops => ops.head? ≠ some (.seek 0)) :=
  Plays.alike (C36_partial ho hu hh hf h0 hc hw hz (fun _ => hk)) (C36_partial ho' hu' hh' hf h0 hc hw hz (fun h => by cases h))

example : Uses Demo.sys (Demo.disk Demo.pfmBytes true) (cs "a." ++ cs "pfm") (cs "pfm") (Demo.openAs "pfm" Demo.pfmBytes true) ∧
    (Demo.disk Demo.pfmBytes true).fs.Holds (cs "a." ++ cs "pfm") (Demo.pfmBytes, true) ∧
    Uses Demo.sys (Demo.disk Demo.pfmBytes false) (cs "a." ++ cs "pfm") (cs "pfm") (Demo.openAs "pfm" Demo.pfmBytes false) ∧
    (Demo.disk Demo.pfmBytes false).fs.Holds (cs "a." ++ cs "pfm") (Demo.pfmBytes, false) ∧ PfmFile 1 2 Demo.pfmImages Demo.pfmBytes :=
  ⟨Demo.uses_as (by decide) _ _, Demo.disk_holds (by decide), Demo.uses_as (by decide) _ _, Demo.disk_holds (by decide), Demo.pfm_file⟩
example : Y4mFile 2 1 .mono 8 [[0, 255], [255, 0]] Demo.y4mBytes ∧ Skippable 2 1 .mono ∧ Feasible Demo.sys.cfg 2 1 .mono 8 :=
  ⟨Demo.y4m_file, ⟨by decide, by decide⟩, by constructor <;> decide⟩

/-- **C40** (negation) A 4:1:1 stream whose only frame is read from a file, but not from a pipe. -/
theorem C40_fails : Y4mFile 4 1 .s411 8 [[255, 0, 0, 0]] shortBytes ∧
    Demo.shows "y4m" shortBytes true [.read] = some [.read true RDEOK [.fin false 1, .fin false 0, .fin false 0, .fin false 0]] ∧
    ∃ d, Demo.shows "y4m" shortBytes false [.read] = some [.read false RDEINVAL d] :=
  ⟨short_file, by decide +kernel, [.fin false 1, .fin false 0, .fin false 0, .fin false 0], by decide +kernel⟩

/-! ## Numbers in headers -/

/-- **C46** (partial) PGM: opening a file has undefined behaviour only if the file contains a number too large for its type or a
negative one; after that, no sequence of calls has (`C42_one_frame`). -/
theorem C46_pgm_partial {k : Kind} (ho : io.omitPgm = false) (hu : Uses s io name (cs "pgm") m) (hh : io.fs.Holds name (file, k)) {w : World} (hw : w.WF)
    (hm : m w = none) : Huge s.cfg.sizeMax file ∨ Huge 65535 file ∨ Negative file := by
  rw [uses_pgm hu ho] at hm
  have h := Builtin.pgm.undefined ((pgm_determined (s := s) name).1 file k hh) hw hm
  cases hp : pgmHeader s.cfg ⟨file, 0, k⟩ with
  | none => exact pgmHeader_none hp
  | some v =>
    obtain ⟨_ | ⟨_, _, _⟩, _⟩ := v <;> rw [hp] at h <;> cases h

/-- **C46** (partial) Y4M: opening a file has undefined behaviour only if the file contains a number too large for `size_t`, or,
where `char` is signed, a byte that is not ASCII; after that, no sequence of calls has (`C41_safe`). -/
theorem C46_y4m_partial {k : Kind} (ho : io.omitY4m = false) (hu : Uses s io name (cs "y4m") m) (hh : io.fs.Holds name (file, k)) {w : World} (hw : w.WF)
    (hm : m w = none) : Huge s.cfg.sizeMax file ∨ s.cfg.charSigned = true ∧ ∃ b ∈ file, 128 ≤ b.toNat ∧ b.toNat < 255 := by
  rw [uses_y4m hu ho] at hm
  exact y4mOutcome_none (Builtin.y4m.undefined ((y4m_determined (s := s) name).1 file k hh) hw hm)

/-- **C46** (partial) PFM: opening a file and any sequence of calls has undefined behaviour only if the file contains a number too
large for `size_t`, or one beyond the range of `float`. -/
theorem C46_pfm_partial {k : Kind} (ho : io.omitPfm = false) (hu : Uses s io name (cs "pfm") m) (hh : io.fs.Holds name (file, k)) {w : World} (hw : w.WF)
    (hm : m w = none ∨ ∃ o w1 ops, m w = some (o, w1) ∧ o.error = RDEOK ∧ session ops o.image o.buf w1 = none) :
    Huge s.cfg.sizeMax file ∨ Overflowing file := by
  rw [uses_pfm hu ho] at hm
  have hd := (pfm_determined (s := s) name).1 file k hh
  cases hp : pfmHeader s.cfg ⟨file, 0, k⟩ with
  | none => exact pfmHeader_none hp
  | some v =>
    rcases hm with hm | ⟨o, w1, ops, hm, he, hs⟩
    · have h := Builtin.pfm.undefined hd hw hm
      obtain ⟨_ | ⟨_, _, _, _⟩, _⟩ := v <;> rw [hp] at h <;> cases h
    · obtain ⟨y, h1, _, _, h4⟩ := Builtin.pfm.opened hd hw hm he
      obtain ⟨_ | ⟨_, _, _, _⟩, st⟩ := v
      · rw [hp] at h1; cases h1
      · rw [hp] at h1
        simp only [Option.some.injEq, Prod.mk.injEq] at h1
        rcases h4 ops with ⟨_, h⟩ | ⟨_, _, _, _, _, h, _⟩
        · rw [← h1.1] at h
          exact pfmWild_mono (After.pfmHeader hp).suffix.isInfix (breaks_pfm h)
        · rw [hs] at h; cases h

/-- **C46** (negation) Files on which the numbers in the header lead to undefined behaviour. -/
theorem C46_fails : Demo.openAs "pgm" (cs "P5 1 1 70000\n") k Demo.w0 = none ∧
    Demo.openAs "pfm" (cs "Pf 99999999999999999999 1 -1\n") k Demo.w0 = none ∧
    Demo.openAs "pfm" (cs "Pf 1 1 1e39\n") k Demo.w0 = none ∧
    Demo.openAs "y4m" (cs "YUV4MPEG2 W99999999999999999999 H1\n") k Demo.w0 = none ∧
    Demo.openAs "y4m" (cs "YUV4MPEG2 W1 H1 Cmono" ++ [200] ++ cs "\n") k Demo.w0 = none := by
  refine ⟨?_, ?_, ?_, ?_, ?_⟩ <;> rcases k with ⟨_ | _, _ | _⟩ <;> decide +kernel

end Verif.Props
