import Verif.Props.External
import Verif.Proofs.PngRow

/-! # The readers on top of libraries: PNG (C64) -/

namespace Verif.Props

open Spec

variable {s : Sys} {fs : Fs} {name file : List UInt8} {k : Kind} {m : M Opened}

/-! ## C64

The claim: opening and reading a PNG is never undefined; what libpng rejects is reported as an error, and what libpng decodes is
delivered as one frame of the mean of the samples of each pixel, whatever the colour type, the bit depth, the transparency and
the interlacing. -/

/-- **C64** A PNG of any colour type and bit depth, with or without transparency, plays as one frame.  Missing: interlaced
images of more than one row, see `C64_interlaced_fails` (and `C64_row` for those of one). -/
theorem C64_decodes_partial {lib : Png} {i : PngInfo} {rows : List (List Dot)} (hm : OpensWith m s (pngReader s fs lib) name true)
    (hh : fs.Holds name (file, k)) (hd : lib.Decodes file i rows) (hi : i.interlaced = false) (hw : Within s.cfg i.width i.height) :
    Plays m i.width i.height [rows.flatten.map Dot.sample] (fun _ => True) := by
  rw [hm.1]
  obtain ⟨st, h1, h2, h3⟩ := hd.startup
  have hlen : rows.flatten.length = i.width * i.height := by rw [flatten_length_eq hd.width, hd.height, Nat.mul_comm]
  refine (png_player (dots := rows.flatten) hw).plays (png_sound s fs lib False) hw (fun L S => ?_)
  refine Act.mono (png_open hh h1 L S) ?_
  rintro a _ _ ⟨y, rfl, y1, y2, y3, y4, y5, y6, y7, y8, y9⟩
  have hr := png_ready hd.legal hi y9 y2 y3 y4 y5 y6 y7
  have hc : (y.color = 2) = (i.color ∈ [2, 3, 6]) := by
    rw [png_transformed hd.legal, Prod.mk.injEq] at y3
    rw [y3.1]
    split <;> simp_all
  have hkind : ∀ r ∈ rows, ∀ d ∈ r, d.isColour = decide (y.color = 2) := by simpa only [hc] using hd.kind
  refine ⟨_, rfl, y, rfl, by rw [y8]; rfl, hlen, fun _ => ⟨hr, h3, ?_, rows.map (fun r => (r.map Dot.bytes).flatten), by simp [hd.height], ?_, ?_,
    by rw [y1]; exact h2⟩⟩
  · intro d hd'
    obtain ⟨r, hr1, hr2⟩ := List.mem_flatten.mp hd'
    exact hkind r hr1 d hr2
  · intro r hr1
    obtain ⟨r', hr2, rfl⟩ := List.mem_map.mp hr1
    have hb : ∀ d ∈ r'.map Dot.bytes, d.length = pngWays y.color := by
      intro d hd1
      obtain ⟨d', hd2, rfl⟩ := List.mem_map.mp hd1
      have := hkind r' hr2 d' hd2
      rcases hr.color with h | h <;> rw [h] at this ⊢ <;> cases d' <;> first | rfl | cases this
    rw [flatten_length_eq hb, List.length_map, hd.width r' hr2]
  · rw [List.map_flatten, List.flatten_flatten]
    simp [List.map_map, Function.comp_def]

example : Demo.pngFs.Holds (cs "-") (Demo.pngFile, false) ∧ (Demo.png 2 false).Decodes Demo.pngFile ⟨2, 2, 4, 3, true, false⟩ Demo.pngRows ∧
    Within Demo.sys.cfg 2 2 := ⟨Demo.holds_png, Demo.png_decodes, by unfold Within; decide +kernel⟩

/-- **C64** So does an interlaced one of a single row: each pixel comes from its pass. -/
theorem C64_row {lib : Png} {i : PngInfo} {row : List Dot} (hm : OpensWith m s (pngReader s fs lib) name true)
    (hh : fs.Holds name (file, k)) (hd : lib.DecodesRow file i row) (hw : Within s.cfg i.width 1) :
    Plays m i.width 1 [row.map Dot.sample] (fun _ => True) := by
  rw [hm.1]
  exact (row_player hw).plays (png_sound s fs lib False) hw (row_open hh hd)

/-- The picture of one row: its two pixels come from the first and the sixth pass. -/
theorem Demo.png_row : (Demo.png 1 true).DecodesRow Demo.pngFile ⟨2, 1, 4, 3, true, true⟩ [.colour 7 8 9, .colour 11 12 13] where
  startup := by
    refine ⟨7, Demo.png_startup _ _, ?_, rfl⟩
    refine .more (x := 0) (f := fun i => UInt8.ofNat (7 + i)) (by decide) rfl rfl ?_ ?_
    · decide
    refine .empty (fun x hx => ?_) (.empty (fun x hx => ?_) (.more (x := 1) (f := fun i => UInt8.ofNat (8 + i)) (by decide) rfl rfl ?_ (.done _)))
    · simp only at hx; omega
    · simp only at hx; omega
    · decide
  legal := Demo.png_legal _ _
  interlaced := rfl
  height := rfl
  width := rfl
  kind := by simp [Dot.isColour]

example : Demo.pngFs.Holds (cs "-") (Demo.pngFile, false) ∧ (Demo.png 1 true).DecodesRow Demo.pngFile ⟨2, 1, 4, 3, true, true⟩ [.colour 7 8 9, .colour 11 12 13] ∧
    Within Demo.sys.cfg 2 1 := ⟨Demo.holds_png, Demo.png_row, by unfold Within; decide +kernel⟩

/-- **C64** The brightness of a pixel is the mean of its three samples, scaled to 1, up to 2^-21; it is between 0 and 1. -/
theorem C64_mean (r g b : UInt8) : ∃ q : ℚ, (Dot.colour r g b).sample = .fin false q ∧ 0 ≤ q ∧ q ≤ 1 ∧
    |q - ((r.toNat : ℚ) + g.toNat + b.toNat) / (3 * 255)| ≤ 1 / 2 ^ 21 := by
  obtain ⟨q, h1, h2, h3, h4⟩ := colour_near r g b
  refine ⟨q, h1, h2, h3, ?_⟩
  push_cast at h4
  rw [show (3 * 255 : ℚ) = 765 by norm_num]
  exact h4

/-- The bound is not idle: the mean is not always exact. -/
example : (Dot.colour 1 0 0).sample ≠ .fin false ((1 : ℚ) / 765) := by decide +kernel

/-- **C64** What has not the signature, and what libpng rejects, is reported as invalid, and nothing is left behind. -/
theorem C64_rejects {lib : Png} (hm : OpensWith m s (pngReader s fs lib) name true) (hh : fs.Holds name (file, k))
    (hd : lib.startup file = none) : Rejects m RDEINVAL := by
  rw [hm.1]
  exact rejects_of (png_sound s fs lib False) (by decide) (png_refuses hh hd)

example : Demo.fs.Holds (cs "a.pgm") (Demo.pgmBytes, true) ∧ (Demo.png 2 false).startup Demo.pgmBytes = none ∧
    (Demo.png 2 false).startup (Demo.pngFile.take 8) = none := ⟨Demo.holds_pgm, by decide +kernel, by decide +kernel⟩

/-- **C64** An image with too many pixels, or none, is refused as such. -/
theorem C64_limit {lib : Png} {i : PngInfo} {st : ℕ} (hm : OpensWith m s (pngReader s fs lib) name true) (hh : fs.Holds name (file, k))
    (hd : lib.startup file = some (i, st)) (hw : ¬ Within s.cfg i.width i.height) : Rejects m RDETOOBIG := by
  rw [hm.1]
  refine toobig_of (png_sound s fs lib False) hw (fun L S => ?_)
  refine Act.mono (png_open hh hd L S) ?_
  rintro a _ _ ⟨y, rfl, _⟩
  rfl

example : ({ Demo.png 2 true with info := fun _ => .ret (⟨2 ^ 31 - 1, 2 ^ 31 - 1, 8, 0, false, true⟩, 7) } : Png).startup Demo.pngFile =
    some (⟨2 ^ 31 - 1, 2 ^ 31 - 1, 8, 0, false, true⟩, 7) ∧ ¬ Within { Demo.sys.cfg with pixelMax := 2 ^ 32 } (2 ^ 31 - 1) (2 ^ 31 - 1) :=
  ⟨by decide +kernel, by unfold Within; decide +kernel⟩

/-- **C64** Opening any file and any sequence of calls are defined, whatever libpng does, as long as the image is not interlaced
or has one row.  Missing: other interlaced images, see `C64_interlaced_fails`. -/
theorem C64_defined_partial {lib : Png} {wantBuf : Bool} (hm : OpensWith m s (pngReader s fs lib) name wantBuf) (hh : fs.Holds name (file, k))
    (hs : ∀ i st, lib.startup file = some (i, st) → i.Legal ∧ (i.interlaced = true → i.height = 1)) : Defined m := by
  rw [hm.1]
  exact row_defined hh hs

example (h : ℕ) : Demo.pngFs.Holds (cs "-") (Demo.pngFile, false) ∧
    (∀ i st, ({ Demo.png h false with row := fun _ => .exit } : Png).startup Demo.pngFile = some (i, st) → i.Legal ∧ (i.interlaced = true → i.height = 1)) ∧
    ∀ i st, (Demo.png 1 true).startup Demo.pngFile = some (i, st) → i.Legal ∧ (i.interlaced = true → i.height = 1) := by
  refine ⟨Demo.holds_png, fun i st hs => ?_, fun i st hs => ?_⟩
  · have : ({ Demo.png h false with row := fun _ => .exit } : Png).startup Demo.pngFile = (Demo.png h false).startup Demo.pngFile := rfl
    rw [this, Demo.png_startup] at hs
    cases hs
    exact ⟨Demo.png_legal _ _, by simp⟩
  · rw [Demo.png_startup] at hs
    cases hs
    exact ⟨Demo.png_legal _ _, fun _ => rfl⟩

/-- **C64** fails: no interlaced image of more than one row can be read.  The reader asks for the handling of interlacing after
libpng has prepared for the rows, and libpng goes through all passes with the rows of the first.  Nothing is delivered: reading
an image of more than 8 rows is an error, and reading one of up to 8 rows either is an error too or uses samples that have never
been set. -/
theorem C64_interlaced_fails {lib : Png} {i : PngInfo} {st : ℕ} (hm : OpensWith m s (pngReader s fs lib) name true) (hh : fs.Holds name (file, k))
    (hd : lib.startup file = some (i, st)) (hl : i.Legal) (hi : i.interlaced = true) (h2 : 2 ≤ i.height) (hw : Within s.cfg i.width i.height)
    {w : World} (hwf : w.WF) (hp : Plenty w) :
    ∃ img buf w1, m w = some (⟨some img, i.width, i.height, some buf, RDEOK⟩, w1) ∧
      ((session [.read] (some img) (some buf) w1 = none ∧ i.height ≤ 8) ∨
        ∃ img' buf' w2, session [.read] (some img) (some buf) w1 = some (([.read false RDEINVAL buf.data], img', buf'), w2)) := by
  rw [hm.1]
  obtain ⟨img, buf, w1, h3, h4⟩ := first_read (U := i.height ≤ 8) (G := fun x => ∃ y, x = .png y ∧ y.eof = false ∧ y.Woven i.width i.height)
    (P := fun b e d d' => b = false ∧ e = RDEINVAL ∧ d' = d) (png_sound s fs lib False) hw
    (fun L S => by
      refine Act.mono (png_open hh hd L S) ?_
      rintro a _ _ ⟨y, rfl, y1, y2, y3, y4, y5, y6, y7, y8, y9⟩
      exact ⟨_, rfl, y, rfl, y8, png_woven hl hi y9 y2 y3 y4 y5 y6 y7⟩)
    (fun L S x img hx hg hl' => by
      obtain ⟨y, rfl, h5, h6⟩ := hg
      refine Act.bind (pngRead_woven hw h6 h5 h2) ?_
      rintro a L' S' ⟨⟨h7, h8⟩, h9 | ⟨_, h9⟩⟩
      · exact Act.pure ⟨h7, h9, h8⟩
      · exact h9.elim) hwf hp
  refine ⟨img, buf, w1, h3, ?_⟩
  rcases h4 with h4 | ⟨b, e, data, i', buf', w2, h4, rfl, rfl, rfl⟩
  · exact Or.inl h4
  · exact Or.inr ⟨i', buf', w2, h4⟩

example (h : ℕ) (h2 : 2 ≤ h) (h9 : h ≤ 9) : Demo.pngFs.Holds (cs "-") (Demo.pngFile, false) ∧
    (Demo.png h true).startup Demo.pngFile = some (⟨2, h, 4, 3, true, true⟩, 7) ∧ (⟨2, h, 4, 3, true, true⟩ : PngInfo).Legal ∧
    Within Demo.sys.cfg 2 h ∧ Demo.w0.WF ∧ Plenty Demo.w0 := by
  refine ⟨Demo.holds_png, Demo.png_startup _ _, Demo.png_legal _ _, ?_, Demo.w0_wf, fun _ => rfl⟩
  unfold Within
  interval_cases h <;> decide +kernel

end Verif.Props
