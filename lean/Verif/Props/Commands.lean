import Verif.Props.Library
import Verif.Props.Libraries

/-! # From the command line and files of formats read by other libraries to the printed result (C83) -/

namespace Verif.Props

open Spec

/-- The brightness of a pixel, from 0 to 1. -/
noncomputable def brightness : Dot → ℝ
  | .gray v => v.toNat / 255
  | .colour r g b => (r.toNat + g.toNat + b.toNat) / 765

/-- The picture in pixels given row by row. -/
noncomputable def shades (W : ℕ) (dots : List Dot) (i j : ℕ) : ℝ := ((dots[j * W + i]?).map brightness).getD 0

variable {s : Sys} {io : Io} {v : CliEnv} {permute : Bool} {words operands : List (List UInt8)} {opts : List CliOpt} {input : List UInt8} {m : Method}
  {p : Params} {fuel : ℕ} {w : World} {W H : ℕ} {vb : ℤ} {u B e δ : ℝ} {offset : ℕ} {pics : List (ℕ → ℕ → ℝ)} {pic : ℕ → ℕ → ℝ}

theorem dot_near (d : Dot) : ∃ q : ℚ, d.sample = .fin false q ∧ |(q : ℝ)| ≤ 1 ∧ |(q : ℝ) - brightness d| ≤ 2 ^ (-21 : ℤ) := by
  cases d with
  | gray v =>
    obtain ⟨q, e, q1, q2⟩ := normal_near (maxval := 255) (b := v.toNat) (by norm_num) (by have := v.toNat_lt; omega)
    refine ⟨q, e, q1, le_trans ?_ (show (2 : ℝ) ^ (-24 : ℤ) ≤ 2 ^ (-21 : ℤ) by norm_num)⟩
    exact q2
  | colour r g b =>
    obtain ⟨q, e, q0, q1, q2⟩ := C64_mean r g b
    refine ⟨q, e, ?_, ?_⟩
    · rw [abs_of_nonneg (by exact_mod_cast q0)]
      exact_mod_cast q1
    · have : ((|q - ((r.toNat : ℚ) + g.toNat + b.toNat) / (3 * 255)| : ℚ) : ℝ) ≤ ((1 / 2 ^ 21 : ℚ) : ℝ) := by exact_mod_cast q2
      push_cast at this
      unfold brightness
      norm_num at this ⊢
      exact this

theorem dots_depict {dots : List Dot} (hlen : dots.length = W * H) : Depicts 1 (2 ^ (-21 : ℤ)) W H (dots.map Dot.sample) (shades W dots) := by
  have key : ∀ i j, i < W → j < H → ∃ q : ℚ, (dots.map Dot.sample)[j * W + i]? = some (.fin false q) ∧ |(q : ℝ)| ≤ 1 ∧
      |(q : ℝ) - shades W dots i j| ≤ 2 ^ (-21 : ℤ) := by
    intro i j hi hj
    have hlt : j * W + i < dots.length := by
      rw [hlen]
      calc j * W + i < j * W + W := by omega
        _ = (j + 1) * W := by ring
        _ ≤ H * W := Nat.mul_le_mul_right W hj
        _ = W * H := mul_comm _ _
    obtain ⟨q, e, q1, q2⟩ := dot_near dots[j * W + i]
    refine ⟨q, ?_, q1, ?_⟩
    · rw [List.getElem?_map, List.getElem?_eq_getElem hlt, ← e]; rfl
    · unfold shades
      rw [List.getElem?_eq_getElem hlt]
      exact q2
  refine ⟨fun i j hi hj => ?_, fun i j hi hj => ?_⟩
  · obtain ⟨q, e, q1, _⟩ := key i j hi hj
    exact ⟨false, q, e, q1⟩
  · obtain ⟨q, e, _, q2⟩ := key i j hi hj
    unfold pixel
    rw [e]
    exact q2

theorem one_below {c : Cfg} (hw : Verif.Within c W H) : 1 < c.sizeMax := by
  obtain ⟨a1, a2, _, a4⟩ := hw
  have := Nat.mul_pos a1 a2
  omega

/-- **C83** A JPEG that libjpeg decodes, without complaints, to gray values that differ from a picture by at most `δ`: what is printed is what exact
arithmetic gives for that picture, with coefficients known up to `totalError`. -/
theorem C83_jpeg (h : Job s io v permute words opts input m p w W H vb u 1) {lib : Jpeg} {file : List UInt8} {kind : Kind} {rows : List (List UInt8)}
    (ho : OpensWith (opening s io opts input) s (jpegReader s io.fs lib) input true) (hh : io.fs.Holds input (file, kind))
    (hd : lib.Decodes file W H rows) (hw : Verif.Within s.cfg W H) (hpic : Near δ W H (gray W 255 rows.flatten) pic) (hk : Skips opts 0)
    (hsel : Chosen opts [rows] [rows]) (hexact : Exact s.cfg 1) (hfuel : 1 < fuel) :
    ∃ ex w', cliCommand s io v fuel permute words w = some (ex, w') ∧ Reports s m p W H vb (totalError u 1 (2 ^ (-24 : ℤ) + δ) W H) [pic] ex := by
  have hlen : rows.flatten.length = W * H := by rw [flatten_length_eq hd.width, hd.height, mul_comm]
  have hdep := gray_depicts (maxval := 255) (raster := rows.flatten) (by norm_num) hlen (fun b _ => by have := b.toNat_lt; omega)
  have hall : List.Forall₂ (Depicts 1 (2 ^ (-24 : ℤ) + δ) W H) [rows.flatten.map (fun b => normal 255 b.toNat)] [pic] := .cons (depicts_near hdep hpic) .nil
  have hch := chosen_map (fun r : List (List UInt8) => r.flatten.map fun b => normal 255 b.toNat) hsel
  exact C81_any h hk (.jpeg ho hh hd hw (Nat.zero_le 1)) hch (List.cons_ne_nil _ _) hall hexact (one_below hw) hfuel

/-- **C83** A PNG without interlacing that libpng decodes to pixels whose brightness, the mean of the samples, differs from a picture by at most `δ`. -/
theorem C83_png {i : PngInfo} (h : Job s io v permute words opts input m p w i.width i.height vb u 1) {lib : Png} {file : List UInt8} {kind : Kind}
    {rows : List (List Dot)} (ho : OpensWith (opening s io opts input) s (pngReader s io.fs lib) input true) (hh : io.fs.Holds input (file, kind))
    (hd : lib.Decodes file i rows) (hi : i.interlaced = false) (hw : Verif.Within s.cfg i.width i.height)
    (hpic : Near δ i.width i.height (shades i.width rows.flatten) pic) (hk : Skips opts 0)
    (hsel : Chosen opts [rows] [rows]) (hexact : Exact s.cfg 1) (hfuel : 1 < fuel) :
    ∃ ex w', cliCommand s io v fuel permute words w = some (ex, w') ∧
      Reports s m p i.width i.height vb (totalError u 1 (2 ^ (-21 : ℤ) + δ) i.width i.height) [pic] ex := by
  have hlen : rows.flatten.length = i.width * i.height := by rw [flatten_length_eq hd.width, hd.height, mul_comm]
  have hall : List.Forall₂ (Depicts 1 (2 ^ (-21 : ℤ) + δ) i.width i.height) [rows.flatten.map Dot.sample] [pic] := .cons (depicts_near (dots_depict hlen) hpic) .nil
  have hch := chosen_map (fun r : List (List Dot) => r.flatten.map Dot.sample) hsel
  exact C81_any h hk (.png ho hh hd hi hw (Nat.zero_le 1)) hch (List.cons_ne_nil _ _) hall hexact (one_below hw) hfuel

/-- **C83** A file that MagickWand decodes to frames that depict pictures. -/
theorem C83_magick (h : Job s io v permute words opts input m p w W H vb u B) {lib : Magick} {st : ℕ} {frames sel : List (List Fl)}
    (ho : OpensWith (opening s io opts input) s (magickReader s io.fs lib) input true) (hr : lib.read input = .inr (st, W, H))
    (hf : lib.Shows W H st frames) (hw : Verif.Within s.cfg W H) (hk : Skips opts offset) (hle : offset ≤ frames.length)
    (hsel : Chosen opts (frames.drop offset) sel) (hne : sel ≠ []) (hpics : List.Forall₂ (Depicts B e W H) sel pics)
    (hexact : Exact s.cfg sel.length) (hlen : frames.length < s.cfg.sizeMax) (hfuel : frames.length < fuel) :
    ∃ ex w', cliCommand s io v fuel permute words w = some (ex, w') ∧ Reports s m p W H vb (totalError u B e W H) pics ex :=
  C81_any h hk (.magick ho hr hf hw hle) hsel hne hpics hexact (by rw [List.length_drop]; omega) (by rw [List.length_drop]; omega)

/-- **C83** A video that FFmpeg decodes to frames that depict pictures. -/
theorem C83_ffmpeg (h : Job s io v permute words opts input m p w W H vb u B) {lib : Ffmpeg} {frames sel : List (List Fl)}
    (hE : ∀ a, lib.isErrno a = true → a < 0) (ho : OpensWith (opening s io opts input) s (ffmpegReader s lib) input true) (hf0 : lib.failure input = 0)
    (hsz : lib.size = (W, H)) (hf : lib.Shows lib.bestStream (W * H) lib.state frames) (hw : Verif.Within s.cfg W H) (hk : Skips opts offset)
    (hle : offset ≤ frames.length) (hsel : Chosen opts (frames.drop offset) sel) (hne : sel ≠ []) (hpics : List.Forall₂ (Depicts B e W H) sel pics)
    (hexact : Exact s.cfg sel.length) (hlen : frames.length < s.cfg.sizeMax) (hfuel : frames.length < fuel) :
    ∃ ex w', cliCommand s io v fuel permute words w = some (ex, w') ∧ Reports s m p W H vb (totalError u B e W H) pics ex :=
  C81_any h hk (.ffmpeg hE ho hf0 hsz hf hw hle) hsel hne hpics hexact (by rw [List.length_drop]; omega) (by rw [List.length_drop]; omega)

/-! ## Examples: width 2, doubled by linear interpolation, in all formats -/

namespace Demo

/-- A libjpeg that sees one row of four pixels in every file. -/
def jpegRow : Jpeg where
  literalEnds := true
  create := .ret false ()
  header _ := .ret true 7
  start st := .ret false (st, 4, 1, 1)
  scanlines st _ := if st = 7 then .ret false ([[255, 191, 64, 0]], 8) else .exit

theorem jpegRow_decodes (file : List UInt8) : jpegRow.Decodes file 4 1 [[255, 191, 64, 0]] where
  startup := ⟨7, 1, rfl, by decide, .more (now := [[255, 191, 64, 0]]) (st' := 8) rfl (by simp) (by simp) (.done 8)⟩
  height := rfl
  width := by simp

/-- A libpng that sees one row of four gray pixels in every file with the signature. -/
def pngRow : Png where
  info _ := .ret (⟨4, 1, 8, 0, false, false⟩, 7)
  update := .ret ()
  row st := .ret (fun i => [255, 191, 64, 0].getD i 0, st + 1)
  end' := .ret ()

theorem pngRow_decodes : pngRow.Decodes Demo.pngFile ⟨4, 1, 8, 0, false, false⟩ [[.gray 255, .gray 191, .gray 64, .gray 0]] where
  startup := ⟨7, by decide +kernel, .more (f := fun i => [255, 191, 64, 0].getD i 0) rfl (by decide) (.done _), rfl⟩
  legal := by unfold PngInfo.Legal; simp
  height := rfl
  width := by simp
  kind := by simp [Dot.isColour]

/-- An ImageMagick that sees one image of one row in every file. -/
def magickRow : Magick where
  read _ := .inr (0, 4, 1)
  next st := if st = 0 then some 1 else none
  export' _ _ _ := some (fun j => ramp4.getD j (.fin false 0))

theorem ramp4_get {j : ℕ} (h : j < ramp4.length) : ramp4.getD j (.fin false 0) = ramp4[j] := by
  rw [List.getD_eq_getElem?_getD, List.getElem?_eq_getElem h]
  rfl

theorem magickRow_shows : magickRow.Shows 4 1 0 [ramp4] :=
  .more (st' := 1) rfl rfl rfl (fun _ h => ramp4_get h) (.done rfl)

/-- An FFmpeg that sees two frames of one row in every file. -/
def ffmpegRow : Ffmpeg :=
  { Demo.ffmpeg 0 (-541478725) with
    openInput := fun _ => 0
    size := (4, 1)
    scale := fun _ => (0, fun j => ramp4.getD j (.fin false 0))
    supports := fun e => e == cs "mkv" }

theorem ffmpegRow_errno : ∀ a, ffmpegRow.isErrno a = true → a < 0 := fun _ h => (of_decide_eq_true h).2

theorem ffmpegRow_shows : ffmpegRow.Shows 1 4 0 [ramp4, ramp4] := by
  refine .more (n := 2) (st' := 4) (e := 0) (f := fun j => ramp4.getD j (.fin false 0))
    (.fed (k := 2) (st1 := 0) (st2 := 2) (st3 := 3) (more := true) rfl rfl (.skip (j := 0) (st1 := 1) rfl (by decide) (.found rfl)) (by decide) rfl
      (.now rfl (by decide))) (by decide) rfl (by decide) rfl (fun j h => ramp4_get h)
    (.more (n := 2) (st' := 7) (e := 0) (f := fun j => ramp4.getD j (.fin false 0))
      (.fed (k := 1) (st1 := 4) (st2 := 5) (st3 := 6) (more := false) rfl rfl (.over (e := -541478725) (j := 0) rfl (by decide)) (by decide) rfl
        (.now rfl (by decide))) (by decide) rfl (by decide) rfl (fun j h => ramp4_get h)
      (.done (n := 1) (st' := 7) (.now rfl (by decide)) (by decide) rfl (by decide) (by decide)))

/-- A build with all of these. -/
def rowLibs : Libs := ⟨false, false, false, some jpegRow, some pngRow, some ffmpegRow, some magickRow⟩

/-- Its readers; every file has the signature of a PNG. -/
noncomputable def rowIo : Io := rowLibs.io Demo.sysN ⟨fun _ => .inr (Demo.pngFile, true), (Demo.pngFile, true)⟩

theorem rowIo_holds {name : List UInt8} (h : name ≠ cs "-") : rowIo.fs.Holds name (Demo.pngFile, true) := Or.inr ⟨h, rfl⟩

theorem row_within : Verif.Within Demo.sysN.cfg 4 1 := show Verif.Within (lp64 .kiss) 4 1 by constructor <;> decide +kernel

/-- Width 2 is found. -/
theorem row_found {io : Io} {name : List UInt8} (hn : Operand name) {e : ℝ} (he : 0 < e) (he' : e ≤ 1 / 1000) {pics : List (ℕ → ℕ → ℝ)} {ex : Exit}
    (hp : ∀ pic ∈ pics, pic = pixel 4 ramp4)
    (hr : Reports Demo.sysN Demo.sign { defaultParams Demo.sysN.cfg with range := 1 } 4 1 3 (totalError (2 ^ (-24 : ℤ)) 1 e 4 1) pics ex) :
    ex.code = 0 ∧ ∃ q, 1 ≤ q ∧ q ≤ 1 ∧ ListsWidth 3 ⟨2, .fin false q⟩ (cliText ex.shown) := by
  have hj := plain_job (W := 4) (by norm_num) (by norm_num) demoN_moderate io hn
  have hE : totalError (2 ^ (-24 : ℤ)) 1 e 4 1 ≤ 1 / 10 := by
    unfold totalError errorBound
    rw [primeSum_four, primeSum_one]
    norm_num
    linarith
  refine (C82_enlarged (t := 1) (k := 2) (N := 2) (F := linear 2) hj (error_pos (by positivity) zero_le_one he (by norm_num) one_pos) hr
    (by decide +kernel) hj.threshold_le zero_le_one (C74_linear (by norm_num) (by decide)).2 (by decide)).1 rfl (by decide) ?_
  intro pic hpic
  obtain rfl := hp pic hpic
  have := ramp4_pairs hE
  refine ⟨ramp4_enlarged, le_of_eq ?_⟩
  refine Eq.trans ?_ (congrArg Nat.cast this.symm)
  show (1 : ℚ) * ((1 : ℕ) * (1 : ℕ)) = (1 : ℕ)
  norm_num

end Demo

/-- The hypotheses of C83 for JPEG can be met. -/
example : ∃ ex w', cliCommand Demo.sysN Demo.rowIo Demo.cliEnv 2 true (Demo.plainWords (cs "a.jpg")) Demo.w0 = some (ex, w') ∧
    ex.code = 0 ∧ ∃ q, 1 ≤ q ∧ q ≤ 1 ∧ ListsWidth 3 ⟨2, .fin false q⟩ (cliText ex.shown) := by
  have hj := Demo.plain_job (W := 4) (by norm_num) (by norm_num) demoN_moderate Demo.rowIo (Or.inl (by decide) : Operand (cs "a.jpg"))
  obtain ⟨ex, w', h1, h2⟩ := C83_jpeg (fuel := 2) hj
    ((C67_choice (.suffix (cs "a") (cs "jpg") (by decide) (by decide)) (Or.inr (by decide))).1 Demo.jpegRow rfl (Or.inl rfl))
    (Demo.rowIo_holds (by decide)) (Demo.jpegRow_decodes _) Demo.row_within Demo.file4_near (Or.inl ⟨rfl, rfl⟩) (Or.inl ⟨rfl, rfl⟩)
    (show Exact (lp64 .kiss) 1 from ⟨by decide +kernel, by decide +kernel⟩) (by norm_num)
  exact ⟨ex, w', h1, Demo.row_found (io := Demo.rowIo) (Or.inl (by decide) : Operand (cs "a.jpg")) (by positivity) (by norm_num)
    (fun _ h => List.mem_singleton.mp h) h2⟩

/-- The hypotheses of C83 for PNG can be met. -/
example : ∃ ex w', cliCommand Demo.sysN Demo.rowIo Demo.cliEnv 2 true (Demo.plainWords (cs "a.png")) Demo.w0 = some (ex, w') ∧
    ex.code = 0 ∧ ∃ q, 1 ≤ q ∧ q ≤ 1 ∧ ListsWidth 3 ⟨2, .fin false q⟩ (cliText ex.shown) := by
  have hj := Demo.plain_job (W := 4) (by norm_num) (by norm_num) demoN_moderate Demo.rowIo (Or.inl (by decide) : Operand (cs "a.png"))
  have hnear : Near (1 / 1020) 4 1 (shades 4 [.gray 255, .gray 191, .gray 64, .gray 0]) (pixel 4 ramp4) := by
    intro i j hi hj
    obtain rfl : j = 0 := by omega
    have e : (255 : UInt8).toNat = 255 ∧ (191 : UInt8).toNat = 191 ∧ (64 : UInt8).toNat = 64 := by decide
    interval_cases i <;> norm_num [shades, brightness, pixel, ramp4, val, abs_le, e]
  obtain ⟨ex, w', h1, h2⟩ := C83_png (i := ⟨4, 1, 8, 0, false, false⟩) (fuel := 2) hj
    ((C67_choice (.suffix (cs "a") (cs "png") (by decide) (by decide)) (Or.inr (by decide))).2.1 Demo.pngRow rfl rfl)
    (Demo.rowIo_holds (by decide)) Demo.pngRow_decodes rfl Demo.row_within hnear (Or.inl ⟨rfl, rfl⟩) (Or.inl ⟨rfl, rfl⟩)
    (show Exact (lp64 .kiss) 1 from ⟨by decide +kernel, by decide +kernel⟩) (by norm_num)
  exact ⟨ex, w', h1, Demo.row_found (io := Demo.rowIo) (Or.inl (by decide) : Operand (cs "a.png")) (by positivity) (by norm_num)
    (fun _ h => List.mem_singleton.mp h) h2⟩

/-- The hypotheses of C83 for MagickWand can be met. -/
example : ∃ ex w', cliCommand Demo.sysN Demo.rowIo Demo.cliEnv 2 true (Demo.plainWords (cs "a.gif")) Demo.w0 = some (ex, w') ∧
    ex.code = 0 ∧ ∃ q, 1 ≤ q ∧ q ≤ 1 ∧ ListsWidth 3 ⟨2, .fin false q⟩ (cliText ex.shown) := by
  have hj := Demo.plain_job (W := 4) (by norm_num) (by norm_num) demoN_moderate Demo.rowIo (Or.inl (by decide) : Operand (cs "a.gif"))
  obtain ⟨ex, w', h1, h2⟩ := C83_magick (fuel := 2) (offset := 0) hj
    ((C67_choice (.suffix (cs "a") (cs "gif") (by decide) (by decide)) (Or.inr (by decide))).2.2.2.1 Demo.magickRow rfl
      (by unfold Libs.Known SameText; decide +kernel) (by rintro _ h; cases h; decide)) rfl
    Demo.magickRow_shows Demo.row_within (Or.inl ⟨rfl, rfl⟩) (by simp) (Or.inl ⟨rfl, rfl⟩) (by simp) (.cons Demo.ramp4_depicts .nil)
    (show Exact (lp64 .kiss) 1 from ⟨by decide +kernel, by decide +kernel⟩) (show 1 < (lp64 .kiss).sizeMax by decide +kernel) (by decide)
  exact ⟨ex, w', h1, Demo.row_found (io := Demo.rowIo) (Or.inl (by decide) : Operand (cs "a.gif")) (by positivity) (by norm_num)
    (fun _ h => List.mem_singleton.mp h) h2⟩

/-- The hypotheses of C83 for FFmpeg can be met. -/
example : ∃ ex w', cliCommand Demo.sysN Demo.rowIo Demo.cliEnv 3 true (Demo.plainWords (cs "a.mkv")) Demo.w0 = some (ex, w') ∧
    ex.code = 0 ∧ ∃ q, 1 ≤ q ∧ q ≤ 1 ∧ ListsWidth 3 ⟨2, .fin false q⟩ (cliText ex.shown) := by
  have hj := Demo.plain_job (W := 4) (by norm_num) (by norm_num) demoN_moderate Demo.rowIo (Or.inl (by decide) : Operand (cs "a.mkv"))
  obtain ⟨ex, w', h1, h2⟩ := C83_ffmpeg (fuel := 3) (offset := 0) (lib := Demo.ffmpegRow) hj Demo.ffmpegRow_errno
    ((C67_choice (.suffix (cs "a") (cs "mkv") (by decide) (by decide)) (Or.inr (by decide))).2.2.1 Demo.ffmpegRow rfl
      (by unfold Libs.Known SameText; decide +kernel) (by decide)) rfl rfl
    Demo.ffmpegRow_shows Demo.row_within (Or.inl ⟨rfl, rfl⟩) (by simp) (Or.inl ⟨rfl, rfl⟩) (by simp) (.cons Demo.ramp4_depicts (.cons Demo.ramp4_depicts .nil))
    (show Exact (lp64 .kiss) 2 from ⟨by decide +kernel, by decide +kernel⟩) (show 2 < (lp64 .kiss).sizeMax by decide +kernel) (by decide)
  exact ⟨ex, w', h1, Demo.row_found (io := Demo.rowIo) (Or.inl (by decide) : Operand (cs "a.mkv")) (by positivity) (by norm_num)
    (fun _ h => by simpa using h) h2⟩

end Verif.Props
