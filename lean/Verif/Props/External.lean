import Verif.Props.Open
import Verif.Proofs.JpegPlay
import Verif.Spec.DemoExternal

/-!
# The readers on top of libraries: JPEG (C63)

The libraries are arbitrary; the theorems say what they have to do.
-/

namespace Verif.Props

open Spec

variable {s : Sys} {fs : Fs} {name file : List UInt8} {k : Kind} {m : M Opened}

/-! ## C63

The claim: opening and reading a JPEG is never undefined; what libjpeg rejects is reported as an error, and what libjpeg decodes
is delivered as one frame, also if libjpeg has something to say about the file. -/

/-- **C63** A JPEG libjpeg decodes without a message plays as one frame, its samples divided by 255.  Missing: files libjpeg
prints messages for, see `C63_read_fails`. -/
theorem C63_decodes_partial {lib : Jpeg} {W H : ℕ} {rows : List (List UInt8)} (hm : OpensWith m s (jpegReader s fs lib) name true)
    (hh : fs.Holds name (file, k)) (hd : lib.Decodes file W H rows) (hw : Within s.cfg W H) :
    Plays m W H [rows.flatten.map (fun b => normal 255 b.toNat)] (fun _ => True) := by
  rw [hm.1]
  obtain ⟨st, rec', h1, h2, h3⟩ := hd.startup
  have hb : (fun b : UInt8 => normal 255 b.toNat) = byteSample := funext (fun b => (byteSample_eq b).symm)
  rw [hb]
  refine (jpeg_player hw hd.width hd.height).plays (jpeg_sound s fs lib False) hw (fun L S => ?_)
  refine Act.mono (jpeg_open hh h1 L S) ?_
  rintro a _ _ ⟨y, rfl, h4, h5, h6, h7, rfl, rfl⟩
  exact ⟨_, rfl, y, rfl, h4, h5, by rw [h7]; rfl, fun _ => ⟨h6, h3, h2⟩⟩

/-- Any of the readers can be the one an image is opened with. -/
example (r : Reader) : OpensWith (resdetOpenImageWithReader Demo.sys { Demo.io with libjpeg := some r } (some (cs "a.pgm")) (some (cs "LibJPEG")) true true true)
    Demo.sys r (cs "a.pgm") true :=
  (C30_by_name_partial (Or.inr (by decide))).1 (cs "libjpeg", r) ⟨[(cs "PGM", _), (cs "PFM", _), (cs "Y4M", _)], [], rfl, by show (cs "libjpeg").map lower = (cs "LibJPEG").map lower; decide +kernel, by
    simp only [List.mem_cons, List.not_mem_nil, or_false]
    rintro y (rfl | rfl | rfl) <;> (unfold SameText; decide +kernel)⟩

example : Demo.fs.Holds (cs "a.pgm") (Demo.pgmBytes, true) ∧ (Demo.jpeg true false false).Decodes Demo.pgmBytes 2 3 Demo.jpegRows ∧
    Within Demo.sys.cfg 2 3 := ⟨Demo.holds_pgm, Demo.jpeg_decodes _, by unfold Within; decide +kernel⟩

/-- **C63** What libjpeg rejects is reported as invalid, and nothing is left behind.  Missing: a compiler that ends the lifetime
of the `jmp_buf` with the `if` statement, see `C63_open_fails`. -/
theorem C63_rejects_partial {lib : Jpeg} (hm : OpensWith m s (jpegReader s fs lib) name true) (hl : lib.literalEnds = false)
    (hh : fs.Holds name (file, k)) (hd : lib.startup file = none) : Rejects m RDEINVAL := by
  rw [hm.1]
  exact rejects_of (jpeg_sound s fs lib False) (by decide) (jpeg_refuses hl hh hd)

example (ends : Bool) : (Demo.jpeg ends false false).literalEnds = ends ∧ ({ Demo.fs with stdin := ([0], false) } : Fs).Holds (cs "-") ([0], false) ∧
    (Demo.jpeg ends false false).startup [0] = none := ⟨rfl, Or.inl ⟨rfl, rfl⟩, by cases ends <;> decide +kernel⟩

/-- **C63** An image with too many pixels, or none, is refused as such. -/
theorem C63_limit {lib : Jpeg} {st W H rec' : ℕ} (hm : OpensWith m s (jpegReader s fs lib) name true) (hh : fs.Holds name (file, k))
    (hd : lib.startup file = some (st, W, H, rec')) (hw : ¬ Within s.cfg W H) : Rejects m RDETOOBIG := by
  rw [hm.1]
  refine toobig_of (jpeg_sound s fs lib False) hw (fun L S => ?_)
  refine Act.mono (jpeg_open hh hd L S) ?_
  rintro a _ _ ⟨y, rfl, _⟩
  rfl

example : ({ Demo.jpeg true false false with start := fun st => .ret false (st, 2, 0, 1) } : Jpeg).startup Demo.pgmBytes = some (7, 2, 0, 1) ∧
    ¬ Within Demo.sys.cfg 2 0 := ⟨by decide +kernel, by unfold Within; decide +kernel⟩

/-- **C63** fails: the error manager is a compound literal in `libjpeg_reader_open` and does not exist any more when the image is
read.  Whenever libjpeg uses it then, be it only for a message, the behaviour is undefined. -/
theorem C63_read_fails {lib : Jpeg} {st W H rec' : ℕ} (hm : OpensWith m s (jpegReader s fs lib) name true) (hh : fs.Holds name (file, k))
    (hd : lib.startup file = some (st, W, H, rec')) (hw : Within s.cfg W H) (hc : lib.Complains rec' st H) {w : World} (hwf : w.WF)
    (hp : Plenty w) : ∃ i buf w1, m w = some (⟨some i, W, H, some buf, RDEOK⟩, w1) ∧ session [.read] (some i) (some buf) w1 = none := by
  rw [hm.1]
  have hF : ∀ j, w.sched j = false → False := fun j h => by rw [hp j] at h; cases h
  rcases openImage_act (jpeg_sound s fs lib False) (wantBuf := true) (jpeg_open hh hd) (L := []) (S := []) w w (Own.init hwf hF) with
    ⟨_, h5⟩ | ⟨op, w', L', S', h4, ow, h5⟩
  · exact h5.elim
  · rcases h5 with ⟨i, x, ho, ⟨y, e1, y1, y2, y3, y4, rfl, rfl⟩, hp1, rfl⟩ | ⟨_, _, _, ⟨_, h⟩ | ⟨_, _, _, _, _, h, _⟩ | ⟨_, _, _, _, ⟨_, h, _⟩, hn⟩⟩
    · obtain ⟨b, hbuf⟩ := ho.buffer
      simp only [Option.some.injEq, Prod.mk.injEq] at e1
      obtain ⟨rfl, hW, hH, _⟩ := e1
      obtain ⟨oi, ow', oh, ob, oe⟩ := op
      simp only at hW hH hbuf
      subst hW hH
      have e1 : oi = some i := ho.image
      have e2 : oe = 0 := ho.error
      subst e1 e2 hbuf
      refine ⟨i, _, w', h4, ?_⟩
      obtain ⟨hw', y', hx, hdead⟩ := openJpeg_dead hwf h4 rfl
      have hx' := ho.ctx
      rw [hx] at hx'
      cases hx'
      have hp' : Plenty w' := fun j => by
        by_contra h
        exact ow.sched j (by simpa using h)
      have hread : jpegRead s lib y (List.replicate (ow' * oh) s.env.junk) i.width i.height w' = none :=
        jpegRead_dead y4 (by rw [y3, y2]; exact hc) (by omega) hw' hp' hdead
      unfold session
      refine M.bind_none (M.bind_none ?_)
      unfold readImageFrame
      have ht : ∀ {β : Type} {b : ℕ} {f : Unit → M β}, f () w' = none → (touch b >>= f) w' = none := by
        intro β b f h
        by_cases hb : b ∈ w'.live
        · rw [M.bind_some (by unfold touch; rw [if_pos hb])]; exact h
        · exact M.bind_none (by unfold touch; rw [if_neg hb])
      simp only
      refine ht (ht ?_)
      have hr : need i.reader = (pure (jpegReader s fs lib) : M Reader) := by rw [ho.reader]; rfl
      have hcx : need i.ctx = (pure (Ctx.jpeg y) : M Ctx) := by rw [hx]; rfl
      rw [hr, hcx]
      simp only [pure_bind]
      exact M.bind_none (M.bind_none hread)
    · exact h.elim
    · cases h
    · cases h; exact absurd hw hn

example (stops : Bool) : (Demo.jpeg true (!stops) stops).startup Demo.pgmBytes = some (7, 2, 3, 1) ∧ Within Demo.sys.cfg 2 3 ∧
    (Demo.jpeg true (!stops) stops).Complains 1 7 3 ∧ Demo.w0.WF ∧ Plenty Demo.w0 :=
  ⟨by cases stops <;> decide +kernel, by unfold Within; decide +kernel, Demo.jpeg_complains _ _ _ (by cases stops <;> simp), Demo.w0_wf, fun _ => rfl⟩

/-- **C63** fails: where the lifetime of a compound literal in the condition of an `if` ends with the statement (C11 6.8.4p3), the
`jmp_buf` is gone when libjpeg gives up on a file, and opening it is undefined. -/
theorem C63_open_fails {lib : Jpeg} (hm : OpensWith m s (jpegReader s fs lib) name true) (hl : lib.literalEnds = true)
    (hh : fs.Holds name (file, k)) (hd : lib.startup file = none) {w : World} (hwf : w.WF) (hp : Plenty w) : m w = none := by
  rw [hm.1]
  unfold openImage
  obtain ⟨b, w1, h1, hp1⟩ := hp.malloc
  rw [M.bind_some h1]
  exact M.bind_none (M.bind_none (jpegOpen_none hl hh hd (Tidy.malloc _ _ _ hwf h1).1 hp1))

example : (Demo.jpeg true false false).literalEnds = true ∧ ({ Demo.fs with stdin := ([0], false) } : Fs).Holds (cs "-") ([0], false) ∧
    (Demo.jpeg true false false).startup [0] = none ∧ Demo.w0.WF ∧ Plenty Demo.w0 :=
  ⟨rfl, Or.inl ⟨rfl, rfl⟩, by decide +kernel, Demo.w0_wf, fun _ => rfl⟩

end Verif.Props
