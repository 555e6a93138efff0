import Verif.Props.External
import Verif.Proofs.MagickPlay

/-! # The readers on top of libraries: MagickWand (C65) -/

namespace Verif.Props

open Spec

variable {s : Sys} {fs : Fs} {name : List UInt8} {m : M Opened} {lib : Magick}

/-! ## C65

The claim: whatever ImageMagick does, opening an image and any sequence of calls on it are defined; the frames delivered are those
of the file, in order, and seeking skips frames; a frame that cannot be had is an error; a file that cannot be opened is refused
with the reason ImageMagick or the system gives. -/

/-- **C65** Nothing is undefined. -/
theorem C65_defined {wantBuf : Bool} (hm : OpensWith m s (magickReader s fs lib) name wantBuf) : Defined m := by
  rw [hm.1]
  have hs := magick_sound s fs lib False True
  refine defined_of (magick_sound s fs lib True True) (G := fun _ _ _ => True)
    (fun L S x img w h hx _ hw hl => (hs.reads L S x img w h hx hw hl).mono (fun _ _ _ _ => trivial))
    (fun L S x k p w h hx _ hw => (hs.seeks L S x k p w h hx hw).mono (fun _ _ _ _ => trivial))
    (fun L S => (hs.opens L S name).mono (fun _ _ _ _ _ _ => trivial))

example (ok : Bool) (ex : MagickEx) (errno : ℕ) : OpensWith (resdetOpenImageWithReader Demo.sys { Demo.io with magickwand := some (magickReader Demo.sys Demo.fs (Demo.magick ok ex errno)) }
    (some (cs "a.gif")) (some (cs "MagickWand")) true true true) Demo.sys (magickReader Demo.sys Demo.fs (Demo.magick ok ex errno)) (cs "a.gif") true :=
  (C30_by_name_partial (Or.inr (by decide))).1 (cs "MagickWand", _) ⟨[(cs "PGM", _), (cs "PFM", _), (cs "Y4M", _)], [], rfl, by
    show (cs "MagickWand").map lower = (cs "MagickWand").map lower; rfl, by
    simp only [List.mem_cons, List.not_mem_nil, or_false]
    rintro y (rfl | rfl | rfl) <;> (unfold SameText; decide +kernel)⟩

/-- **C65** The frames of a file play one after the other.  Missing: frames ImageMagick cannot export, see `C65_export_fails`. -/
theorem C65_decodes_partial {st W H : ℕ} {frames : List (List Fl)} (hm : OpensWith m s (magickReader s fs lib) name true)
    (hr : lib.read name = .inr (st, W, H)) (hf : lib.Shows W H st frames) (hw : Within s.cfg W H) :
    Plays m W H frames (fun _ => True) := by
  rw [hm.1]
  refine (magick_player hw).plays (magick_sound s fs lib True False) hw (fun L S => ?_)
  refine Act.mono (magick_open hr L S) ?_
  rintro a _ _ ⟨y, rfl, rfl⟩
  exact ⟨_, rfl, y, rfl, hf⟩

example : (Demo.magick true .other 0).read (cs "a.gif") = .inr (0, 1, 2) ∧
    (Demo.magick true .other 0).Shows 1 2 0 [[.fin false (1 / 4), .fin false (2 / 4)], [.fin false (2 / 4), .fin false (3 / 4)]] ∧
    Within Demo.sys.cfg 1 2 := ⟨rfl, Demo.magick_shows, by unfold Within; decide +kernel⟩

/-- **C65** An image with too many pixels, or none, is refused as such. -/
theorem C65_limit {st W H : ℕ} (hm : OpensWith m s (magickReader s fs lib) name true) (hr : lib.read name = .inr (st, W, H))
    (hw : ¬ Within s.cfg W H) : Rejects m RDETOOBIG := by
  rw [hm.1]
  refine toobig_of (magick_sound s fs lib True False) hw (fun L S => ?_)
  refine Act.mono (magick_open hr L S) ?_
  rintro a _ _ ⟨y, rfl, _⟩
  rfl

example : (Demo.magick true .other 0).read (cs "a.gif") = .inr (0, 1, 2) ∧ ¬ Within { Demo.sys.cfg with pixelMax := 1 } 1 2 :=
  ⟨rfl, by unfold Within; decide +kernel⟩

/-- **C65** The reason of a failure is reported, and nothing is left behind.  Missing: failures to open that leave `errno` at 0,
see `C65_errno_fails`. -/
theorem C65_reasons_partial {ex : MagickEx} {errno : ℕ} (hm : OpensWith m s (magickReader s fs lib) name true)
    (hr : lib.read name = .inl (ex, errno)) :
    (ex = .blobError ∨ ex = .fileOpenError → errno ≠ 0 → Rejects m (-(errno : ℤ))) ∧
    (ex = .resourceLimitError ∨ ex = .resourceLimitFatalError → Rejects m RDENOMEM) ∧
    (ex = .missingDelegateError → (∃ d, fs.Holds name d) → Rejects m RDEUNSUPP) ∧
    (ex = .missingDelegateError → name ≠ cs "-" → ∀ e : ℕ, fs.fopen name = .inl e → Rejects m (-(e + 1 : ℤ))) ∧
    (ex = .other → Rejects m RDEINVAL) := by
  have key : ∀ e, magickReason fs name ex errno = e → e ≠ 0 → Rejects m e := by
    rintro _ rfl he
    rw [hm.1]
    refine rejects_of (magick_sound s fs lib True False) he (fun L S => ?_)
    refine Act.mono (magick_refuses hr L S) ?_
    rintro a _ _ rfl
    exact ⟨rfl, rfl⟩
  refine ⟨?_, ?_, ?_, ?_, ?_⟩
  · rintro (rfl | rfl) he
    · exact key _ rfl (by simpa using he)
    · exact key _ rfl (by simpa using he)
  · rintro (rfl | rfl)
    · exact key _ rfl (by decide)
    · exact key _ rfl (by decide)
  · rintro rfl ⟨d, h | ⟨h1, h2⟩⟩
    · exact key _ (by simp only [magickReason]; rw [if_pos h.1]) (by decide)
    · exact key _ (by simp only [magickReason]; rw [if_neg h1, h2]) (by decide)
  · rintro rfl hn e he
    exact key _ (by simp only [magickReason]; rw [if_neg hn, he]) (by show (-(e + 1 : ℤ) : ℤ) ≠ 0; omega)
  · rintro rfl
    exact key _ rfl (by decide)

example (ok : Bool) (ex : MagickEx) : (Demo.magick ok ex 2).read (cs "a.pgm") = .inl (ex, 2) ∧ (∃ d, Demo.fs.Holds (cs "a.pgm") d) :=
  ⟨rfl, _, Demo.holds_pgm⟩

/-- **C65** fails: a frame ImageMagick cannot export is reported as read, with the buffer as it was. -/
theorem C65_export_fails {st st' W H : ℕ} (hm : OpensWith m s (magickReader s fs lib) name true) (hr : lib.read name = .inr (st, W, H))
    (hn : lib.next st = some st') (he : lib.export' st' W H = none) (hw : Within s.cfg W H) {w : World} (hwf : w.WF) (hp : Plenty w) :
    ∃ img buf w1 img' buf' w2, m w = some (⟨some img, W, H, some buf, RDEOK⟩, w1) ∧
      session [.read] (some img) (some buf) w1 = some (([.read true RDEOK buf.data], img', buf'), w2) := by
  rw [hm.1]
  obtain ⟨img, buf, w1, h3, h4⟩ := first_read (U := False) (G := fun x => ∃ y, x = .magick y ∧ y.state = st)
    (P := fun b e d d' => b = true ∧ e = RDEOK ∧ d' = d) (magick_sound s fs lib True False) hw
    (fun L S => by
      refine Act.mono (magick_open hr L S) ?_
      rintro a _ _ ⟨y, rfl, h⟩
      exact ⟨_, rfl, y, rfl, h⟩)
    (fun L S x img hx hg hl' => by
      obtain ⟨y, rfl, rfl⟩ := hg
      refine Act.bind (magickRead_act hw hl'.ge) ?_
      rintro a L' S' ⟨rfl, rfl, ⟨h, _⟩ | ⟨st2, h5, ⟨h6, rfl⟩ | ⟨f, h6, _⟩⟩⟩
      · rw [hn] at h; cases h
      · exact Act.pure ⟨rfl, rfl, rfl⟩
      · rw [hn] at h5; cases h5
        rw [he] at h6; cases h6) hwf hp
  rcases h4 with ⟨_, h⟩ | ⟨b, e, data, i', buf', w2, h4, rfl, rfl, rfl⟩
  · exact h.elim
  · exact ⟨img, buf, w1, i', buf', w2, h3, h4⟩

example : (Demo.magick false .other 0).read (cs "a.gif") = .inr (0, 1, 2) ∧ (Demo.magick false .other 0).next 0 = some 1 ∧
    (Demo.magick false .other 0).export' 1 1 2 = none ∧ Within Demo.sys.cfg 1 2 ∧ Demo.w0.WF ∧ Plenty Demo.w0 :=
  ⟨rfl, rfl, rfl, by unfold Within; decide +kernel, Demo.w0_wf, fun _ => rfl⟩

/-- **C65** fails: a file that cannot be opened is too big, if `errno` happens to be 0. -/
theorem C65_errno_fails {ex : MagickEx} (hm : OpensWith m s (magickReader s fs lib) name true) (hr : lib.read name = .inl (ex, 0))
    (hx : ex = .blobError ∨ ex = .fileOpenError) : Rejects m RDETOOBIG := by
  rw [hm.1]
  refine toobig_of (W := 0) (H := 0) (magick_sound s fs lib True False) (fun h => absurd h.1 (lt_irrefl _)) (fun L S => ?_)
  refine Act.mono (magick_refuses hr L S) ?_
  rintro a _ _ rfl
  rcases hx with rfl | rfl <;> rfl

example : (Demo.magick true .fileOpenError 0).read (cs "b.gif") = .inl (.fileOpenError, 0) := rfl

end Verif.Props
