import Verif.Props.Bulk
import Verif.Props.Magick
import Verif.Props.Ffmpeg
import Verif.Props.Png

/-! # Builds with libraries (C67) -/

namespace Verif.Props

open Spec

variable {s : Sys} {fs : Fs} {libs : Libs}

/-! ## C67

The claim: with whatever libraries resdet is built, and whatever they do, the readers on top of them keep to what the rest of the
program relies on, so what is claimed of opening images and of `resdetect_file` holds for them; and a file goes to the reader for
its format, or else to FFmpeg, or else to MagickWand. -/

/-- **C67** The readers on top of libraries keep the contract. -/
theorem C67_contract (hE : libs.Errnos) : (libs.io s fs).Contract s.cfg := by
  rintro r (h | h | h | h)
  · obtain ⟨lib, _, rfl⟩ := Option.map_eq_some_iff.mp h
    exact ⟨_, fun F => jpeg_sound s fs lib F⟩
  · obtain ⟨lib, _, rfl⟩ := Option.map_eq_some_iff.mp h
    exact ⟨_, fun F => png_sound s fs lib F⟩
  · obtain ⟨lib, hl, rfl⟩ := Option.map_eq_some_iff.mp h
    exact ⟨_, fun F => ffmpeg_sound s lib (hE lib hl) F⟩
  · obtain ⟨lib, _, rfl⟩ := Option.map_eq_some_iff.mp h
    exact ⟨_, fun F => magick_sound s fs lib True F⟩

example : Demo.libs.Errnos := Demo.libs_errnos

/-- **C67** Opening an image either fails and leaves nothing behind, or gives a positive size within the limit, a buffer of that
size, and a handle that releases everything. -/
theorem C67_open {fn ft : Option (List UInt8)} {hasW hasH wantBuf : Bool} {w w' : World} {o : Opened} (hE : libs.Errnos) (hw : w.WF)
    (h : resdetOpenImage s (libs.io s fs) fn ft hasW hasH wantBuf w = some (o, w')) : OpenOutcome s wantBuf w o w' :=
  C29_open (C67_contract hE) hw h

example : Demo.libs.Errnos ∧ Demo.w0.WF ∧
    (resdetOpenImage Demo.sys (Demo.libs.io Demo.sys Demo.pngFs) (some (cs "-")) (some (cs "image/png")) true true true Demo.w0).map (fun r =>
      (r.1.width, r.1.height, r.1.error)) = some (2, 2, RDEOK) :=
  ⟨Demo.libs_errnos, Demo.w0_wf, by decide +kernel⟩

/-- **C67** `resdetect_file` returns what it promises, with a code that has a message. -/
theorem C67_file {fn ft : Option (List UInt8)} {ptr : Ptrs} {m : Option Method} {p : Option Params} (hE : libs.Errnos) (hs : Build s)
    (hm : ValidMethod? m) (hp : ValidParams? s.cfg p) {fuel : ℕ} {w w' : World} (hw : w.WF) {v : RDError × Out}
    (h : resdetectFile s (libs.io s fs) fuel fn ft ptr m p w = some (v, w')) :
    Outputs ptr v.1 v.2 w w' ∧ (v.1 < 0 ∨ v.1 ∈ messages.map Prod.fst) :=
  ⟨C16_file_outputs (C67_contract hE) hs hm hp hw h, C23_file_codes (C67_contract hE) hs hm hp hw h⟩

example : Demo.libs.Errnos ∧ Build Demo.sys ∧ Demo.w0.WF ∧
    (resdetectFile Demo.sys (Demo.libs.io Demo.sys Demo.pngFs) 3 (some (cs "-")) (some (cs "image/png")) ⟨true, true, true, true⟩ none none
      Demo.w0).isSome = true :=
  ⟨Demo.libs_errnos, Demo.sys_build, Demo.w0_wf, by decide +kernel⟩

/-- **C67** Which reader gets a file, for an extension whose characters may be passed to `tolower` (`C30_fails` is about the others). -/
theorem C67_choice {name ext : List UInt8} {ft : Option (List UInt8)} {wantBuf : Bool} (he : Extension name ft ext)
    (hp : Plainly s.cfg ext) :
    (∀ lib, libs.jpeg = some lib → SameText ext (cs "jpg") ∨ SameText ext (cs "jpeg") →
      OpensWith (resdetOpenImage s (libs.io s fs) (some name) ft true true wantBuf) s (jpegReader s fs lib) name wantBuf) ∧
    (∀ lib, libs.png = some lib → SameText ext (cs "png") →
      OpensWith (resdetOpenImage s (libs.io s fs) (some name) ft true true wantBuf) s (pngReader s fs lib) name wantBuf) ∧
    (∀ lib, libs.ffmpeg = some lib → ¬ libs.Known ext → lib.supports ext = true →
      OpensWith (resdetOpenImage s (libs.io s fs) (some name) ft true true wantBuf) s (ffmpegReader s lib) name wantBuf) ∧
    (∀ lib, libs.magick = some lib → ¬ libs.Known ext → (∀ f, libs.ffmpeg = some f → f.supports ext = false) →
      OpensWith (resdetOpenImage s (libs.io s fs) (some name) ft true true wantBuf) s (magickReader s fs lib) name wantBuf) ∧
    (libs.magick = none → ¬ libs.Known ext → (∀ f, libs.ffmpeg = some f → f.supports ext = false) →
      Refuses (resdetOpenImage s (libs.io s fs) (some name) ft true true wantBuf)) := by
  obtain ⟨a1, a2, a3, a4⟩ := C30_accepts (s := s) fs hp
  obtain ⟨rj, h4, h4'⟩ := strieq_spec hp (ascii s.cfg "jpg" (by decide))
  obtain ⟨rk, h5, h5'⟩ := strieq_spec hp (ascii s.cfg "jpeg" (by decide))
  obtain ⟨rp, h6, h6'⟩ := strieq_spec hp (ascii s.cfg "png" (by decide))
  have aj : ∀ lib, (jpegReader s fs lib).supportsExt ext = some (rj || rk) := by
    intro lib
    show (strieq s.cfg ext (cs "jpg")).bind (fun b => if b = true then some true else strieq s.cfg ext (cs "jpeg")) = _
    rw [h4, h5]
    cases rj <;> rfl
  have ap : ∀ lib, (pngReader s fs lib).supportsExt ext = some rp := fun lib => h6
  have hj : rj || rk ↔ SameText ext (cs "jpg") ∨ SameText ext (cs "jpeg") := by
    rw [Bool.or_eq_true, h4', h5']
  have sep : ∀ a b : List UInt8, a.map lower ≠ b.map lower → SameText ext a → ¬ SameText ext b := fun a b h h1 h2 => h (h1.symm.trans h2)
  obtain ⟨c1, c2⟩ := C30_by_type_partial (s := s) (io := libs.io s fs) (wantBuf := wantBuf) he hp (by
    rintro r (h | h | h | h)
    · obtain ⟨lib, _, rfl⟩ := Option.map_eq_some_iff.mp h
      rw [aj]; rfl
    · obtain ⟨lib, _, rfl⟩ := Option.map_eq_some_iff.mp h
      rw [ap]; rfl
    · obtain ⟨lib, hl, rfl⟩ := Option.map_eq_some_iff.mp h
      rfl
    · obtain ⟨lib, _, rfl⟩ := Option.map_eq_some_iff.mp h
      rfl)
  have hbuilt : ∀ r ∈ (if libs.omitPgm then [] else [pgmReader s fs]) ++ (if libs.omitPfm then [] else [pfmReader s fs]) ++
      (if libs.omitY4m then [] else [y4mReader s fs]), r.supportsExt ext = some true →
      (SameText ext (cs "pgm") ∧ libs.omitPgm = false) ∨ (SameText ext (cs "pfm") ∧ libs.omitPfm = false) ∨
      (SameText ext (cs "y4m") ∧ libs.omitY4m = false) := by
    intro r hr h
    simp only [List.mem_append] at hr
    rcases hr with (hr | hr) | hr
    · split at hr
      · cases hr
      · rename_i ho
        rw [List.mem_singleton.mp hr] at h
        exact Or.inl ⟨a1.mp h, by simpa using ho⟩
    · split at hr
      · cases hr
      · rename_i ho
        rw [List.mem_singleton.mp hr] at h
        exact Or.inr (Or.inl ⟨a2.mp h, by simpa using ho⟩)
    · split at hr
      · cases hr
      · rename_i ho
        rw [List.mem_singleton.mp hr] at h
        exact Or.inr (Or.inr ⟨a3.mp h, by simpa using ho⟩)
  have hjpeg : ∀ r ∈ (libs.jpeg.map (jpegReader s fs)).toList, r.supportsExt ext = some true →
      (SameText ext (cs "jpg") ∨ SameText ext (cs "jpeg")) ∧ libs.jpeg.isSome := by
    intro r hr h
    obtain ⟨lib, hl, rfl⟩ := Option.map_eq_some_iff.mp (Option.mem_toList.mp hr)
    rw [aj, Option.some.injEq] at h
    exact ⟨hj.mp h, by rw [hl]; rfl⟩
  have hpng : ∀ r ∈ (libs.png.map (pngReader s fs)).toList, r.supportsExt ext = some true → SameText ext (cs "png") ∧ libs.png.isSome := by
    intro r hr h
    obtain ⟨lib, hl, rfl⟩ := Option.map_eq_some_iff.mp (Option.mem_toList.mp hr)
    rw [ap, Option.some.injEq] at h
    exact ⟨h6'.mp h, by rw [hl]; rfl⟩
  have hff : (∀ f, libs.ffmpeg = some f → f.supports ext = false) → ∀ r ∈ (libs.ffmpeg.map (ffmpegReader s)).toList, r.supportsExt ext ≠ some true := by
    intro hf r hr h
    obtain ⟨lib, hl, rfl⟩ := Option.map_eq_some_iff.mp (Option.mem_toList.mp hr)
    have : some (lib.supports ext) = some true := h
    rw [hf lib hl] at this
    cases this
  have known : ¬ libs.Known ext → ∀ r ∈ (if libs.omitPgm then [] else [pgmReader s fs]) ++ (if libs.omitPfm then [] else [pfmReader s fs]) ++
      (if libs.omitY4m then [] else [y4mReader s fs]) ++ (libs.jpeg.map (jpegReader s fs)).toList ++ (libs.png.map (pngReader s fs)).toList,
      r.supportsExt ext ≠ some true := by
    intro hk r hr h
    rcases List.mem_append.mp hr with hr | hr
    · rcases List.mem_append.mp hr with hr | hr
      · rcases hbuilt r hr h with h | h | h
        · exact hk (Or.inl h)
        · exact hk (Or.inr (Or.inl h))
        · exact hk (Or.inr (Or.inr (Or.inl h)))
      · exact hk (Or.inr (Or.inr (Or.inr (Or.inl (hjpeg r hr h)))))
    · exact hk (Or.inr (Or.inr (Or.inr (Or.inr (hpng r hr h)))))
  have hlist : imageReaders s (libs.io s fs) = (if libs.omitPgm then [] else [pgmReader s fs]) ++ (if libs.omitPfm then [] else [pfmReader s fs]) ++
      (if libs.omitY4m then [] else [y4mReader s fs]) ++ (libs.jpeg.map (jpegReader s fs)).toList ++ (libs.png.map (pngReader s fs)).toList ++
      (libs.ffmpeg.map (ffmpegReader s)).toList ++ (libs.magick.map (magickReader s fs)).toList := rfl
  refine ⟨?_, ?_, ?_, ?_, ?_⟩
  · intro lib hl h
    refine c1 _ ⟨(if libs.omitPgm then [] else [pgmReader s fs]) ++ (if libs.omitPfm then [] else [pfmReader s fs]) ++
      (if libs.omitY4m then [] else [y4mReader s fs]), (libs.png.map (pngReader s fs)).toList ++ (libs.ffmpeg.map (ffmpegReader s)).toList ++
      (libs.magick.map (magickReader s fs)).toList, by rw [hlist, hl]; simp, ?_, ?_⟩
    · exact (aj lib).trans (congrArg some (hj.mpr h))
    · intro r hr h'
      rcases hbuilt r hr h' with ⟨h', _⟩ | ⟨h', _⟩ | ⟨h', _⟩ <;> rcases h with h | h <;> exact sep _ _ (by decide) h h'
  · intro lib hl h
    refine c1 _ ⟨(if libs.omitPgm then [] else [pgmReader s fs]) ++ (if libs.omitPfm then [] else [pfmReader s fs]) ++
      (if libs.omitY4m then [] else [y4mReader s fs]) ++ (libs.jpeg.map (jpegReader s fs)).toList, (libs.ffmpeg.map (ffmpegReader s)).toList ++
      (libs.magick.map (magickReader s fs)).toList, by rw [hlist, hl]; simp, ?_, ?_⟩
    · exact (ap lib).trans (congrArg some (h6'.mpr h))
    · intro r hr h'
      rcases List.mem_append.mp hr with hr | hr
      · rcases hbuilt r hr h' with ⟨h', _⟩ | ⟨h', _⟩ | ⟨h', _⟩ <;> exact sep _ _ (by decide) h h'
      · rcases (hjpeg r hr h').1 with h' | h' <;> exact sep _ _ (by decide) h h'
  · intro lib hl hk h
    refine c1 _ ⟨_, (libs.magick.map (magickReader s fs)).toList, by rw [hlist, hl]; simp only [Option.map_some, Option.toList_some]; rw [List.append_assoc]; rfl, ?_, ?_⟩
    · exact congrArg some h
    · exact known hk
  · intro lib hl hk h
    refine c1 _ ⟨_, [], by rw [hlist, hl]; rfl, rfl, ?_⟩
    intro r hr
    rcases List.mem_append.mp hr with hr | hr
    · exact known hk r hr
    · exact hff h r hr
  · intro hn hk h
    refine c2 (fun r hr => ?_)
    rw [hlist, hn] at hr
    simp only [Option.map_none, Option.toList_none, List.append_nil] at hr
    rcases List.mem_append.mp hr with hr | hr
    · exact known hk r hr
    · exact hff h r hr

example : Extension (cs "a.JPG") none (cs "JPG") ∧ SameText (cs "JPG") (cs "jpg") ∧ Extension (cs "-") (some (cs "image/png")) (cs "png") ∧
    ¬ Demo.libs.Known (cs "mkv") ∧ ∀ c : Cfg, Plainly c (cs "JPG") :=
  ⟨.suffix (cs "a") (cs "JPG") (by decide) (by decide), by unfold SameText; decide, .mime _ _ (by decide),
    by unfold Libs.Known SameText; decide +kernel, fun _ => Or.inr (by decide)⟩

end Verif.Props
