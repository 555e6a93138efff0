import Verif.Props.External
import Verif.Proofs.FfmpegPlay

/-! # The readers on top of libraries: FFmpeg (C66) -/

namespace Verif.Props

open Spec

variable {s : Sys} {name : List UInt8} {m : M Opened} {lib : Ffmpeg}

/-! ## C66

The claim: whatever FFmpeg does, opening a video and any sequence of calls on it are defined; the frames delivered are those of the
best video stream, in order, and seeking skips frames; a file that cannot be opened is refused with the reason FFmpeg gives; running
out of memory is reported as such; a failure while reading is an error and not the end.

FFmpeg's error numbers that come from the system are negated `errno`s (`hE`). -/

/-- **C66** The frames are those of the stream. -/
theorem C66_decodes {W H : ℕ} {frames : List (List Fl)} (hE : ∀ a, lib.isErrno a = true → a < 0)
    (hm : OpensWith m s (ffmpegReader s lib) name true) (ho : lib.failure name = 0) (hd : lib.size = (W, H))
    (hf : lib.Shows lib.bestStream (W * H) lib.state frames) (hw : Within s.cfg W H) : Plays m W H frames (fun _ => True) := by
  rw [hm.1]
  refine (ffmpeg_player hw).plays (ffmpeg_sound s lib hE False) hw (fun L S => ?_)
  refine Act.mono (ffmpeg_open ho L S) ?_
  rintro a _ _ ⟨y, rfl, _, h1, h2⟩
  rw [hd]
  exact ⟨_, rfl, y, rfl, h1, by rw [h2]; exact hf⟩

example : (∀ a, (Demo.ffmpeg 0 (-541478725)).isErrno a = true → a < 0) ∧
    (Demo.ffmpeg 0 (-541478725)).failure (cs "a.mkv") = 0 ∧ (Demo.ffmpeg 0 (-541478725)).size = (1, 2) ∧
    (Demo.ffmpeg 0 (-541478725)).Shows (Demo.ffmpeg 0 (-541478725)).bestStream (1 * 2) (Demo.ffmpeg 0 (-541478725)).state Demo.ffmpegFrames ∧
    Within Demo.sys.cfg 1 2 :=
  ⟨Demo.ffmpeg_errno _ _, rfl, rfl, Demo.ffmpeg_shows 0, by unfold Within; decide +kernel⟩

example (params last : ℤ) : OpensWith (resdetOpenImageWithReader Demo.sys { Demo.io with ffmpeg := some (ffmpegReader Demo.sys (Demo.ffmpeg params last)) }
    (some (cs "a.mkv")) (some (cs "FFmpeg")) true true true) Demo.sys (ffmpegReader Demo.sys (Demo.ffmpeg params last)) (cs "a.mkv") true :=
  (C30_by_name_partial (Or.inr (by decide))).1 (cs "FFmpeg", _) ⟨[(cs "PGM", _), (cs "PFM", _), (cs "Y4M", _)], [], rfl, by
    show (cs "FFmpeg").map lower = (cs "FFmpeg").map lower; rfl, by
    simp only [List.mem_cons, List.not_mem_nil, or_false]
    rintro e' (rfl | rfl | rfl) <;> unfold SameText <;> decide +kernel⟩

/-- **C66** A video over the limit is refused as too big. -/
theorem C66_limit (hE : ∀ a, lib.isErrno a = true → a < 0) (hm : OpensWith m s (ffmpegReader s lib) name true)
    (ho : lib.failure name = 0) (hw : ¬ Within s.cfg lib.size.1 lib.size.2) : Rejects m RDETOOBIG := by
  rw [hm.1]
  refine toobig_of (ffmpeg_sound s lib hE False) hw (fun L S => ?_)
  refine Act.mono (ffmpeg_open ho L S) ?_
  rintro a _ _ ⟨y, rfl, _⟩
  rfl

example : (Demo.ffmpeg 0 (-541478725)).failure (cs "a.mkv") = 0 ∧ ¬ Within { Demo.sys.cfg with pixelMax := 1 } 1 2 :=
  ⟨rfl, by unfold Within; decide +kernel⟩

/-- **C66** The reason of a failure to open is reported, and nothing is left behind.  Missing: parameters the decoder does not take,
see `C66_parameters_fails`, and running out of memory, see `C66_nomem_fails`. -/
theorem C66_reasons_partial (hE : ∀ a, lib.isErrno a = true → a < 0) (hm : OpensWith m s (ffmpegReader s lib) name true)
    (ho : lib.failure name ≠ 0) (hp : 0 ≤ lib.toContext) :
    Rejects m (if lib.isErrno (lib.failure name) then lib.failure name else RDEINVAL) := by
  rw [hm.1]
  refine rejects_of (ffmpeg_sound s lib hE False) (averrorCode_ne ho) (fun L S => ?_)
  refine Act.mono (ffmpeg_refuses ho L S) ?_
  rintro a _ _ ⟨h1, h2⟩
  rw [if_neg (fun h => absurd h.2.1 (by omega))] at h2
  exact ⟨h1, h2⟩

example : (Demo.ffmpeg 0 0).failure (cs "b.mkv") = -2 ∧ (Demo.ffmpeg 0 0).isErrno (-2) = true ∧ 0 ≤ (Demo.ffmpeg 0 0).toContext :=
  ⟨rfl, rfl, le_refl _⟩

/-- **C66** fails: if the decoder does not take the parameters, for lack of memory or whatever other reason, the reason is lost and
the file counts as invalid. -/
theorem C66_parameters_fails (hE : ∀ a, lib.isErrno a = true → a < 0) (hm : OpensWith m s (ffmpegReader s lib) name true)
    (h1 : lib.openInput (Ffmpeg.url name) = 0) (h2 : 0 ≤ lib.findInfo) (h3 : 0 ≤ lib.bestStream) (h4 : lib.toContext < 0) :
    Rejects m RDEINVAL := by
  have hf : lib.failure name = lib.toContext := by
    unfold Ffmpeg.failure
    rw [if_neg (by simpa using h1), if_neg (by omega), if_neg (by omega), if_pos h4]
  have hc : averrorCode lib 1 = RDEINVAL := by
    unfold averrorCode
    rw [if_neg (fun h => absurd (hE 1 h) (by decide))]
  rw [hm.1]
  refine rejects_of (ffmpeg_sound s lib hE False) (by decide) (fun L S => ?_)
  refine Act.mono (ffmpeg_refuses (by rw [hf]; omega) L S) ?_
  rintro a _ _ ⟨e1, e2⟩
  rw [if_pos ⟨hf, h4, h1, h2, h3⟩, hc] at e2
  exact ⟨e1, e2⟩

example : (Demo.ffmpeg (-12) 0).openInput (Ffmpeg.url (cs "a.mkv")) = 0 ∧ 0 ≤ (Demo.ffmpeg (-12) 0).findInfo ∧
    0 ≤ (Demo.ffmpeg (-12) 0).bestStream ∧ (Demo.ffmpeg (-12) 0).toContext < 0 ∧ (Demo.ffmpeg (-12) 0).isErrno (-12) = true :=
  ⟨rfl, by decide +kernel, by decide +kernel, by decide +kernel, rfl⟩

/-- **C66** fails: if the video is not the first stream and there is no memory for the decoder, the file counts as invalid: the
index of the stream is taken for an error. -/
theorem C66_nomem_fails {wantBuf : Bool} (hE : ∀ a, lib.isErrno a = true → a < 0)
    (hm : OpensWith m s (ffmpegReader s lib) name wantBuf) (h1 : lib.openInput (Ffmpeg.url name) = 0) (h2 : 0 ≤ lib.findInfo)
    (h3 : 0 < lib.bestStream) {w : World} (s0 : w.sched 0 = true) (s1 : w.sched 1 = true) (s2 : w.sched 2 = false) :
    ∃ w', m w = some (⟨none, 0, 0, none, RDEINVAL⟩, w') := by
  have hc : averrorCode lib lib.bestStream = RDEINVAL := by
    unfold averrorCode
    rw [if_neg (fun h => absurd (hE _ h) (by omega))]
  rw [hm.1, ← hc]
  exact ffmpeg_nomem h1 h2 h3 s0 s1 s2

example : (Demo.ffmpeg 0 0).openInput (Ffmpeg.url (cs "a.mkv")) = 0 ∧ 0 ≤ (Demo.ffmpeg 0 0).findInfo ∧ 0 < (Demo.ffmpeg 0 0).bestStream ∧
    ∃ w : World, w.sched 0 = true ∧ w.sched 1 = true ∧ w.sched 2 = false :=
  ⟨rfl, by decide +kernel, by decide +kernel, { Demo.w0 with sched := fun k => decide (k < 2) }, rfl, rfl, rfl⟩

/-- **C66** fails: if the file cannot be read any further, whatever the error, that is the end of the video without an error. -/
theorem C66_truncated_fails {W H st1 st2 st3 st4 : ℕ} {e j : ℤ} (hE : ∀ a, lib.isErrno a = true → a < 0)
    (hm : OpensWith m s (ffmpegReader s lib) name true) (ho : lib.failure name = 0) (hd : lib.size = (W, H)) (hw : Within s.cfg W H)
    (h1 : lib.receive lib.state = (lib.again, st1)) (h2 : lib.readPacket st1 = (e, j, st2)) (he : e ≠ 0)
    (h3 : lib.send st2 false = (0, st3)) (h4 : lib.receive st3 = (lib.eof, st4)) (h5 : lib.eof ≠ 0) (h6 : lib.eof ≠ lib.again)
    (hp : 2 ≤ lib.patience) {w : World} (hwf : w.WF) (hpl : Plenty w) :
    ∃ img buf w1 img' buf' w2, m w = some (⟨some img, W, H, some buf, RDEOK⟩, w1) ∧
      session [.read] (some img) (some buf) w1 = some (([.read false RDEOK buf.data], img', buf'), w2) := by
  rw [hm.1]
  have hfr : ffmpegFrame lib lib.bestStream lib.patience lib.state = some (lib.eof, st4) :=
    ffmpegFrame_eq ⟨2, .fed h1 rfl (.over h2 he) (by omega) h3 (.now h4 h6), hp⟩
  obtain ⟨img, buf, w1, h3, h4⟩ := first_read (U := False)
    (G := fun x => ∃ y : FfmpegCtx, x = .ffmpeg y ∧ y.streamIndex = lib.bestStream ∧ y.state = lib.state)
    (P := fun b e d d' => b = false ∧ e = RDEOK ∧ d' = d) (ffmpeg_sound s lib hE False) hw
    (fun L S => by
      refine Act.mono (ffmpeg_open ho L S) ?_
      rintro a _ _ ⟨y, rfl, _, h⟩
      rw [hd]
      exact ⟨_, rfl, y, rfl, h⟩)
    (fun L S x img hx hg hl' => by
      obtain ⟨y, rfl, hi, hst⟩ := hg
      rw [← hi, ← hst] at hfr
      refine Act.bind (ffmpegRead_act hx hw hl'.ge (fun h => by rw [hfr] at h; cases h)) ?_
      rintro a L' S' ⟨rfl, rfl, r, st, hr, h⟩
      rw [hfr] at hr
      cases hr
      rcases h with ⟨_, rfl⟩ | ⟨h, _⟩ | ⟨h, _⟩
      · exact Act.pure ⟨rfl, by simp [endCode], rfl⟩
      · exact absurd h h5
      · exact absurd h h5) hwf hpl
  rcases h4 with ⟨_, h⟩ | ⟨b, e, data, i', buf', w2, h4, rfl, rfl, rfl⟩
  · exact h.elim
  · exact ⟨img, buf, w1, i', buf', w2, h3, h4⟩

example : ∃ lib : Ffmpeg, lib.failure (cs "a.mkv") = 0 ∧ lib.size = (1, 2) ∧ lib.receive lib.state = (lib.again, 4) ∧
    lib.readPacket 4 = (-5, 0, 5) ∧ lib.isErrno (-5) = true ∧ lib.send 5 false = (0, 8) ∧ lib.receive 8 = (lib.eof, 8) ∧ lib.eof ≠ 0 ∧
    lib.eof ≠ lib.again ∧ 2 ≤ lib.patience :=
  ⟨{ Demo.ffmpeg 0 (-5) with state := 4, send := fun _ _ => (0, 8) }, rfl, rfl, rfl, rfl, rfl, rfl, rfl, by decide +kernel, by decide +kernel, by decide +kernel⟩

/-- **C66** Nothing is undefined.  Missing: that decoding ends, which is up to FFmpeg. -/
theorem C66_defined_partial {wantBuf : Bool} (hE : ∀ a, lib.isErrno a = true → a < 0)
    (hm : OpensWith m s (ffmpegReader s lib) name wantBuf)
    (hfin : ∀ st, ∃ n r st', lib.Comes lib.bestStream n st r st' ∧ n ≤ lib.patience) : Defined m := by
  rw [hm.1]
  refine ffmpeg_defined hE (fun st => ?_)
  obtain ⟨n, r, st', h, hn⟩ := hfin st
  rw [ffmpegFrame_eq ⟨n, h, hn⟩]
  exact Option.some_ne_none _

example : ∀ st, ∃ n r st', (Demo.ffmpeg 0 (-5)).Comes 1 n st r st' ∧ n ≤ (Demo.ffmpeg 0 (-5)).patience := by
  intro st
  by_cases h0 : st = 0
  · subst h0
    exact ⟨2, 0, 4, .fed (k := 2) (st1 := 0) (st2 := 2) (st3 := 3) (more := true) rfl rfl (.skip (j := 0) (st1 := 1) rfl (by decide) (.found rfl))
      (by decide +kernel) rfl (.now rfl (by decide +kernel)), by decide +kernel⟩
  · by_cases h4 : st = 4
    · subst h4
      exact ⟨2, 0, 7, .fed (k := 1) (st1 := 4) (st2 := 5) (st3 := 6) (more := false) rfl rfl (.over (e := -5) (j := 0) rfl (by decide))
        (by decide +kernel) rfl (.now rfl (by decide +kernel)), by decide +kernel⟩
    · refine ⟨1, ((Demo.ffmpeg 0 (-5)).receive st).1, ((Demo.ffmpeg 0 (-5)).receive st).2, .now rfl ?_, by decide +kernel⟩
      show (if st = 0 ∨ st = 4 then _ else if st = 3 then _ else if st = 6 then _ else _ : ℤ × ℕ).1 ≠ -11
      rw [if_neg (by simp [h0, h4])]
      split
      · decide
      · split <;> simp

end Verif.Props
