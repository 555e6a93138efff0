import Verif.Proofs.Broken
import Verif.Props.Formats

/-!
# Read errors (C71)

A stream whose kind is broken ends in a read error: what lies behind its last byte cannot be read (`Stream.feof` is false there).
-/

namespace Verif.Props

open Spec

variable {s : Sys} {io : Io} {name file : List UInt8} {k : Kind} {m : M Opened} {W H d : ℕ} {x : Sampling} {ft : Option (List UInt8)}

theorem series_open (hv : Series s io name m) (hh : io.fs.Holds name (file, k)) (hk : k.broken = true) :
    ∃ r Ok, Builtin s io.fs r Ok ∧ m = openImage s (some r) name true ∧ ∃ a, Determined r name a ∧ ∀ x W H e, a = some (some x, W, H, e) → x.Broken := by
  cases hv with
  | pfm ho hu => exact ⟨_, _, .pfm, uses_pfm hu ho, pfm_opens_broken hk hh⟩
  | y4m ho hu => exact ⟨_, _, .y4m, uses_y4m hu ho, y4m_opens_broken hk hh⟩

/-- **C71** Whatever a PFM or Y4M contains, if it ends in a read error no call ever reports that the images came to their end. -/
theorem C71_calls (hv : Series s io name m) (hh : io.fs.Holds name (file, k)) (hk : k.broken = true) {w w1 w2 : World} {o : Opened} (hw : w.WF)
    (hm : m w = some (o, w1)) (he : o.error = RDEOK) {ops : List IOp} {obs : List IObs} {i : Option RDImage} {b : Option (Buf Fl)}
    (hs : session ops o.image o.buf w1 = some ((obs, i, b), w2)) : ∀ y ∈ obs, y.ended = false := by
  obtain ⟨r, Ok, hb, rfl, a, hd, ha⟩ := series_open hv hh hk
  obtain ⟨x, h1, _, _, h4⟩ := hb.opened hd hw hm he
  rcases h4 ops with ⟨h, _⟩ | ⟨obs', i', b', w2', x', h, hr, _⟩
  · rw [hs] at h; cases h
  · rw [hs] at h
    cases h
    exact hr.broken (ha _ _ _ _ h1)

/-- The example: two frames of a Y4M and then a read error where the next frame would start. -/
theorem series_demo : Series Demo.sys (Demo.disk Demo.y4mBytes ⟨true, true⟩) (cs "a." ++ cs "y4m") (Demo.openAs "y4m" Demo.y4mBytes ⟨true, true⟩) :=
  .y4m rfl (Demo.uses_as (by decide) _ _)

example : (Demo.disk Demo.y4mBytes ⟨true, true⟩).fs.Holds (cs "a." ++ cs "y4m") (Demo.y4mBytes, ⟨true, true⟩) ∧
    Demo.shows "y4m" Demo.y4mBytes ⟨true, true⟩ [.read, .seek 1, .seek 1, .read] =
      some [.read true RDEOK [.fin false 0, .fin false 1], .seek true RDEOK [1], .seek false RDEINVAL [], .read false RDEINVAL [.fin false 0, .fin false 1]] ∧
    Demo.shows "y4m" Demo.y4mBytes true [.read, .seek 1, .seek 1, .read] =
      some [.read true RDEOK [.fin false 0, .fin false 1], .seek true RDEOK [1], .seek false RDEOK [], .read false RDEOK [.fin false 0, .fin false 1]] :=
  ⟨Demo.disk_holds (by decide), by decide +kernel, by decide +kernel⟩

/-- **C71** Reading such a file at once never succeeds. -/
theorem C71_bulk (hv : Series s io name (resdetOpenImage s io (some name) ft true true true)) (hh : io.fs.Holds name (file, k)) (hk : k.broken = true)
    {w w' : World} {o : ReadOut} (hw : w.WF) (hr : readImage s io (some name) ft true true w = some (o, w')) : o.error ≠ RDEOK := by
  obtain ⟨r, Ok, hb, hm, a, hd, ha⟩ := series_open hv hh hk
  rcases hb.readImage_end (F := ∃ j, w.sched j = false) (L := []) (S := []) hm hd w w (Own.init hw (fun j hj => ⟨j, hj⟩)) with
    ⟨h, _⟩ | ⟨o', w'', L', S', h1, _, h2⟩
  · rw [hr] at h; cases h
  · rw [hr] at h1
    cases h1
    exact fun h => (h2 h).not_broken ha

example : ((readImage Demo.sys (Demo.disk Demo.y4mBytes ⟨true, true⟩) (some (cs "a.y4m")) none true true Demo.w0).map (fun r => r.1.error)) = some RDEINVAL ∧
    ((readImage Demo.sys (Demo.disk Demo.y4mBytes true) (some (cs "a.y4m")) none true true Demo.w0).map (fun r => (r.1.error, r.1.nimages))) = some (RDEOK, 2) := by
  constructor <;> decide +kernel

/-- **C71** Nor does the detection on such a file: there are no results from what was read before the error. -/
theorem C71_detect (hs : Build s) {method : Option Method} {params : Option Params} (hme : ValidMethod? method) (hp : ValidParams? s.cfg params)
    (hv : Series s io name (resdetOpenImage s io (some name) ft true true true)) (hh : io.fs.Holds name (file, k)) (hk : k.broken = true)
    {w w' : World} {e : RDError} {out : Out} {fuel : ℕ} {ptr : Ptrs} (hw : w.WF)
    (hr : resdetectFile s io fuel (some name) ft ptr method params w = some ((e, out), w')) : e ≠ RDEOK := by
  obtain ⟨r, Ok, hb, hm, a, hd, ha⟩ := series_open hv hh hk
  rcases hb.file_end (F := True) (L := []) (S := []) hs hme hp trivial hm hd w w (Own.init hw (fun _ _ => trivial)) with
    ⟨h, _⟩ | ⟨o', w'', L', S', h1, _, h2⟩
  · rw [hr] at h; cases h
  · rw [hr] at h1
    cases h1
    exact fun h => (h2 h).not_broken ha

example : Build Demo.sys ∧ ValidMethod? none ∧ ValidParams? Demo.sys.cfg none ∧ Kind.broken ⟨true, true⟩ = true ∧ Demo.w0.WF :=
  ⟨Demo.sys_build, by simp [ValidMethod?], by simp [ValidParams?], rfl, Demo.w0_wf⟩

/-- **C71** PFM: complete images and then a read error give the images and an error. -/
theorem C71_pfm {images : List PfmImage} (ho : io.omitPfm = false) (hu : Uses s io name (cs "pfm") m) (hh : io.fs.Holds name (file, k))
    (hk : k.broken = true) (hf : PfmFile W H images file) (h0 : images ≠ []) (hw : Within s.cfg W H) :
    Yields m W H (images.map PfmImage.samples) RDEINVAL := by
  rw [uses_pfm hu ho]
  obtain ⟨hW, hH⟩ := Within.le_size hw
  have hpos : 0 < W * H := Nat.mul_pos hw.1 hw.2.1
  cases images with
  | nil => exact absurd rfl h0
  | cons i is =>
    obtain ⟨b, p, scale, hd, h1, h2, h3, h4⟩ := pfm_open (s := s) (r := []) (by rw [List.append_nil]; exact hh) hf hW hH
    refine Builtin.pfm.yields hd hw ?_
    rw [Ctx.frames_next hpos (pfm_step_data (x := ⟨0, ⟨none, ⟨i.data ++ (b ++ []), p, k⟩⟩, scale, letter i.colour, true⟩)
      (by unfold pfmReadHeader; rw [if_pos rfl]) rfl rfl h1 h2), pfm_frames_broken hW hH hpos h3 _ rfl (by simp) hk]
    rfl

example : PfmFile 1 2 Demo.pfmImages Demo.pfmBytes ∧ Demo.pfmImages ≠ [] ∧ Within Demo.sys.cfg 1 2 ∧
    Uses Demo.sys (Demo.disk Demo.pfmBytes ⟨false, true⟩) (cs "a." ++ cs "pfm") (cs "pfm") (Demo.openAs "pfm" Demo.pfmBytes ⟨false, true⟩) ∧
    (Demo.disk Demo.pfmBytes ⟨false, true⟩).fs.Holds (cs "a." ++ cs "pfm") (Demo.pfmBytes, ⟨false, true⟩) :=
  ⟨Demo.pfm_file, by decide, by unfold Within; decide, Demo.uses_as (by decide) _ _, Demo.disk_holds (by decide)⟩

/-- **C71** Y4M: complete frames and then a read error give the frames and an error. -/
theorem C71_y4m {frames : List (List ℕ)} (ho : io.omitY4m = false) (hu : Uses s io name (cs "y4m") m) (hh : io.fs.Holds name (file, k))
    (hb : k.broken = true) (hf : Y4mFile W H x d frames file) (hx : Skippable W H x) (hs : Feasible s.cfg W H x d)
    (hk : k.seekable = true → file.length ≤ s.cfg.longMax) : Yields m W H (lumas d frames) RDEINVAL := by
  cases hf with
  | @mk lname head a hl hp hf =>
    have hw : Within s.cfg W H := ⟨hs.width, hs.height, by have := hs.pixels; omega, hs.floats⟩
    obtain ⟨hW, hH⟩ := Within.le_size hw
    obtain ⟨_, _, h8, h16⟩ := layouts_read _ hl
    have h3 := hs.bytes
    rw [← hx.assumed] at h3
    rw [uses_y4m hu ho]
    have hh' : io.fs.Holds name (head ++ (a ++ []), k) := by rw [List.append_nil]; exact hh
    have hd := (y4m_determined (s := s) name).1 _ k hh'
    unfold y4mOutcome at hd
    rw [y4mHeader_eq hp hW hH] at hd
    simp only at hd
    rw [y4mSizes_eq hl hs.width hs.height hs.pixels hs.floats h3, hx.assumed] at hd
    simp only at hd
    refine Builtin.y4m.yields hd hw ?_
    refine y4m_frames h8 h16 (Nat.mul_pos hs.width hs.height) hs.order hf ?_ (fun p => y4m_step_broken hb)
    intro hmode
    have hkk : k.seekable = true := by
      unfold seekMode at hmode
      simp only [Bool.and_eq_true] at hmode
      exact hmode.2.1
    refine ⟨hkk, ?_⟩
    have := hk hkk
    simpa using this

example : Y4mFile 2 1 .mono 8 [[0, 255], [255, 0]] Demo.y4mBytes ∧ Skippable 2 1 .mono ∧ Feasible Demo.sys.cfg 2 1 .mono 8 :=
  ⟨Demo.y4m_file, ⟨by decide, by decide⟩, by constructor <;> decide⟩

end Verif.Props
