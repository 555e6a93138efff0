import Verif.Proofs.Outlook
import Verif.Proofs.PngRow
import Verif.Spec.Presents

/-! Files of all formats as the programs read them. -/

namespace Verif

open Spec

variable {s : Sys} {io : Io} {op : M Opened} {k W H : ℕ} {frames : List (List Fl)} {e : RDError}

theorem window_of_after {name : List UInt8} {r : Reader} {Ok : Ctx → ℕ → ℕ → Prop} (hb : Builtin s io.fs r Ok)
    (hop : op = openImage s (some r) name true) (hy : YieldsAfter op k W H frames e) :
    ∃ x out, Window s io op name k W H r Ok x out ∧ out.1 = true ∧ out.2.2.frames s W H = (frames, some e) := by
  obtain ⟨i, buf, w1, h1, skipped, last, i', buf', w2, h2, h3⟩ := hy ⟨[], [], 0, fun _ => true⟩ (by constructor <;> simp) (fun _ => rfl)
  obtain ⟨x, out, y, o1, o2, hx, e1, e2, e3⟩ := window_of_session hb hop (by constructor <;> simp) (fun _ => rfl) h1 h2
  have hl := e3.length
  have := List.append_inj' e1 (by rw [hl]; simp)
  obtain ⟨rfl, rfl⟩ := this
  refine ⟨x, out, hx, ?_, frames_of_runs hx.within.pos e3⟩
  by_cases h0 : k = 0
  · have := hx.skip
    rw [if_pos h0] at this
    rw [this]
  · rw [if_neg h0] at e2
    obtain ⟨calls, e2⟩ := e2
    rcases h3 with h3 | ⟨c2, h3⟩
    · rw [h3] at e2; cases e2
    · rw [h3] at e2
      simp only [List.cons.injEq, IObs.seek.injEq, and_true] at e2
      exact e2.1.symm

theorem Spec.Presents.reveals (h : Presents s io op k W H frames) : Reveals s op k W H frames := by
  cases h with
  | native h1 h2 =>
    obtain ⟨r, Ok, hb, hop, _⟩ := h1.builtin
    obtain ⟨x, out, hx, hout, hfr⟩ := window_of_after hb hop h2
    have := hx.outlook (F := False) (fun _ => hfr)
    rw [hout] at this
    exact ⟨_, _, _, _, this.start_good⟩
  | @jpeg lib name file kind _ _ rows hm hh hd hw hk =>
    rw [hm.1]
    obtain ⟨st, rec', h1, h2, h3⟩ := hd.startup
    have hb : (fun b : UInt8 => normal 255 b.toNat) = byteSample := funext (fun b => (byteSample_eq b).symm)
    rw [hb]
    refine (jpeg_player hw hd.width hd.height).reveals (jpeg_sound s io.fs lib False) (jpeg_quiet lib) hw (fun L S => ?_) hk
    refine Act.mono (jpeg_open hh h1 L S) ?_
    rintro a _ _ ⟨y, rfl, h4, h5, h6, h7, rfl, rfl⟩
    exact ⟨_, rfl, y, rfl, h4, h5, by rw [h7]; rfl, fun _ => ⟨h6, h3, h2⟩⟩
  | pngRow hm hh hd hw hk =>
    rw [hm.1]
    exact (row_player hw).reveals (png_sound s io.fs _ False) (png_quiet _) hw (row_open hh hd) hk
  | @png lib name file kind i rows hm hh hd hi hw hk =>
    rw [hm.1]
    obtain ⟨st, h1, h2, h3⟩ := hd.startup
    have hlen : rows.flatten.length = i.width * i.height := by rw [flatten_length_eq hd.width, hd.height, Nat.mul_comm]
    refine (png_player (dots := rows.flatten) hw).reveals (png_sound s io.fs lib False) (png_quiet lib) hw (fun L S => ?_) hk
    refine Act.mono (png_open hh h1 L S) ?_
    rintro a _ _ ⟨y, rfl, y1, y2, y3, y4, y5, y6, y7, y8, y9⟩
    have hr := png_ready hd.legal hi y9 y2 y3 y4 y5 y6 y7
    have hc : (y.color = 2) = (i.color ∈ [2, 3, 6]) := by
      rw [png_transformed hd.legal, Prod.mk.injEq] at y3
      rw [y3.1]
      split <;> simp_all
    have hkind : ∀ r ∈ rows, ∀ d ∈ r, d.isColour = decide (y.color = 2) := by simpa only [hc] using hd.kind
    refine ⟨_, rfl, y, rfl, by rw [y8]; rfl, hlen, fun _ => ⟨hr, h3, ?_, rows.map (fun r => (r.map Dot.bytes).flatten), by simp [hd.height], ?_, ?_,
      by rw [y1]; exact h2⟩⟩
    · intro d hd'
      obtain ⟨r, hr1, hr2⟩ := List.mem_flatten.mp hd'
      exact hkind r hr1 d hr2
    · intro r hr1
      obtain ⟨r', hr2, rfl⟩ := List.mem_map.mp hr1
      have hb : ∀ d ∈ r'.map Dot.bytes, d.length = pngWays y.color := by
        intro d hd1
        obtain ⟨d', hd2, rfl⟩ := List.mem_map.mp hd1
        have := hkind r' hr2 d' hd2
        rcases hr.color with h | h <;> rw [h] at this ⊢ <;> cases d' <;> first | rfl | cases this
      rw [flatten_length_eq hb, List.length_map, hd.width r' hr2]
    · rw [List.map_flatten, List.flatten_flatten]
      simp [List.map_map, Function.comp_def]
  | @magick lib name st _ _ fs hm hr hf hw hk =>
    rw [hm.1]
    refine (magick_player hw).reveals (magick_sound s io.fs lib True False) (magick_quiet lib) hw (fun L S => ?_) hk
    refine Act.mono (magick_open hr L S) ?_
    rintro a _ _ ⟨y, rfl, rfl⟩
    exact ⟨_, rfl, y, rfl, hf⟩
  | @ffmpeg lib name _ _ fs hE hm ho hd hf hw hk =>
    rw [hm.1]
    refine (ffmpeg_player hw).reveals (ffmpeg_sound s lib hE False) (ffmpeg_quiet lib) hw (fun L S => ?_) hk
    refine Act.mono (ffmpeg_open ho L S) ?_
    rintro a _ _ ⟨y, rfl, _, h1, h2⟩
    rw [hd]
    exact ⟨_, rfl, y, rfl, h1, by rw [h2]; exact hf⟩

/-- Without skipping, opening and reading is enough. -/
theorem Reveals.fount (h : Reveals s op 0 W H frames) : ∃ r Ok G, Fount s op W H r Ok False G (fun x => G x frames RDEOK) := by
  obtain ⟨r, Ok, G, G0, hx⟩ := h
  exact ⟨r, Ok, G, hx.fount.mono (hx.start rfl).2⟩

end Verif
