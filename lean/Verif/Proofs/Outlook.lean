import Verif.Proofs.CliRun
import Verif.Proofs.JpegPlay
import Verif.Proofs.PngPlay
import Verif.Proofs.MagickPlay
import Verif.Proofs.FfmpegPlay

/-! The readers on top of libraries, as the programs that read frames use them. -/

namespace Verif

open Spec

variable {s : Sys} {fs : Fs} {r : Reader} {Ok : Ctx → ℕ → ℕ → Prop} {R : Ctx → List (List Fl) → Prop} {W H k : ℕ} {x : Ctx} {name : List UInt8}
  {frames : List (List Fl)}

/-- Seeking without a progress callback differs from seeking with one only in the calls. -/
def Quiet (r : Reader) : Prop := ∀ x k w h, r.seek x k false w h = (r.seek x k true w h >>= fun v => pure (hush v))

theorem jpeg_quiet (lib : Jpeg) : Quiet (jpegReader s fs lib) := by
  intro x k w h
  cases x with
  | jpeg x =>
    show (jpegSeek x k false >>= _) = _
    show _ = ((jpegSeek x k true >>= _) >>= _)
    unfold jpegSeek singleSeek
    simp only [bind_assoc, pure_bind]
    congr 1
    funext _
    split <;> rfl
  | _ => rfl

theorem png_quiet (lib : Png) : Quiet (pngReader s fs lib) := by
  intro x k w h
  cases x with
  | png x =>
    show (pngSeek x k false >>= _) = _
    show _ = ((pngSeek x k true >>= _) >>= _)
    unfold pngSeek singleSeek
    simp only [bind_assoc, pure_bind]
    congr 1
    funext _
    split <;> rfl
  | _ => rfl

theorem magickSkip_quiet {lib : Magick} {j st : ℕ} :
    magickSkip lib false k j st = ((magickSkip lib true k j st).1, [], (magickSkip lib true k j st).2.2) := by
  induction k generalizing j st with
  | zero => rfl
  | succ k ih =>
    unfold magickSkip
    cases lib.next st with
    | none => rfl
    | some st1 => simp only [ih, Bool.false_eq_true, if_false]

theorem magick_quiet (lib : Magick) : Quiet (magickReader s fs lib) := by
  intro x k w h
  cases x with
  | magick x =>
    show (magickSeek lib x k false >>= _) = _
    show _ = ((magickSeek lib x k true >>= _) >>= _)
    unfold magickSeek
    simp only [bind_assoc, pure_bind, magickSkip_quiet]
    rfl
  | _ => rfl

theorem ffmpegSkip_quiet {lib : Ffmpeg} {idx : ℤ} {j st : ℕ} :
    ffmpegSkip lib idx false k j st = (ffmpegSkip lib idx true k j st).map (fun v => (v.1, [], v.2.2)) := by
  induction k generalizing j st with
  | zero => rfl
  | succ k ih =>
    unfold ffmpegSkip
    cases ffmpegFrame lib idx lib.patience st with
    | none => rfl
    | some v =>
      simp only [Option.bind_eq_bind, Option.bind_some]
      by_cases h : v.1 ≠ 0
      · rw [if_pos h, if_pos h]; rfl
      · rw [if_neg h, if_neg h, ih]
        cases ffmpegSkip lib idx true k (j + 1) v.2 <;> rfl

theorem ffmpeg_quiet (lib : Ffmpeg) : Quiet (ffmpegReader s lib) := by
  intro x k w h
  cases x with
  | ffmpeg x =>
    show (ffmpegSeek lib x k false >>= _) = _
    show _ = ((ffmpegSeek lib x k true >>= _) >>= _)
    unfold ffmpegSeek
    rw [ffmpegSkip_quiet, lift_map]
    simp only [bind_assoc, pure_bind]
    rfl
  | _ => rfl

theorem Player.seek_any (hp : Player r W H Ok R) (hq : Quiet r) (pr : Bool) (L S : List ℕ) (k : ℕ) (hx : R x frames) (hok : Ok x W H) :
    Act False False (x.blocks ++ L) (x.files ++ S) (r.seek x k pr W H) (fun a L' S' => ∃ x' calls,
      a = (decide (k ≤ frames.length), RDEOK, calls, x') ∧ (pr = true → calls = (List.range (min k frames.length)).map (· + 1)) ∧ R x' (frames.drop k) ∧
      Ok x' W H ∧ L' = x'.blocks ++ L ∧ S' = x'.files ++ S) := by
  cases pr with
  | true =>
    refine Act.mono (hp.seek L S k hx hok) ?_
    rintro a L' S' ⟨x', h1, h2⟩
    exact ⟨x', _, h1, fun _ => rfl, h2⟩
  | false =>
    rw [hq]
    refine Act.bind (hp.seek L S k hx hok) ?_
    rintro a L' S' ⟨x', rfl, h2⟩
    exact Act.pure ⟨x', _, rfl, (fun h => by cases h), h2⟩

/-- Opening with `op` and skipping `k` frames leaves `frames`; there is always memory. -/
def Reveals (s : Sys) (op : M Opened) (k W H : ℕ) (frames : List (List Fl)) : Prop :=
  ∃ r Ok G G0, Outlook s op k W H r Ok False G G0 frames RDEOK true RDEOK

theorem Player.reveals (hp : Player r W H Ok R) (hs : r.Sound s.cfg (fun _ => True) True False Ok) (hq : Quiet r) (hw : Within s.cfg W H)
    (hopen : ∀ L S, Act False False L S (r.open' name) (fun a _ _ => ∃ x, a = (some x, W, H, RDEOK) ∧ R x frames)) (hk : k ≤ frames.length) :
    Reveals s (openImage s (some r) name true) k W H (frames.drop k) := by
  refine ⟨r, Ok, _, _, hp.fount hs hw hopen, ?_, ?_⟩
  · rintro rfl
    exact ⟨rfl, fun x hx => ⟨by rwa [List.drop_zero], rfl⟩⟩
  · intro _ i x b pr L S hx hi
    have h1 := (hp.seek_any hq pr (b :: i.block :: L) S k hx hi.ok).of_perm (held_perm b i x L) (List.Perm.refl _)
    have e1 : r.seek x k pr W H = r.seek x k pr i.width i.height := by rw [hi.width, hi.height]
    rw [e1] at h1
    refine (seekFrame_act h1 hi.reader hi.ctx (by simp [held])).toPerm ?_
    rintro a L' S' ⟨v, ⟨x', calls, rfl, hc, hR, hok, rfl, rfl⟩, rfl⟩
    exact ⟨_, (held_perm b i x' L).symm, _, _, _, x', rfl, Or.inr ⟨by simpa using hk, fun _ => rfl, fun _ => ⟨hR, rfl⟩⟩,
      fun h => ⟨k, le_rfl, by rw [hc h, Nat.min_eq_left hk], by simpa using hk⟩, hi.move hok, rfl, rfl⟩

end Verif
