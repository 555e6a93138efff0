import Verif.Spec.DemoImage

/-! # Files for the examples about formats -/

namespace Verif.Demo

open Spec

/-- Every name stands for this file. -/
def disk (file : List UInt8) (k : Kind) : Io := ⟨⟨fun _ => .inr (file, k), (file, k)⟩, false, false, false, none, none, none, none⟩

theorem disk_holds {file name : List UInt8} {k : Kind} (h : name ≠ cs "-") : (disk file k).fs.Holds name (file, k) := Or.inr ⟨h, rfl⟩

/-- Opening a.pfm by its name. -/
def openAs (ext : String) (file : List UInt8) (k : Kind) : M Opened :=
  resdetOpenImage sys (disk file k) (some (cs "a." ++ cs ext)) none true true true

theorem uses_as {ext : String} (h : ext = "pgm" ∨ ext = "pfm" ∨ ext = "y4m") (file : List UInt8) (k : Kind) :
    Uses sys (disk file k) (cs "a." ++ cs ext) (cs ext) (openAs ext file k) := by
  rcases h with rfl | rfl | rfl
  · exact .byType (ext := cs "pgm") (.suffix (cs "a") (cs "pgm") (by decide) (by decide)) (Or.inr (by decide)) rfl
  · exact .byType (ext := cs "pfm") (.suffix (cs "a") (cs "pfm") (by decide) (by decide)) (Or.inr (by decide)) rfl
  · exact .byType (ext := cs "y4m") (.suffix (cs "a") (cs "y4m") (by decide) (by decide)) (Or.inr (by decide)) rfl

/-- What the caller sees of a file. -/
def shows (ext : String) (file : List UInt8) (k : Kind) (ops : List IOp) : Option (List IObs) :=
  ((do let o ← openAs ext file k; let r ← session ops o.image o.buf; pure r.1) w0).map Prod.fst

theorem w0_plenty : Plenty w0 := fun _ => rfl

theorem plays_shows {ext : String} {file : List UInt8} {k : Kind} {W H : ℕ} {frames : List (List Fl)} {ok : List IOp → Prop} {ops : List IOp}
    (h : Plays (openAs ext file k) W H frames ok) (hok : ok ops) : ∃ data, shows ext file k ops = some (playback ops frames data) := by
  obtain ⟨i, buf, w1, h1, _, h3⟩ := h w0 w0_wf w0_plenty
  obtain ⟨i', buf', w2, h4, _⟩ := h3 ops hok
  refine ⟨buf.data, ?_⟩
  unfold shows
  rw [M.bind_some h1, M.bind_some h4]
  rfl

theorem yields_shows {ext : String} {file : List UInt8} {k : Kind} {W H : ℕ} {frames : List (List Fl)} {e : RDError}
    (h : Yields (openAs ext file k) W H frames e) :
    ∃ last, shows ext file k (List.replicate (frames.length + 1) .read) = some (frames.map (.read true RDEOK) ++ [.read false e last]) := by
  obtain ⟨i, buf, w1, h1, _, last, i', buf', w2, h4⟩ := h w0 w0_wf w0_plenty
  refine ⟨last, ?_⟩
  unfold shows
  rw [M.bind_some h1, M.bind_some h4]
  rfl

/-- A grey pixel of brightness 1, little endian. -/
def one : List UInt8 := [0, 0, 128, 63]

/-- Two PFM images, the first grey, the second in colour and big endian. -/
def pfmImages : List PfmImage :=
  [⟨false, true, [[.gray 0x3f800000], [.gray 0]]⟩, ⟨true, false, [[.colour 0 0 0], [.colour 0x3f800000 0x3f800000 0x3f800000]]⟩]

/-- The bytes of those images. -/
def pfmBytes : List UInt8 :=
  cs "Pf\n# c\n1 2\n-1.0\n" ++ ([0, 0, 0, 0] ++ one) ++ (cs "PF 1 2 1\n" ++ ([63, 128, 0, 0, 63, 128, 0, 0, 63, 128, 0, 0] ++ List.replicate 12 0) ++ [])

theorem pfm_head1 : PfmHead 1 2 false true (cs "Pf\n# c\n1 2\n-1.0\n") := by
  refine PfmHead.mk (s0 := cs "\n") (s1 := []) (nW := cs "1") (s2 := cs " ") (nH := cs "2") (s3 := cs "\n") (nS := cs "-1.0") (lines := [cs " c"])
    (sp := ch '\n') ?_ ?_ ?_ ?_ ?_ ?_ ?_ ?_ ?_ ?_ ?_ ?_ <;> (try simp only [Blank, Numeral, Digits, OneLine]) <;> try decide
  refine Scale.frac (sign := cs "-") (i := cs "1") (f := cs "0") ?_ ?_ ?_ ?_ ?_ ?_ <;> (try simp only [Digits]) <;> try decide
  · rw [show value (cs "1" ++ cs "0") = 10 by decide, show (cs "0").length = 1 by decide]
    norm_num
  · rw [show value (cs "1" ++ cs "0") = 10 by decide, show (cs "0").length = 1 by decide]
    norm_num

theorem pfm_head2 : PfmHead 1 2 true false (cs "PF 1 2 1\n") := by
  refine PfmHead.mk (s0 := cs " ") (s1 := []) (nW := cs "1") (s2 := cs " ") (nH := cs "2") (s3 := cs " ") (nS := cs "1") (lines := [])
    (sp := ch '\n') ?_ ?_ ?_ ?_ ?_ ?_ ?_ ?_ ?_ ?_ ?_ ?_ <;> (try simp only [Blank, Numeral, Digits, OneLine]) <;> try decide
  refine Scale.int (sign := []) (i := cs "1") ?_ ?_ ?_ ?_ ?_ <;> (try simp only [Digits]) <;> decide

theorem pfm_file : PfmFile 1 2 pfmImages pfmBytes := by
  refine .cons (.mk (by simp [PfmImage.Ok, Pixel.Ok]) pfm_head1) (.cons (.mk (by simp [PfmImage.Ok, Pixel.Ok]) pfm_head2) .nil)

/-- One grey pixel. -/
def dot : PfmImage := ⟨false, true, [[.gray 0x3f800000]]⟩

/-- One coloured pixel. -/
def spot : PfmImage := ⟨true, true, [[.colour 0x3f800000 0x3f800000 0x3f800000]]⟩

theorem dot_head : PfmHead 1 1 false true (cs "Pf 1 1 -1\n") := by
  refine PfmHead.mk (s0 := cs " ") (s1 := []) (nW := cs "1") (s2 := cs " ") (nH := cs "1") (s3 := cs " ") (nS := cs "-1") (lines := [])
    (sp := ch '\n') ?_ ?_ ?_ ?_ ?_ ?_ ?_ ?_ ?_ ?_ ?_ ?_ <;> (try simp only [Blank, Numeral, Digits, OneLine]) <;> try decide
  refine Scale.int (sign := cs "-") (i := cs "1") ?_ ?_ ?_ ?_ ?_ <;> (try simp only [Digits]) <;> decide

theorem spot_head : PfmHead 1 1 true true (cs "PF 1 1 -1\n") := by
  refine PfmHead.mk (s0 := cs " ") (s1 := []) (nW := cs "1") (s2 := cs " ") (nH := cs "1") (s3 := cs " ") (nS := cs "-1") (lines := [])
    (sp := ch '\n') ?_ ?_ ?_ ?_ ?_ ?_ ?_ ?_ ?_ ?_ ?_ ?_ <;> (try simp only [Blank, Numeral, Digits, OneLine]) <;> try decide
  refine Scale.int (sign := cs "-") (i := cs "1") ?_ ?_ ?_ ?_ ?_ <;> (try simp only [Digits]) <;> decide

theorem dot_part : PfmPart 1 1 dot (cs "Pf 1 1 -1\n" ++ one) := .mk (i := dot) (by simp [dot, PfmImage.Ok, Pixel.Ok]) dot_head

theorem spot_part : PfmPart 1 1 spot (cs "PF 1 1 -1\n" ++ (one ++ one ++ one)) := .mk (i := spot) (by simp [spot, PfmImage.Ok, Pixel.Ok]) spot_head

/-- The first line of a Y4M. -/
theorem y4m_head {W H : ℕ} {nW nH : List UInt8} {name : String} (hW : Numeral W nW) (hH : Numeral H nH) (hn : ∃ x, (name, x) ∈ layouts) :
    Y4mHead W H name (cs "YUV4MPEG2" ++ ((ch ' ' :: (ch 'W' :: nW)) ++ ((ch ' ' :: (ch 'H' :: nH)) ++ ((ch ' ' :: (ch 'C' :: cs name)) ++ [])) ++ [ch '\n'])) := by
  refine Y4mHead.mk (ps := [.width W nW, .height H nH, .layout name]) ?_ rfl rfl (Or.inl rfl)
  intro p hp
  simp only [List.mem_cons, List.not_mem_nil, or_false] at hp
  rcases hp with rfl | rfl | rfl
  · exact hW
  · exact hH
  · exact hn

theorem numeral_digit {n : ℕ} {t : List UInt8} (h : t ≠ [] ∧ (∀ b ∈ t, 48 ≤ b.toNat ∧ b.toNat ≤ 57) ∧ value t = n) : Numeral n t := h

theorem y4m_part {W H d : ℕ} {x : Sampling} {luma : List ℕ} {extra : List UInt8} (h1 : luma.length = W * H) (h2 : ∀ v ∈ luma, v < 2 ^ d)
    (h3 : extra.length = x.extra W H * (if d = 8 then 1 else 2)) :
    Y4mPart W H x d luma (cs "FRAME" ++ ([] ++ (ch '\n' :: ((luma.map (sampleBytes d)).flatten ++ extra)))) :=
  .mk (by simp [OneLine]) h1 h2 h3

theorem _root_.Verif.Spec.Y4mFile.copy {W H d : ℕ} {x : Sampling} {fr : List (List ℕ)} {a b : List UInt8} (h : Y4mFile W H x d fr a) (e : a = b) : Y4mFile W H x d fr b := e ▸ h

theorem y4m_file : Y4mFile 2 1 .mono 8 [[0, 255], [255, 0]] y4mBytes := by
  have hh := y4m_head (W := 2) (H := 1) (nW := cs "2") (nH := cs "1") (name := "mono") ⟨by decide, by unfold Digits; decide, by decide⟩
    ⟨by decide, by unfold Digits; decide, by decide⟩ ⟨(.mono, 8), by decide⟩
  have h1 := y4m_part (W := 2) (H := 1) (d := 8) (x := .mono) (luma := [0, 255]) (extra := []) (by decide) (by decide) (by decide)
  have h2 := y4m_part (W := 2) (H := 1) (d := 8) (x := .mono) (luma := [255, 0]) (extra := []) (by decide) (by decide) (by decide)
  have h := Y4mFile.mk (name := "mono") (by decide) hh (.cons h1 (.cons h2 .nil))
  exact h.copy (by decide)

end Verif.Demo
