import Verif.Spec.Cli
import Verif.Spec.Formats
import Verif.Spec.External
import Verif.Spec.PngRow
import Verif.Spec.Reader

/-! Files of all formats, by the frames they present. -/

namespace Verif.Spec

variable {s : Sys} {io : Io}

/-- Opening with `op` and skipping `k` frames leaves these frames, up to the end of the file.  For the formats with readers of their own, this is said by
what a program that skips and reads sees; for the others, by what the libraries do. -/
inductive Presents (s : Sys) (io : Io) (op : M Opened) (k : ℕ) : (width height : ℕ) → (frames : List (List Fl)) → Prop where
  | native {name : List UInt8} {n width height : ℕ} {frames : List (List Fl)} : Native s io name op n → YieldsAfter op k width height frames RDEOK →
      Presents s io op k width height frames
  | jpeg {lib : Jpeg} {name file : List UInt8} {kind : Kind} {width height : ℕ} {rows : List (List UInt8)} :
      OpensWith op s (jpegReader s io.fs lib) name true → io.fs.Holds name (file, kind) → lib.Decodes file width height rows → Verif.Within s.cfg width height →
      k ≤ 1 → Presents s io op k width height ([rows.flatten.map (fun b => normal 255 b.toNat)].drop k)
  | png {lib : Png} {name file : List UInt8} {kind : Kind} {i : PngInfo} {rows : List (List Dot)} :
      OpensWith op s (pngReader s io.fs lib) name true → io.fs.Holds name (file, kind) → lib.Decodes file i rows → i.interlaced = false →
      Verif.Within s.cfg i.width i.height → k ≤ 1 → Presents s io op k i.width i.height ([rows.flatten.map Dot.sample].drop k)
  | pngRow {lib : Png} {name file : List UInt8} {kind : Kind} {i : PngInfo} {row : List Dot} :
      OpensWith op s (pngReader s io.fs lib) name true → io.fs.Holds name (file, kind) → lib.DecodesRow file i row →
      Verif.Within s.cfg i.width 1 → k ≤ 1 → Presents s io op k i.width 1 ([row.map Dot.sample].drop k)
  | magick {lib : Magick} {name : List UInt8} {st width height : ℕ} {frames : List (List Fl)} :
      OpensWith op s (magickReader s io.fs lib) name true → lib.read name = .inr (st, width, height) → lib.Shows width height st frames →
      Verif.Within s.cfg width height → k ≤ frames.length → Presents s io op k width height (frames.drop k)
  | ffmpeg {lib : Ffmpeg} {name : List UInt8} {width height : ℕ} {frames : List (List Fl)} :
      (∀ a, lib.isErrno a = true → a < 0) → OpensWith op s (ffmpegReader s lib) name true → lib.failure name = 0 → lib.size = (width, height) →
      lib.Shows lib.bestStream (width * height) lib.state frames → Verif.Within s.cfg width height → k ≤ frames.length →
      Presents s io op k width height (frames.drop k)

end Verif.Spec
