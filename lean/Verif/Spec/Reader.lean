import Verif.Spec.Image

/-!
# The contract between image.c and its readers

Stated so that readers on top of external libraries can be assumed to keep it; the built-in ones are proved to.
-/

namespace Verif

/-- In world `w`, the live blocks are those of `base` and `L`, the open streams those of `base` and `S`. -/
structure Own (F : Prop) (base : World) (L S : List ℕ) (w : World) : Prop where
  base_wf : base.WF
  next : base.next ≤ w.next
  nodup : L.Nodup
  new : ∀ b ∈ L, b ∉ base.live ∧ b < w.next
  live : ∀ b, b ∈ w.live ↔ b ∈ base.live ∨ b ∈ L
  live_nodup : w.live.Nodup
  snodup : S.Nodup
  snew : ∀ b ∈ S, b ∉ base.files ∧ b < w.next
  files : ∀ b, b ∈ w.files ↔ b ∈ base.files ∨ b ∈ S
  files_nodup : w.files.Nodup
  sched : ∀ j, w.sched j = false → F

/-- From any state owning blocks `L` and streams `S`, `m` either has undefined behaviour, and then `U`, or ends in a state
owning some `L'` and `S'` with `Q result L' S'`. -/
def Act {α : Type} (U F : Prop) (L S : List ℕ) (m : M α) (Q : α → List ℕ → List ℕ → Prop) : Prop :=
  ∀ base w, Own F base L S w →
    (m w = none ∧ U) ∨ ∃ a w' L' S', m w = some (a, w') ∧ Own F base L' S' w' ∧ Q a L' S'

/-- The stream a `FILE*` stands for, if it is one that must be closed. -/
def File.owned (f : File) : List ℕ := f.id.toList

/-- What a failed plane leaves behind. -/
def Spoilt (img img' : List Fl) (n : ℕ) : Prop := img'.length = img.length ∧ img'.drop n = img.drop n

/-- Blocks a reader context owns. -/
def Ctx.blocks : Ctx → List ℕ
  | .pgm c => [c.block]
  | .pfm c => [c.block]
  | .y4m c => c.block :: (c.buf.map Buf.id).toList
  | .jpeg c => c.block :: c.mem.toList
  | .png c => c.block :: (c.png.toList ++ c.info.toList)
  | .ffmpeg c => c.block :: (c.fmt.toList ++ c.codec.toList ++ c.sws.toList ++ c.frame.toList ++ c.swsframe.toList ++ c.packet.toList)
  | .magick c => [c.block, c.wand]
  | .other b _ _ => b

/-- Streams a reader context owns. -/
def Ctx.files : Ctx → List ℕ
  | .pgm c => c.f.owned
  | .pfm c => c.f.owned
  | .y4m c => c.f.owned
  | .jpeg c => c.f.owned
  | .png c => c.f.owned
  | .ffmpeg _ => []
  | .magick _ => []
  | .other _ f _ => f

/-- Sizes an image may have. -/
def Within (c : Cfg) (w h : ℕ) : Prop := 0 < w ∧ 0 < h ∧ w * h ≤ c.pixelMax ∧ w * h * 4 ≤ c.sizeMax

/-- An error code: 0 to 7 or a negated errno. -/
def Code (e : RDError) : Prop := e ≤ 7

/-- The interface image.c relies on.  `Uo`, `U` bound the undefined behaviour of `open` and of the other functions.  A reader
may fail to open a file without saying so, if it leaves the size at zero. -/
structure Reader.Sound (c : Cfg) (Uo : List UInt8 → Prop) (U F : Prop) (r : Reader) (Ok : Ctx → ℕ → ℕ → Prop) : Prop where
  opens : ∀ L S name, Act (Uo name) F L S (r.open' name) (fun a L' S' =>
    (a.2.2.2 = 0 ∧ ∃ x, a.1 = some x ∧ Ok x a.2.1 a.2.2.1 ∧ L' = x.blocks ++ L ∧ S' = x.files ++ S) ∨
    (a.2.2.2 ≠ 0 ∧ Code a.2.2.2 ∧ a.1 = none ∧ L' = L ∧ S' = S) ∨
    (a.2.2.2 = 0 ∧ a.1 = none ∧ a.2.1 = 0 ∧ L' = L ∧ S' = S))
  reads : ∀ L S x img w h, Ok x w h → Within c w h → w * h ≤ img.length →
    Act U F (x.blocks ++ L) (x.files ++ S) (r.read x img w h) (fun a L' S' =>
      Spoilt img a.2.2.1 (w * h) ∧ (a.1 = true → a.2.1 = 0) ∧ Code a.2.1 ∧ Ok a.2.2.2 w h ∧
      L' = a.2.2.2.blocks ++ L ∧ S' = a.2.2.2.files ++ S)
  seeks : ∀ L S x k p w h, Ok x w h → Within c w h →
    Act U F (x.blocks ++ L) (x.files ++ S) (r.seek x k p w h) (fun a L' S' =>
      (a.1 = true → a.2.1 = 0) ∧ Code a.2.1 ∧ Ok a.2.2.2 w h ∧ L' = a.2.2.2.blocks ++ L ∧ S' = a.2.2.2.files ++ S)
  closes : ∀ L S x w h, Ok x w h → Act False F (x.blocks ++ L) (x.files ++ S) (r.close (some x)) (fun _ L' S' => L' = L ∧ S' = S)
  closeNull : r.close none = pure ()

/-- The readers on top of libraries, if compiled in, keep the contract. -/
def Io.Contract (c : Cfg) (io : Io) : Prop :=
  ∀ r, io.libjpeg = some r ∨ io.libpng = some r ∨ io.ffmpeg = some r ∨ io.magickwand = some r →
    ∃ Ok, ∀ F, r.Sound c (fun _ => True) True F Ok

end Verif
