import Verif.Spec.History
import Verif.Spec.Plenty

/-! # The sequential use of the API that `resdetect` abbreviates -/

namespace Verif.Spec

/-- The `i`-th of consecutive `w` by `h` frames. -/
def frameOf (image : List Fl) (w h i : ℕ) : List Fl := (image.drop (i * (w * h))).take (w * h)

/-- The first `n` frames of a buffer. -/
def framesOf (image : List Fl) (w h n : ℕ) : List (List Fl) := (List.range n).map (frameOf image w h)

/-- `resdet_analyze_image` on one frame after the other until one is refused. -/
def analyzeAll (s : Sys) : List (List Fl) → Analysis → M (RDError × Analysis)
  | [], a => pure (RDEOK, a)
  | f :: fs, a => do
    let (e, a) ← analyzeImage s (some a) (some f)
    let a ← need a
    if e = RDEOK then analyzeAll s fs a else return (e, a)

/-- Create an analysis, feed it the frames, collect the results, destroy it. -/
def sequential (s : Sys) (frames : List (List Fl)) (w h : ℕ) (ptr : Ptrs) (m : Option Method) (p : Option Params) :
    M (RDError × Out) := do
  match ← createAnalysis s m w h p with
  | (none, e) => return (e, Out.nothing)
  | (some a, _) =>
    let (e, a) ← analyzeAll s frames a
    if e = RDEOK then
      let (e, out, a) ← analysisResults s (some a) ptr
      destroyAnalysis a
      return (e, out)
    else
      destroyAnalysis (some a)
      return (e, Out.nothing)

/-- The calls made by feeding `frames` until one is refused; `e` is the error of the last call. -/
inductive Fed : List (List Fl) → RDError → List (Call × Obs) → Prop where
  | done : Fed [] RDEOK []
  | refused (f : List Fl) (fs : List (List Fl)) (e : RDError) (w : World) : e ≠ RDEOK →
      Fed (f :: fs) e [(⟨.analyze (some f), w⟩, .analyzed e)]
  | next (f : List Fl) (fs : List (List Fl)) (e : RDError) (ev : List (Call × Obs)) (w : World) : Fed fs e ev →
      Fed (f :: fs) e ((⟨.analyze (some f), w⟩, .analyzed RDEOK) :: ev)

/-- The error `resdet_create_analysis` is documented to give when memory suffices. -/
def expected (s : Sys) (w h : ℕ) : RDError :=
  if w = 0 ∨ h = 0 then RDEINVAL
  else if w * h > s.cfg.pixelMax ∨ w * h * s.cfg.szCoeff > s.cfg.sizeMax ∨ w > sideMax s.cfg ∨ h > sideMax s.cfg then RDETOOBIG
  else if s.cfg.backend = .fftw ∧ s.env.fftwPlans w h = false then RDEINTERNAL
  else RDEOK

/-- The error of feeding `frames` of this size while there is memory: an image with an infinite sample, or one that is not a number, is
invalid, and nothing else is. -/
def frameError (w h : ℕ) (frames : List (List Fl)) : RDError :=
  if ∀ f ∈ frames, ∀ v ∈ f.take (w * h), v.isfinite = true then RDEOK else RDEINVAL

/-- An array with a score for each line would exceed the address space. -/
def HugeScores (s : Sys) (W H : ℕ) : Prop := ∃ side, (side = W ∨ side = H) ∧ s.cfg.sizeMax < side * s.cfg.szInter

end Verif.Spec
