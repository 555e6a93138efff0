import Verif.Spec.Results
import Verif.Spec.Scores

/-!
# Histories of calls on one analysis object

A history is what a program does with one analysis: it creates it and then calls `resdet_analyze_image` and
`resdet_analysis_results` on it in any order.  Each call comes with the memory state (`World`) it finds; between calls the
program may do anything else, as long as it does not free the blocks the analysis owns.
-/

namespace Verif.Spec

/-- A call on an analysis object. -/
inductive Op where
  | analyze (image : Option (List Fl))
  | results (ptr : Ptrs)

/-- What the caller sees: the error code and the contents of the returned arrays. -/
inductive Obs where
  | analyzed (e : RDError)
  | results (e : RDError) (rw : Option (List Res)) (cw : ℕ) (rh : Option (List Res)) (ch : ℕ)
deriving DecidableEq

/-- A call together with the memory state it is made in. -/
structure Call where
  op : Op
  world : World

/-- Every block the analysis points to. -/
def owned (a : Analysis) : List ℕ :=
  [a.block] ++ (a.xresult.map Buf.id).toList ++ (a.yresult.map Buf.id).toList ++ (a.f.map Buf.id).toList ++
    (match a.p with
    | none => []
    | some (.fftw b q _ _) => [b] ++ q.toList
    | some (.kiss p) => [p.block] ++ (blk p.cfg0).toList ++ (blk p.cfg1).toList ++ (blk p.shift0).toList ++
        (blk p.shift1).toList ++ (blk p.mirror).toList ++ (blk p.F).toList)

/-- The preconditions of a call: the memory state is consistent, the analysis has not been destroyed, and an image
pointer refers to at least `width*height` samples. -/
def Legal (a : Analysis) (c : Call) : Prop :=
  c.world.WF ∧ (∀ b ∈ owned a, b ∈ c.world.live) ∧
    match c.op with
    | .analyze (some image) => a.width * a.height ≤ image.length
    | _ => True

/-- Execute one call: what is observed, and the analysis afterwards.  `none` is undefined behaviour. -/
def step (s : Sys) (a : Analysis) (c : Call) : Option (Obs × Analysis) :=
  match c.op with
  | .analyze image =>
    match analyzeImage s (some a) image c.world with
    | some ((e, some a'), _) => some (.analyzed e, a')
    | _ => none
  | .results ptr =>
    match analysisResults s (some a) ptr c.world with
    | some ((e, out, some a'), _) => some (.results e (out.rw.map Buf.data) out.cw (out.rh.map Buf.data) out.ch, a')
    | _ => none

/-- The analyses that can exist, with the calls made on them so far (oldest first) and what they returned. -/
inductive Reach (s : Sys) (m : Option Method) (w h : ℕ) (p : Option Params) : List (Call × Obs) → Analysis → Prop where
  | create {a : Analysis} {e : RDError} {wd wd' : World} : wd.WF →
      createAnalysis s m w h p wd = some ((some a, e), wd') → Reach s m w h p [] a
  | call {ev : List (Call × Obs)} {a a' : Analysis} {c : Call} {o : Obs} : Reach s m w h p ev a → Legal a c →
      step s a c = some (o, a') → Reach s m w h p (ev ++ [(c, o)]) a'

/-- Execute a sequence of calls. -/
def run (s : Sys) : Analysis → List Call → Option (List Obs × Analysis)
  | a, [] => some ([], a)
  | a, c :: cs => do
    let (o, a) ← step s a c
    let (os, a) ← run s a cs
    return (o :: os, a)

/-- No frame was refused for lack of memory. -/
def NoOom (ev : List (Call × Obs)) : Prop := ∀ x ∈ ev, x.2 ≠ .analyzed RDENOMEM

/-- The events in which a frame was analysed successfully. -/
def analysed (ev : List (Call × Obs)) : List (Call × Obs) := ev.filter (fun x => x.2 = .analyzed RDEOK)

/-- The transform turned the frame passed in call `c` into the coefficients `f`. -/
def Spectrum (s : Sys) (a : Analysis) (c : Call) (f : List Fl) : Prop :=
  ∃ image plan w', c.op = .analyze (some image) ∧ a.p = some plan ∧
    transform s plan ((image.take (a.width * a.height)).map s.cfg.coeff.conv) c.world = some (f, w')

/-- The scores of the frames with spectra `fs` at position `x`, added up in order; `g` picks rows or columns. -/
def total (s : Sys) (d : Detect) (g : List Fl → ℕ → ℕ → Fl) (n range : ℕ) (fs : List (List Fl)) (x : ℕ) : Fl :=
  fs.foldl (fun acc f => addScore s.cfg acc (frameScore s d (g f) n range x)) (.fin false 0)

/-- All width scores after frames with spectra `fs`. -/
def widthScores (s : Sys) (d : Detect) (w h range : ℕ) (fs : List (List Fl)) : List Fl :=
  (List.range (w - 2 * range)).map (fun k => total s d (fun f => rows f w) h range fs (range + k))

/-- All height scores after frames with spectra `fs`. -/
def heightScores (s : Sys) (d : Detect) (w h range : ℕ) (fs : List (List Fl)) : List Fl :=
  (List.range (h - 2 * range)).map (fun k => total s d (fun f => cols f w) w range fs (range + k))

/-- The score reported for position `x` after frames with spectra `fs`: their total over their number. -/
def meanAt (s : Sys) (d : Detect) (g : List Fl → ℕ → ℕ → Fl) (n range : ℕ) (fs : List (List Fl)) (x : ℕ) : Fl :=
  mean s.cfg (total s d g n range fs x) fs.length

/-- A results call on analysis `a` with history `ev` succeeded and returned these lists and counts. -/
def Returned (s : Sys) (m : Option Method) (w h : ℕ) (p : Option Params) (ev : List (Call × Obs)) (a : Analysis)
    (rw : Option (List Res)) (cw : ℕ) (rh : Option (List Res)) (ch : ℕ) : Prop :=
  Reach s m w h p ev a ∧ ∃ c a', Legal a c ∧ step s a c = some (.results RDEOK rw cw rh ch, a')

/-- The frames analysed successfully in `ev` had spectra `fs`, in order. -/
def Spectra (s : Sys) (a : Analysis) (ev : List (Call × Obs)) (fs : List (List Fl)) : Prop :=
  List.Forall₂ (fun x f => Spectrum s a x.1 f) (analysed ev) fs

end Verif.Spec
