import Verif.Model.CObjects
import Verif.Spec.History
import Verif.Spec.Plenty
import Verif.Spec.Sequential

/-! # Careful use of the library from C, and what a program did with one analysis -/

namespace Verif.Spec

/-- The blocks the program holds through the library. -/
def CState.held (st : CState) : List ℕ :=
  st.params.flatMap (fun q => (q.map Prod.fst).toList) ++
    st.analyses.flatMap (fun a => match a with
      | none => []
      | some a => owned a) ++
    st.lists.flatMap (fun l => (l.map Buf.id).toList)

/-- What the program has to take care of: arguments are values of their C types, an image has as many samples as the function reads, and
nothing else in the program frees what the library's objects consist of. -/
def Careful (s : Sys) (st : CState) : COp → Prop
  | .set _ (.range n) => n ≤ s.cfg.sizeMax
  | .analyze k (some image) => ∀ a, st.analyses[k]? = some (some a) → a.width * a.height ≤ image.length
  | .resdetect (some image) n w h _ _ _ => image.length ≤ s.cfg.sizeMax ∧ n * (w * h) ≤ image.length
  | .other w => w.WF ∧ ∀ b ∈ CState.held st, b ∈ w.live
  | _ => True

/-- Every step is careful when its turn comes. -/
def Carefully (s : Sys) : CState → List COp → World → Prop
  | _, [], _ => True
  | st, op :: ops, w => Careful s st op ∧ ∀ o st' w', cStep s st op w = some ((o, st'), w') → Carefully s st' ops w'

/-- The library itself loses no memory in this step (C20): the case in which it might is the bundled transform, sides of different
length and failing allocations. -/
def Tidy (s : Sys) (w : World) : COp → Prop
  | .create _ W H _ => s.cfg.backend = .fftw ∨ W = H ∨ (Plenty w ∧ ¬ HugeScores s W H)
  | .resdetect _ _ W H _ _ _ => s.cfg.backend = .fftw ∨ W = H ∨ (Plenty w ∧ ¬ HugeScores s W H)
  | .other _ => False
  | _ => True

/-- Every step is tidy when its turn comes. -/
def Tidily (s : Sys) : CState → List COp → World → Prop
  | _, [], _ => True
  | st, op :: ops, w => Tidy s w op ∧ ∀ o st' w', cStep s st op w = some ((o, st'), w') → Tidily s st' ops w'

/-- The call on analysis `k`, if this step was one, and what it returned. -/
def onAnalysis (k : ℕ) : COp × CObs → Option (Op × Obs)
  | (.analyze j image, .analyzed e) => if j = k then some (.analyze image, .analyzed e) else none
  | (.results j ptr, .results e rw cw rh ch) => if j = k then some (.results ptr, .results e rw cw rh ch) else none
  | _ => none

/-- The calls on analysis `k` in a program and what they returned, in order. -/
def callsOn (k : ℕ) (ops : List COp) (obs : List CObs) : List (Op × Obs) := (ops.zip obs).filterMap (onAnalysis k)

/-- The images that were added to analysis `k`, in order. -/
def framesOn (k : ℕ) (ops : List COp) (obs : List CObs) : List (List Fl) :=
  (callsOn k ops obs).filterMap (fun x => match x with
    | (.analyze (some image), .analyzed e) => if e = RDEOK then some image else none
    | _ => none)

/-- A step that releases something. -/
def releases : COp → Bool
  | .freeParams _ => true
  | .destroy _ => true
  | .freeList _ => true
  | _ => false

/-- Everything is released, in any order, each at least once. -/
def ReleasesAll (st : CState) (ops : List COp) : Prop :=
  (∀ op ∈ ops, releases op = true) ∧ (∀ k < st.params.length, COp.freeParams k ∈ ops) ∧ (∀ k < st.analyses.length, COp.destroy k ∈ ops) ∧
    ∀ j < st.lists.length, COp.freeList j ∈ ops

/-- A careful program did something, then created analysis number `k` with these arguments, where `p` is what the parameter argument
pointed to at that time, and then did `post`, in which it observed `obs`. -/
def Session (s : Sys) (k : ℕ) (name : Option String) (W H : ℕ) (p : Option Params) (post : List COp) (obs : List CObs) : Prop :=
  ∃ w0 pre q obs0 st0 w1 o st1 w2 st2 w3, w0.WF ∧ Carefully s {} (pre ++ .create name W H q :: post) w0 ∧
    cRun s {} pre w0 = some ((obs0, st0), w1) ∧ k = st0.analyses.length ∧ p = (cArg st0 q).map Prod.snd ∧
    cStep s st0 (.create name W H q) w1 = some ((o, st1), w2) ∧ cRun s st1 post w2 = some ((obs, st2), w3)

/-- Something holds of the world before every step. -/
def Throughout (s : Sys) (P : World → Prop) : CState → List COp → World → Prop
  | _, [], _ => True
  | st, op :: ops, w => P w ∧ ∀ o st' w', cStep s st op w = some ((o, st'), w') → Throughout s P st' ops w'

/-- A session in which something holds of the world before every step after the analysis was created. -/
def SessionWith (s : Sys) (P : World → Prop) (k : ℕ) (name : Option String) (W H : ℕ) (p : Option Params) (post : List COp) (obs : List CObs) : Prop :=
  ∃ w0 pre q obs0 st0 w1 o st1 w2 st2 w3, w0.WF ∧ Carefully s {} (pre ++ .create name W H q :: post) w0 ∧
    cRun s {} pre w0 = some ((obs0, st0), w1) ∧ k = st0.analyses.length ∧ p = (cArg st0 q).map Prod.snd ∧
    cStep s st0 (.create name W H q) w1 = some ((o, st1), w2) ∧ cRun s st1 post w2 = some ((obs, st2), w3) ∧ Throughout s P st1 post w2

end Verif.Spec
