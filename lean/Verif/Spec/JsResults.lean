import Verif.Model.JsObjects
import Verif.Spec.PyResults

/-!
# What the statements of a JavaScript program return

The analyses of a program by its statements, and what the statements have to return because of that.
-/

namespace Verif.Spec

/-- What an analysis was made with, and the frames it accepted. -/
structure JsUsed where
  width : ℕ
  height : ℕ
  method : Option String
  dict : JsObject
  frames : List (List Fl)
deriving DecidableEq

/-- The analyses after a statement; `none` for those collected.  One is made unless the size is refused or there are unknown keys, and it accepts the
frames that are finite. -/
def jsLearn (s : Sys) (v : JsConv) (kn : List (Option JsUsed)) : JsOp → List (Option JsUsed)
  | .analysis w h m d =>
    if d.unknown = false ∧ expected s (v.size w) (v.size h) = RDEOK then kn ++ [some ⟨v.size w, v.size h, m, d, []⟩] else kn
  | .analyze k image => kn.modify k (fun u => u.map (fun u => if frameError u.width u.height [image] = RDEOK then { u with frames := u.frames ++ [image] } else u))
  | .collected k => kn.set k none
  | .results _ | .resDetect _ _ _ _ _ _ => kn

/-- The analyses after a program. -/
def jsLearned (s : Sys) (v : JsConv) (ops : List JsOp) : List (Option JsUsed) := ops.foldl (jsLearn s v) []

/-- The values in an object of parameters are accepted, or it has unknown keys. -/
def JsTidy (v : JsConv) (d : JsObject) : Prop := d.unknown = true ∨ SaneJs v d

/-- Statements that a program may use: with sizes for which scores fit in memory, parameters that the library accepts, arrays that fit in memory and hold
the samples that are asked for, and analyses that it made and that were not collected. -/
def jsProper (s : Sys) (v : JsConv) (kn : List (Option JsUsed)) : JsOp → Prop
  | .analysis w h _ d => moderate s (v.size w) (v.size h) ∧ JsTidy v d
  | .analyze k image => ∃ u, kn[k]? = some (some u) ∧ u.width * u.height ≤ image.length ∧ image.length * 4 ≤ s.cfg.sizeMax
  | .results k => ∃ u, kn[k]? = some (some u) ∧ u.frames.length ≤ s.cfg.sizeMax
  | .collected k => ∃ u, kn[k]? = some (some u)
  | .resDetect image n w h _ d => moderate s (v.size w) (v.size h) ∧ JsTidy v d ∧ v.size n * (v.size w * v.size h) ≤ image.length ∧
      image.length * 4 ≤ s.cfg.sizeMax

/-- A program of such statements. -/
def jsProperly (s : Sys) (v : JsConv) : List (Option JsUsed) → List JsOp → Prop
  | _, [] => True
  | kn, op :: ops => jsProper s v kn op ∧ jsProperly s v (jsLearn s v kn op) ops

/-- What a statement must return or raise. -/
def jsExpects (s : Sys) (v : JsConv) (kn : List (Option JsUsed)) (op : JsOp) (o : Raises PyVal) : Prop :=
  match op with
  | .analysis w h _ d => o = if d.unknown then .raised none else raising (expected s (v.size w) (v.size h)) .unit
  | .analyze k image => ∀ u, kn[k]? = some (some u) → o = raising (frameError u.width u.height [image]) .unit
  | .results k => ∀ u p, kn[k]? = some (some u) → JsMeans s.cfg v u.dict p → Answers s (methodNamed u.method) p u.width u.height u.frames o
  | .collected _ => o = .ok .unit
  | .resDetect image n w h m d => if d.unknown then o = .raised none else if v.size n = 0 then o = .raised (some RDENOIMG)
      else ∀ p, JsMeans s.cfg v d p → Detects s (methodNamed m) p (v.size w) (v.size h) (framesOf image (v.size w) (v.size h) (v.size n)) o

/-- Every statement of a program returns what it must. -/
def jsFulfils (s : Sys) (v : JsConv) : List (Option JsUsed) → List JsOp → List (Raises PyVal) → Prop
  | kn, op :: ops, o :: obs => jsExpects s v kn op o ∧ jsFulfils s v (jsLearn s v kn op) ops obs
  | _, [], [] => True
  | _, _, _ => False

/-- Not a finaliser. -/
def JsOp.Stated : JsOp → Bool
  | .collected _ => false
  | _ => true

/-- What the statements that are no finalisers returned. -/
def jsSeen (ops : List JsOp) (obs : List (Raises PyVal)) : List (Raises PyVal) := ((ops.zip obs).filter (fun x => JsOp.Stated x.1)).map Prod.snd

end Verif.Spec
