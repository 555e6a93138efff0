import Verif.Model.PyObjects

/-! # Objects of the JavaScript binding

Programs that make and use `Analysis` objects, and the finalisers that run for objects that were collected.  Objects are numbered in the order
in which they are made. -/

namespace Verif

/-- One statement of a program, or the finaliser of an analysis that the program cannot reach any more (resdet.mts:90-92).  A method is given by its
name. -/
inductive JsOp where
  | analysis (width height : Fl) (method : Option String) (d : JsObject)
  | analyze (analysis : ℕ) (image : List Fl)
  | results (analysis : ℕ)
  | collected (analysis : ℕ)
  | resDetect (image : List Fl) (nimages width height : Fl) (method : Option String) (d : JsObject)

/-- `Method.get` (resdet.mts:54-59), or null; for a name of no method it is undefined, and NULL for the library like null is (mts:103, 212). -/
def jsGiven (name : Option String) : Option Method :=
  match name with
  | none => none
  | some n => resdetGetMethod (some n)

/-- One statement.  The objects are the analyses, `none` for those collected.  There is no value for a statement that uses one that was collected or
was not made: no program has a reference to it (resdet.mts:46-239). -/
def jsStep (s : Sys) (v : JsConv) (st : List (Option Analysis)) : JsOp → M (Raises PyVal × List (Option Analysis))
  | .analysis w h m d => do
    match ← jsAnalysis s v (jsGiven m) w h d with
    | .raised e => return (.raised e, st)
    | .ok a => return (.ok .unit, st ++ [a])
  | .analyze k image => do
    let a ← need st[k]?.join
    let (r, a) ← jsAnalyze s a image
    return (r.to (fun _ => .unit), st.set k a)
  | .results k => do
    let a ← need st[k]?.join
    return ((← jsResults s a).to (fun r => .lists r.1 r.2), st)
  | .collected k => do
    let a ← need st[k]?.join
    destroyAnalysis (some a)
    return (.ok .unit, st.set k none)
  | .resDetect image n w h m d => do
    return ((← jsResDetect s v image n w h (jsGiven m) d).to (fun r => .lists r.1 r.2), st)

/-- A program: what its statements return, and the objects at the end.  Exceptions are caught, so it goes on (resdet.mts:46-239). -/
def jsRun (s : Sys) (v : JsConv) : List (Option Analysis) → List JsOp → M (List (Raises PyVal) × List (Option Analysis))
  | st, [] => pure ([], st)
  | st, op :: ops => do
    let (r, st) ← jsStep s v st op
    let (rs, st) ← jsRun s v st ops
    return (r :: rs, st)

end Verif
