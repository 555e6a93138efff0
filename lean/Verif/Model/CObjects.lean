import Verif.Model.Util
import Verif.Model.Analysis

/-!
# Programs that use the library from C

A program holds any number of parameter objects, analyses and lists, which it refers to by their position in the order in which it got
them, and calls the functions of resdet.h:60-68, 85-99 on them in any order.  What it released, or did not get, is NULL from then on.
-/

namespace Verif

/-- The pointers of the program. -/
structure CState where
  params : List (Option (ℕ × Params)) := []
  analyses : List (Option Analysis) := []
  lists : List (Option (Buf Res)) := []

/-- One of the three functions that change parameters, with its argument (resdet.h:66-68). -/
inductive CSet where
  | range (n : ℕ)
  | threshold (t : Fl)
  | filter (v : ℕ)

/-- A step of the program (resdet.h:60-99). -/
inductive COp where
  /-- `resdet_alloc_default_parameters` (resdet.h:64) -/
  | params
  /-- `resdet_parameters_set_…` (resdet.h:66-68) -/
  | set (k : ℕ) (c : CSet)
  /-- `free` for a parameter object -/
  | freeParams (k : ℕ)
  /-- `resdet_create_analysis` with `resdet_get_method(name)` (resdet.h:60, 85), and NULL or a parameter object -/
  | create (name : Option String) (w h : ℕ) (q : Option ℕ)
  /-- `resdet_analyze_image` (resdet.h:87) -/
  | analyze (k : ℕ) (image : Option (List Fl))
  /-- `resdet_analysis_results` (resdet.h:89-91) -/
  | results (k : ℕ) (ptr : Ptrs)
  /-- `resdet_destroy_analysis` (resdet.h:93) -/
  | destroy (k : ℕ)
  /-- `resdetect` (resdet.h:96-99) -/
  | resdetect (image : Option (List Fl)) (n w h : ℕ) (ptr : Ptrs) (name : Option String) (q : Option ℕ)
  /-- reading a list -/
  | read (j : ℕ)
  /-- `free` for a list -/
  | freeList (j : ℕ)
  /-- anything else, after which the memory is in this state: other allocations, files, images -/
  | other (w : World)

/-- What the program sees of a step (resdet.h:60-99). -/
inductive CObs where
  | nothing
  | made (e : RDError) (ok : Bool)
  | code (e : RDError)
  | analyzed (e : RDError)
  | results (e : RDError) (rw : Option (List Res)) (cw : ℕ) (rh : Option (List Res)) (ch : ℕ)
  | list (l : Option (List Res))
deriving DecidableEq

/-- The parameter argument: NULL, or a pointer the program holds (resdet.h:85, 96-99). -/
def cArg (st : CState) (q : Option ℕ) : Option (ℕ × Params) := q.bind (fun k => (st.params[k]?).join)

/-- Accessing an object through a pointer that may be NULL (in which case the functions do not) (util.c:26-48; analysis.c:34-97). -/
def touchOpt (b : Option ℕ) : M Unit :=
  match b with
  | none => return ()
  | some b => touch b

/-- The setters (util.c:26-48). -/
def CSet.call (p : Option Params) : CSet → RDError × Option Params
  | .range n => setRange p n
  | .threshold t => setThreshold p t
  | .filter v => setCompressionFilter p v

/-- Execute one step (resdet.h:60-99). -/
def cStep (s : Sys) (st : CState) : COp → M (CObs × CState)
  | .params => do
    let q ← resdetAllocDefaultParameters s.cfg
    return (.made RDEOK q.isSome, { st with params := st.params ++ [q] })
  | .set k c =>
    match st.params[k]? with
    | none => return (.nothing, st)
    | some q => do
      touchOpt (q.map Prod.fst)
      let (e, p) := c.call (q.map Prod.snd)
      return (.code e, { st with params := st.params.set k (q.bind (fun q => p.map (fun p => (q.1, p)))) })
  | .freeParams k =>
    match st.params[k]? with
    | none => return (.nothing, st)
    | some q => do
      free (q.map Prod.fst)
      return (.nothing, { st with params := st.params.set k none })
  | .create name w h q => do
    touchOpt ((cArg st q).map Prod.fst)
    let (a, e) ← createAnalysis s (resdetGetMethod name) w h ((cArg st q).map Prod.snd)
    return (.made e a.isSome, { st with analyses := st.analyses ++ [a] })
  | .analyze k image =>
    match st.analyses[k]? with
    | none => return (.nothing, st)
    | some a => do
      let (e, a) ← analyzeImage s a image
      return (.analyzed e, { st with analyses := st.analyses.set k a })
  | .results k ptr =>
    match st.analyses[k]? with
    | none => return (.nothing, st)
    | some a => do
      let (e, out, a) ← analysisResults s a ptr
      return (.results e (out.rw.map Buf.data) out.cw (out.rh.map Buf.data) out.ch,
        { st with analyses := st.analyses.set k a, lists := st.lists ++ [out.rw, out.rh] })
  | .destroy k =>
    match st.analyses[k]? with
    | none => return (.nothing, st)
    | some a => do
      destroyAnalysis a
      return (.nothing, { st with analyses := st.analyses.set k none })
  | .resdetect image n w h ptr name q => do
    touchOpt ((cArg st q).map Prod.fst)
    let (e, out) ← Verif.resdetect s image n w h ptr (resdetGetMethod name) ((cArg st q).map Prod.snd)
    return (.results e (out.rw.map Buf.data) out.cw (out.rh.map Buf.data) out.ch, { st with lists := st.lists ++ [out.rw, out.rh] })
  | .read j =>
    match st.lists[j]? with
    | none => return (.nothing, st)
    | some l => do
      touchOpt (l.map Buf.id)
      return (.list (l.map Buf.data), st)
  | .freeList j =>
    match st.lists[j]? with
    | none => return (.nothing, st)
    | some l => do
      free (l.map Buf.id)
      return (.nothing, { st with lists := st.lists.set j none })
  | .other w => fun _ => some ((.nothing, st), w)

/-- Execute a program (resdet.h:60-99). -/
def cRun (s : Sys) : CState → List COp → M (List CObs × CState)
  | st, [] => return ([], st)
  | st, op :: ops => do
    let (o, st) ← cStep s st op
    let (os, st) ← cRun s st ops
    return (o :: os, st)

end Verif
