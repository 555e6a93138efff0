import Verif.Model.Methods

/-! # lib/analysis.c, lib/resdetect.c (resdetect) and the transform backends' interface -/

namespace Verif

/-- `resdet_plan` of either backend; FFTW: the struct's block and the plan's block (lib/transform/fftw.c:9-11). -/
inductive Plan where
  | fftw (block : ℕ) (plan : Option ℕ) (width height : ℕ)
  | kiss (p : KissPlan)
deriving DecidableEq, Repr

/-- The scalar arithmetic of the KISS backend on this platform (kiss_fft.h:82-84). -/
def Sys.arith (s : Sys) : Arith Fl := flArith s.cfg s.env.twiddle s.env.superTwiddle s.env.shift

/-- `resdet_alloc_coeffs` (lib/transform/kiss_fft.c:18-20, lib/transform/fftw.c:13-15): the block and its arbitrary
contents.  The capacity is what the byte count `sizeof(coeff)*width*height`, computed in `size_t`, has room for. -/
def allocCoeffs (s : Sys) (width height : ℕ) : M (Option (Buf Fl)) := do
  match ← malloc with
  | none => return none
  | some b => return some ⟨b, List.replicate (s.cfg.sz (s.cfg.szCoeff * width * height) / s.cfg.szCoeff) s.env.junk⟩

/-- `resdet_free_plan` (lib/transform/fftw.c:43-49, lib/transform/kiss_fft.c:84-96). -/
def freePlan (p : Option Plan) : M Unit :=
  match p with
  | none => pure ()
  | some (.kiss p) => kissFreePlan (some p)
  | some (.fftw b plan _ _) => do
    touch b
    match plan with
    | some q => free (some q)
    | none => pure ()
    free (some b)

/-- The FFTW planner (lib/transform/fftw.c:29): an opaque object, or NULL.  FFTW's own allocations are not taken from the
schedule (FFTW aborts the process if they fail). -/
def fftwPlanR2r (s : Sys) (width height : ℕ) : M (Option ℕ) := fun w =>
  if s.env.fftwPlans width height then some (some w.next, { w with live := w.next :: w.live, next := w.next + 1 })
  else some (none, w)

/-- `resdet_create_plan` (lib/transform/fftw.c:17-37, lib/transform/kiss_fft.c:22-66). -/
def createPlan (s : Sys) (width height : ℕ) : M (Option Plan × RDError) :=
  match s.cfg.backend with
  | .kiss => do
    let (p, e) ← kissCreatePlan s.cfg width height
    return (p.map Plan.kiss, e)
  | .fftw => do
    if width > s.cfg.intMax ∨ height > s.cfg.intMax then return (none, RDETOOBIG)
    else
      match ← malloc with
      | none => return (none, RDENOMEM)
      | some b =>
        match ← fftwPlanR2r s width height with
        | none =>
          freePlan (some (.fftw b none width height))
          return (none, RDEINTERNAL)
        | some q => return (some (.fftw b (some q) width height), RDEOK)

/-- `resdet_transform` (lib/transform/fftw.c:39-41, lib/transform/kiss_fft.c:78-82). -/
def transform (s : Sys) (p : Plan) (f : List Fl) : M (List Fl) :=
  match p with
  | .fftw b plan width height => do
    touch b
    let q ← need plan
    touch q
    return s.env.fftw width height f
  | .kiss p => kissTransform s.arith s.cfg ⟨s.env.junk, s.env.junk⟩ p f

/-- `struct RDAnalysis` (resdet_internal.h:68-77).  `none` bounds are indeterminate. -/
structure Analysis where
  block : ℕ
  method : Method
  width : ℕ
  height : ℕ
  nimages : ℕ
  params : Params
  f : Option (Buf Fl)
  p : Option Plan
  xresult : Option (Buf Fl)
  yresult : Option (Buf Fl)
  xbound : Option (ℕ × ℕ)
  ybound : Option (ℕ × ℕ)
deriving DecidableEq, Repr

/-- `free` of an owned array.  Called as in analysis.c:198-204. -/
def freeBuf {α : Type} (b : Option (Buf α)) : M Unit := free (b.map Buf.id)

/-- `setup_dimension` (analysis.c:17-32): error, score array, bounds. -/
def setupDimension (c : Cfg) (length range : ℕ) : M (RDError × Option (Buf Fl) × Option (ℕ × ℕ)) := do
  let maxlen := if range < c.sz (length + 1) / 2 then c.szSub length (c.sz (range * 2)) else 0
  if maxlen = 0 then return (RDEOK, none, none)
  else
    match ← calloc c maxlen c.szInter with
    | none => return (RDENOMEM, none, none)
    | some b =>
      return (RDEOK, some ⟨b, List.replicate maxlen (.fin false 0)⟩, some (c.idx range, c.idx (c.szSub length range)))

/-- `resdet_destroy_analysis` (analysis.c:196-205). -/
def destroyAnalysis (a : Option Analysis) : M Unit :=
  match a with
  | none => pure ()
  | some a => do
    touch a.block
    freeBuf a.xresult
    freeBuf a.yresult
    freePlan a.p
    freeBuf a.f
    free (some a.block)

/-- The failure exit of `resdet_create_analysis` (analysis.c:90-96). -/
def createFail (a : Option Analysis) (e : RDError) : M (Option Analysis × RDError) := do
  destroyAnalysis a
  return (none, e)

/-- `resdet_create_analysis` (analysis.c:34-97).  `method`/`params` `none` is NULL.  The error is returned whether or not
the caller passed an `error` pointer. -/
def createAnalysis (s : Sys) (method : Option Method) (width height : ℕ) (params : Option Params) :
    M (Option Analysis × RDError) := do
  let c := s.cfg
  match ← malloc with
  | none => createFail none RDENOMEM
  | some block =>
    let method ← need (method <|> resdetGetMethod none)
    let params := params.getD (defaultParams c)
    let params :=
      if params.threshold.lt (.fin false 0) then { params with threshold := method.threshold } else params
    let params := if method.name = "zerox" then { params with range := 1 } else params
    let a : Analysis := ⟨block, method, width, height, 0, params, none, none, none, none, none, none⟩
    if ¬(width ≠ 0 ∧ height ≠ 0) then createFail (some a) RDEINVAL
    else if dimsExceedLimit c width height 1 c.szCoeff then createFail (some a) RDETOOBIG
    else
      match ← allocCoeffs s width height with
      | none => createFail (some a) RDENOMEM
      | some f =>
        let a := { a with f := some f }
        let (p, e) ← createPlan s width height
        let a := { a with p := p }
        if e ≠ 0 then createFail (some a) e
        else
          let (e, xr, xb) ← setupDimension c width params.range
          let a := { a with xresult := xr, xbound := xb }
          if e ≠ RDEOK then createFail (some a) e
          else
            let (e, yr, yb) ← setupDimension c height params.range
            let a := { a with yresult := yr, ybound := yb }
            if e ≠ RDEOK then createFail (some a) e
            else return (some a, RDEOK)

/-- The copy loop of `resdet_analyze_image` (analysis.c:106-112): conversion `float` to `coeff`, stopping at the first
non-finite sample.  Returns whether all were finite, and the coefficient array. -/
def loadImage (c : Cfg) (image : List Fl) : (todo i : ℕ) → List Fl → Option (Bool × List Fl)
  | 0, _, f => some (true, f)
  | todo + 1, i, f => do
    let v ← rd image i
    if v.isfinite then
      let f ← wr f i (c.coeff.conv v)
      loadImage c image todo (i + 1) f
    else return (false, f)

/-- One dimension's pass of `resdet_analyze_image` (analysis.c:116-121). -/
def detectDim (s : Sys) (d : Detect) (f : List Fl) (length n stride dist range : ℕ) (result : Option (Buf Fl))
    (bound : Option (ℕ × ℕ)) : M (RDError × Option (Buf Fl) × Option (ℕ × ℕ)) :=
  match result with
  | none => pure (RDEOK, none, bound)
  | some r => do
    touch r.id
    let b ← need bound
    let (e, data, b) ← detect s d f length n stride dist range r.data b
    return (e, some { r with data := data }, some b)

/-- `resdet_analyze_image` (analysis.c:99-127).  The image is the `width*height` floats the pointer refers to; `none` is
NULL.  Returns the error and the analysis afterwards. -/
def analyzeImage (s : Sys) (a : Option Analysis) (image : Option (List Fl)) : M (RDError × Option Analysis) :=
  match a, image with
  | some a, some image => do
    let c := s.cfg
    touch a.block
    let fb ← need a.f
    touch fb.id
    let total := c.sz (a.width * a.height)
    if total > c.idxMax then M.ub
    else
      let (ok, f) ← M.lift (loadImage c image total 0 fb.data)
      let a := { a with f := some { fb with data := f } }
      if !ok then return (RDEINVAL, some a)
      else
        let p ← need a.p
        let f ← transform s p f
        let a := { a with f := some { fb with data := f } }
        let (e, xr, xb) ← detectDim s a.method.func f a.width a.height a.width 1 a.params.range a.xresult a.xbound
        let a := { a with xresult := xr, xbound := xb }
        if e ≠ RDEOK then return (e, some a)
        else
          let (e, yr, yb) ← detectDim s a.method.func f a.height a.width 1 a.width a.params.range a.yresult a.ybound
          let a := { a with yresult := yr, ybound := yb }
          if e ≠ RDEOK then return (e, some a)
          else return (RDEOK, some { a with nimages := c.sz (a.nimages + 1) })
  | a, _ => pure (RDEPARAM, a)

/-- `result[i]/analysis->nimages` (analysis.c:138,149,151). -/
def score (c : Cfg) (r : Fl) (nimages : ℕ) : Fl := c.inter.div r (c.inter.ofNat nimages)

/-- `filter_interval` (analysis.c:132-134); shifting by 32 or more is undefined. -/
def filterInterval (length v : ℕ) : Option Fl :=
  if v = 0 then some (.fin false 0)
  else if v < 32 then some (binary32.div (binary32.ofNat length) (binary32.ofNat (2 ^ v)))
  else none

/-- `round(round(i*filter_interval/length)*length/filter_interval) != i` (analysis.c:139,150): the products and quotients
up to the inner `round` are in `float`, the rest in `double`. -/
def filterMiss (length : ℕ) (fi : Fl) (i : ℕ) : Bool :=
  let a := binary32.div (binary32.mul (binary32.ofNat i) fi) (binary32.ofNat length)
  let b := (binary64.conv a).cround
  let d := (binary64.div (binary64.mul b (binary64.ofNat length)) (binary64.conv fi)).cround
  !(d.feq (binary64.ofNat i))

/-- The condition of analysis.c:138-139 for the score `r` at offset `i`. -/
def keep (c : Cfg) (params : Params) (nimages length : ℕ) (fi r : Fl) (i : ℕ) : Bool :=
  (score c r nimages).ge (c.inter.conv params.threshold) && !(fi.truthy && filterMiss length fi i)

/-- First pass (analysis.c:136-140): the number of entries to allocate. -/
def countResults (c : Cfg) (params : Params) (nimages length : ℕ) (fi : Fl) (result : List Fl) (b : ℕ × ℕ) :
    Option ℕ :=
  idxLoop c 0 (c.idxSub b.2 b.1) (fun i n => do
    let r ← rd result i
    return if keep c params nimages length fi r i then c.sz (n + 1) else n) 1

/-- Second pass (analysis.c:145-151) on an array of capacity `cap`: the entries written so far. -/
def fillResults (c : Cfg) (params : Params) (nimages length : ℕ) (fi : Fl) (result : List Fl) (b : ℕ × ℕ) (cap : ℕ)
    (acc : List Res) : Option (List Res) :=
  idxLoop c 0 (c.idxSub b.2 b.1) (fun i acc => do
    let r ← rd result i
    if keep c params nimages length fi r i then
      if acc.length < cap then
        return acc ++ [⟨c.idx (i + b.1), binary32.conv (score c r nimages)⟩]
      else none
    else return acc) acc

/-- `generate_dimension_results` (analysis.c:129-156): error and array.  `*count` is the length of the array. -/
def generateDimensionResults (s : Sys) (a : Analysis) (length : ℕ) (bounds : Option (ℕ × ℕ))
    (result : Option (Buf Fl)) : M (RDError × Option (Buf Res)) := do
  let c := s.cfg
  let fi ← M.lift (filterInterval length a.params.compressionFilter)
  let n ← match result with
    | none => pure 1
    | some r => do
      touch r.id
      let b ← need bounds
      M.lift (countResults c a.params a.nimages length fi r.data b)
  match ← malloc with
  | none => return (RDENOMEM, none)
  | some block =>
    let cap := c.sz (n * c.szRes) / c.szRes
    if cap = 0 then M.ub
    else
      let first : Res := ⟨length, .fin true (-1)⟩
      let arr ← match result with
        | none => pure [first]
        | some r => do
          let b ← need bounds
          M.lift (fillResults c a.params a.nimages length fi r.data b cap [first])
      let sorted ← M.lift (s.env.qsort arr)
      return (RDEOK, some ⟨block, sorted⟩)

/-- Which output pointers the caller supplied (resdet.h:89-91, 96-99). -/
structure Ptrs where
  rw : Bool
  cw : Bool
  rh : Bool
  ch : Bool
deriving DecidableEq, Repr

/-- All four output pointers (resdet.h:89-91, 96-99). -/
def Ptrs.all : Ptrs := ⟨true, true, true, true⟩

/-- Final values of `*rw`, `*cw`, `*rh`, `*ch` (meaningful only for supplied pointers) (resdet.h:89-91, 96-99). -/
structure Out where
  rw : Option (Buf Res)
  cw : ℕ
  rh : Option (Buf Res)
  ch : ℕ
deriving DecidableEq, Repr

/-- Nothing returned: NULL arrays with count 0 (analysis.c:158-194). -/
def Out.nothing : Out := ⟨none, 0, none, 0⟩

/-- `resdet_analysis_results` (analysis.c:158-194).  Returns the error, the values of the outputs and the analysis
afterwards. -/
def analysisResults (s : Sys) (a : Option Analysis) (ptr : Ptrs) : M (RDError × Out × Option Analysis) :=
  if (ptr.rw && !ptr.cw) || (ptr.rh && !ptr.ch) then pure (RDEPARAM, Out.nothing, a)
  else
    match a with
    | none => pure (RDEPARAM, Out.nothing, none)
    | some a => do
      touch a.block
      if a.nimages = 0 then return (RDENOIMG, Out.nothing, some a)
      else
        let (e, rw) ← if ptr.rw then generateDimensionResults s a a.width a.xbound a.xresult else pure (RDEOK, none)
        if e ≠ 0 then
          freeBuf rw
          return (e, Out.nothing, some a)
        else
          let (e, rh) ← if ptr.rh then generateDimensionResults s a a.height a.ybound a.yresult else pure (RDEOK, none)
          if e ≠ 0 then
            freeBuf rw
            freeBuf rh
            return (e, Out.nothing, some a)
          else
            return (RDEOK, ⟨rw, (rw.map (fun b => b.data.length)).getD 0, rh, (rh.map (fun b => b.data.length)).getD 0⟩,
              some a)

/-- The frame loop of `resdetect` (resdetect.c:30-31): stops at the first error.  The offset `i*width*height` is computed
in `size_t`. -/
def analyzeLoop (s : Sys) (image : List Fl) (width height : ℕ) : (todo i : ℕ) → Analysis → M (RDError × Analysis)
  | 0, _, a => pure (RDEOK, a)
  | todo + 1, i, a => do
    let (e, a') ← analyzeImage s (some a) (some (image.drop (s.cfg.sz (s.cfg.sz (i * width) * height))))
    let a' ← need a'
    if e ≠ 0 then return (e, a') else analyzeLoop s image width height todo (i + 1) a'

/-- `resdetect` (resdetect.c:8-38). -/
def resdetect (s : Sys) (image : Option (List Fl)) (nimages width height : ℕ) (ptr : Ptrs) (method : Option Method)
    (params : Option Params) : M (RDError × Out) :=
  if (ptr.rw && !ptr.cw) || (ptr.rh && !ptr.ch) then pure (RDEPARAM, Out.nothing)
  else
    match image with
    | none => pure (RDEPARAM, Out.nothing)
    | some image =>
      if nimages = 0 then pure (RDENOIMG, Out.nothing)
      else do
        let (a, e) ← createAnalysis s method width height params
        match a with
        | none => return (e, Out.nothing)
        | some a =>
          let (e, a) ← analyzeLoop s image width height nimages 0 a
          let (e, out, a) ←
            if e = 0 then analysisResults s (some a) ptr else pure (e, Out.nothing, some a)
          destroyAnalysis a
          return (e, out)

end Verif
