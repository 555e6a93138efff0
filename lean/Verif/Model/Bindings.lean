import Verif.Model.Image

/-! # The Python and JavaScript bindings

Exceptions are outcomes.  Modelled are the conversion of parameters, the functions that run the detection and collect its results,
the exceptions made from error codes, indexing and allocation of image buffers, and the shape of numpy arrays. -/

namespace Verif

/-- A value, or an exception: with the error code it is made from, or none if it does not come from the library
(resdet.py:270-291; resdet.mts:137-160). -/
inductive Raises (α : Type) where
  | ok (a : α)
  | raised (e : Option RDError)
deriving DecidableEq, Repr

/-- The dictionary of parameters given to the Python binding: the values of the three known keys, and whether there are others.
Values of other types, for which ctypes raises an exception, are left out (resdet.py:293-309). -/
structure PyDict where
  range : Option ℤ := none
  threshold : Option Fl := none
  compressionFilter : Option ℤ := none
  unknown : Bool := false
deriving DecidableEq, Repr

/-- `not parameters` (resdet.py:294). -/
def PyDict.isEmpty (d : PyDict) : Bool := d.range.isNone && d.threshold.isNone && d.compressionFilter.isNone && !d.unknown

/-- Conversion of a Python integer to `c_size_t` by ctypes, which does not check for overflow (libresdet_api.py:55). -/
def pySize (c : Cfg) (n : ℤ) : ℕ := (n % (c.sizeMax + 1 : ℤ)).toNat

/-- Conversion of a Python integer to `c_uint8` by ctypes (libresdet_api.py:61). -/
def pyByte (n : ℤ) : ℕ := (n % 256).toNat

/-- The calls of the setters (resdet.py:302-307), whose results are not looked at. -/
def pySet (c : Cfg) (d : PyDict) (p : Option Params) : Option Params :=
  let p := match d.range with
    | some n => (setRange p (pySize c n)).2
    | none => p
  let p := match d.threshold with
    | some t => (setThreshold p (binary32.conv t)).2
    | none => p
  match d.compressionFilter with
  | some n => (setCompressionFilter p (pyByte n)).2
  | none => p

/-- `_dict_to_rdparameters` (resdet.py:293-309): NULL, or the block of the object and its contents. -/
def pyParameters (c : Cfg) (d : PyDict) : M (Raises (Option (ℕ × Params))) := do
  if d.isEmpty then return .ok none
  else if d.unknown then return .raised none
  else
    match ← resdetAllocDefaultParameters c with
    | none => return .ok ((pySet c d none).map (fun p => (0, p)))
    | some (b, p) => return .ok ((pySet c d (some p)).map (fun p => (b, p)))

/-- `Analysis.__init__` (resdet.py:208-215). -/
def pyAnalysis (s : Sys) (m : Option Method) (width height : ℤ) (d : PyDict) : M (Raises Analysis) := do
  match ← pyParameters s.cfg d with
  | .raised e => return .raised e
  | .ok p =>
    let (a, e) ← createAnalysis s m (pySize s.cfg width) (pySize s.cfg height) (p.map Prod.snd)
    free (p.map Prod.fst)
    match a with
    | none => return .raised (some e)
    | some a => return .ok a

/-- The exceptions of the Python binding (resdet.py:270-291). -/
inductive PyExc where
  | memory
  | internal
  | invalid
  | unsupported
  | tooBig
  | parameter
  | noImages
  | os (errno : ℤ)
  | other
deriving DecidableEq, Repr

/-- `_rderror_to_exception` (resdet.py:270-291), but for the message. -/
def pyException (e : RDError) : PyExc :=
  if e = RDENOMEM then .memory
  else if e = RDEINTERNAL then .internal
  else if e = RDEINVAL then .invalid
  else if e = RDEUNSUPP then .unsupported
  else if e = RDETOOBIG then .tooBig
  else if e = RDEPARAM then .parameter
  else if e = RDENOIMG then .noImages
  else if e < 0 then .os (-e)
  else .other

/-- Copying `count` structures starting at a pointer (resdet.py:311-316, resdet.mts:150, 228): no value for an access outside of the
memory or to memory that was freed. -/
def copyList (r : Option (Buf Res)) (count : ℕ) : M (List Res) :=
  if count = 0 then pure []
  else do
    let b ← need r
    touch b.id
    need (if count ≤ b.data.length then some (b.data.take count) else none)

/-- The last part of `analysis_results`, `resdetect` and `resdetect_file` (resdet.py:244-252, 369-377, 407-415). -/
def pyCollect (e : RDError) (o : Out) : M (Raises (List Res × List Res)) := do
  if e ≠ 0 then return .raised (some e)
  else
    let widths ← copyList o.rw o.cw
    freeBuf o.rw
    let heights ← copyList o.rh o.ch
    freeBuf o.rh
    return .ok (widths, heights)

/-- `resdetect` of a pointer to samples (resdet.py:357-377), which all other overloads call. -/
def pyResdetect (s : Sys) (image : Option (List Fl)) (nimages width height : ℤ) (m : Option Method) (d : PyDict) :
    M (Raises (List Res × List Res)) := do
  match ← pyParameters s.cfg d with
  | .raised e => return .raised e
  | .ok p =>
    let (e, o) ← resdetect s image (pySize s.cfg nimages) (pySize s.cfg width) (pySize s.cfg height) .all m (p.map Prod.snd)
    free (p.map Prod.fst)
    pyCollect e o

/-- `resdetect` of a list (resdet.py:388-391): the elements are converted to `float`. -/
def pyResdetectList (s : Sys) (image : List Fl) (nimages width height : ℤ) (m : Option Method) (d : PyDict) :
    M (Raises (List Res × List Res)) := pyResdetect s (some (image.map binary32.conv)) nimages width height m d

/-- `resdetect_file` (resdet.py:393-415). -/
def pyResdetectFile (s : Sys) (io : Io) (fuel : ℕ) (filename filetype : Option (List UInt8)) (m : Option Method) (d : PyDict) :
    M (Raises (List Res × List Res)) := do
  match ← pyParameters s.cfg d with
  | .raised e => return .raised e
  | .ok p =>
    let (e, o) ← resdetectFile s io fuel filename filetype .all m (p.map Prod.snd)
    free (p.map Prod.fst)
    pyCollect e o

/-- `Analysis.analyze_image` (resdet.py:217-221). -/
def pyAnalyze (s : Sys) (a : Option Analysis) (image : Option (List Fl)) : M (Raises Unit × Option Analysis) := do
  let (e, a) ← analyzeImage s a image
  if e ≠ 0 then return (.raised (some e), a)
  else return (.ok (), a)

/-- `Analysis.analyze_image` of a list (resdet.py:232-235): the elements are converted to `float`. -/
def pyAnalyzeList (s : Sys) (a : Option Analysis) (image : List Fl) : M (Raises Unit × Option Analysis) :=
  pyAnalyze s a (some (image.map binary32.conv))

/-- `Analysis.analysis_results` (resdet.py:237-252).  NULL stands for an analysis that was destroyed before. -/
def pyResults (s : Sys) (a : Option Analysis) : M (Raises (List Res × List Res)) := do
  let (e, o, _) ← analysisResults s a .all
  pyCollect e o

/-- The object of parameters given to the JavaScript binding (resdet.mts:172-195). -/
structure JsObject where
  range : Option Fl := none
  threshold : Option Fl := none
  compressionFilter : Option Fl := none
  unknown : Bool := false
deriving DecidableEq, Repr

/-- `Object.keys(parameters).length === 0` (resdet.mts:173). -/
def JsObject.isEmpty (d : JsObject) : Bool := d.range.isNone && d.threshold.isNone && d.compressionFilter.isNone && !d.unknown

/-- How numbers become arguments of compiled functions of type `size_t`, `float` and `uint8_t` (resdet.mts:172-195). -/
structure JsConv where
  size : Fl → ℕ
  float : Fl → Fl
  byte : Fl → ℕ

/-- The calls of the setters (resdet.mts:184-190): the last error, 0 for `undefined`, and the object. -/
def jsSet (v : JsConv) (d : JsObject) (p : Option Params) : RDError × Option Params :=
  let r := match d.range with
    | some n => setRange p (v.size n)
    | none => (0, p)
  let r := match d.threshold with
    | some t => setThreshold r.2 (v.float t)
    | none => r
  match d.compressionFilter with
  | some n => setCompressionFilter r.2 (v.byte n)
  | none => r

/-- `parametersFromObj` (resdet.mts:172-195). -/
def jsParameters (c : Cfg) (v : JsConv) (d : JsObject) : M (Raises (Option (ℕ × Params))) := do
  if d.isEmpty then return .ok none
  else if d.unknown then return .raised none
  else
    match ← resdetAllocDefaultParameters c with
    | none => return .raised none
    | some (b, p) =>
      let (e, q) := jsSet v d (some p)
      if e ≠ 0 then return .raised (some e)
      else return .ok (q.map (fun p => (b, p)))

/-- The last part of `analysisResults` and `resDetect` (resdet.mts:137-160, 215-238): the cells hold what the library wrote. -/
def jsCollect (countw counth resw resh : Option ℕ) (e : RDError) (o : Out) : M (Raises (List Res × List Res)) := do
  if e ≠ 0 then
    free resw
    free resh
    free countw
    free counth
    return .raised (some e)
  else
    let widths ← copyList o.rw o.cw
    let heights ← copyList o.rh o.ch
    freeBuf o.rw
    freeBuf o.rh
    free resw
    free resh
    free countw
    free counth
    return .ok (widths, heights)

/-- `resDetect` (resdet.mts:197-239).  No value if the size of the array in bytes does not fit into `size_t`. -/
def jsResDetect (s : Sys) (v : JsConv) (image : List Fl) (nimages width height : Fl) (m : Option Method) (d : JsObject) :
    M (Raises (List Res × List Res)) := do
  match ← jsParameters s.cfg v d with
  | .raised e => return .raised e
  | .ok p =>
    need (if image.length * 4 ≤ s.cfg.sizeMax then some () else none)
    match ← malloc with
    | none => return .raised none
    | some buf =>
      let countw ← malloc
      let counth ← malloc
      let resw ← malloc
      let resh ← malloc
      if !(countw.isSome && counth.isSome && resw.isSome && resh.isSome) then return .raised none
      else
        let (e, o) ← resdetect s (some image) (v.size nimages) (v.size width) (v.size height) .all m (p.map Prod.snd)
        free (p.map Prod.fst)
        free (some buf)
        jsCollect countw counth resw resh e o

/-- The constructor of `Analysis` (resdet.mts:97-112). -/
def jsAnalysis (s : Sys) (v : JsConv) (m : Option Method) (width height : Fl) (d : JsObject) : M (Raises (Option Analysis)) := do
  match ← jsParameters s.cfg v d with
  | .raised e => return .raised e
  | .ok p =>
    match ← malloc with
    | none => return .raised none
    | some errp =>
      let (a, e) ← createAnalysis s m (v.size width) (v.size height) (p.map Prod.snd)
      free (p.map Prod.fst)
      free (some errp)
      if e ≠ 0 then return .raised (some e)
      else return .ok a

/-- `analyzeImage` (resdet.mts:114-125). -/
def jsAnalyze (s : Sys) (a : Analysis) (image : List Fl) : M (Raises Unit × Option Analysis) := do
  need (if image.length * 4 ≤ s.cfg.sizeMax then some () else none)
  match ← malloc with
  | none => return (.raised none, some a)
  | some buf =>
    let (e, a) ← analyzeImage s (some a) (some image)
    free (some buf)
    if e ≠ 0 then return (.raised (some e), a)
    else return (.ok (), a)

/-- `analysisResults` (resdet.mts:127-161). -/
def jsResults (s : Sys) (a : Analysis) : M (Raises (List Res × List Res)) := do
  let countw ← malloc
  let counth ← malloc
  let resw ← malloc
  let resh ← malloc
  if !(countw.isSome && counth.isSome && resw.isSome && resh.isSome) then return .raised none
  else
    let (e, o, _) ← analysisResults s (some a) .all
    jsCollect countw counth resw resh e o

/-- `ImageBuffer` (resdet.py:92-96): the attributes, and how many samples the memory at `data` holds. -/
structure PyBuffer where
  size : ℕ
  width : ℤ
  height : ℤ
  nimages : ℤ
deriving DecidableEq, Repr

/-- `ImageBuffer.with_dimensions` (resdet.py:102-108): `malloc` of `width*height` samples, converted to `size_t`; NULL is not
checked for and holds nothing. -/
def pyWithDimensions (c : Cfg) (width height nimages : ℤ) : M PyBuffer := do
  match ← malloc with
  | none => return ⟨0, width, height, nimages⟩
  | some _ => return ⟨pySize c (width * height * 4) / 4, width, height, nimages⟩

/-- An index given to `__getitem__`: an integer or a tuple of integers (resdet.py:116-133). -/
inductive PyIndex where
  | int (n : ℤ)
  | tuple (l : List ℤ)
deriving DecidableEq, Repr

/-- `ImageBuffer.__getitem__` (resdet.py:116-133): `none` after an exception, otherwise the index at which `self.data` is read. -/
def pyIndex (b : PyBuffer) (i : PyIndex) : Option ℤ :=
  let flat := match i with
    | .int n => some n
    | .tuple l =>
      if l.length > 3 then none
      else
        let l := if l.length < 3 then 0 :: l else l
        match l with
        | [f, y, x] =>
          if f ≥ b.nimages then none
          else if y ≥ b.height then none
          else if x ≥ b.width then none
          else some ((f * b.height + y) * b.width + x)
        | _ => none
  match flat with
  | none => none
  | some n => if n ≥ b.width * b.height * b.nimages then none else some n

/-- `self.data[index]` for a ctypes pointer, which does not check its index: `none` is an access outside of the memory (resdet.py:116-133). -/
def pyRead (b : PyBuffer) (n : ℤ) : Option ℕ := if 0 ≤ n ∧ n < b.size then some n.toNat else none

/-- `ImageBuffer.shape` for one image (resdet.py:110-114). -/
def pyShape (b : PyBuffer) : ℤ × ℤ := (b.width, b.height)

/-- Where element `[i, j]` of `numpy.ctypeslib.as_array(data, shape)` lies (resdet_numpy.py:16): rows one after the other. -/
def ndOffset (shape : ℤ × ℤ) (i j : ℤ) : Option ℤ :=
  if 0 ≤ i ∧ i < shape.1 ∧ 0 ≤ j ∧ j < shape.2 then some (i * shape.2 + j) else none

/-- Where element `[i, j, k]` of a numpy array with three dimensions lies, in the default order (resdet_numpy.py:16). -/
def ndOffset3 (shape : ℤ × ℤ × ℤ) (i j k : ℤ) : Option ℤ :=
  if 0 ≤ i ∧ i < shape.1 ∧ 0 ≤ j ∧ j < shape.2.1 ∧ 0 ≤ k ∧ k < shape.2.2 then some ((i * shape.2.1 + j) * shape.2.2 + k) else none

/-- Number of images, width and height `resdetect` of a numpy array with three dimensions passes on (resdet_numpy.py:33-34). -/
def ndSize3 (shape : ℤ × ℤ × ℤ) : ℤ × ℤ × ℤ := (shape.2.2, shape.1, shape.2.1)

/-- Width and height `resdetect` of a numpy array passes on (resdet_numpy.py:33-34). -/
def ndSize (shape : ℤ × ℤ) : ℤ × ℤ := (shape.1, shape.2)

end Verif
