import Verif.Model.Env

/-! # lib/util.c and lib/resdet_internal.h -/

namespace Verif

/-- The four detection functions (methods.c:16,28,45,87). -/
inductive Detect where
  | sign
  | mag
  | orig
  | zerox
deriving DecidableEq, Repr

/-- `RDMethod` (resdet.h:42-46). -/
structure Method where
  name : String
  func : Detect
  threshold : Fl
deriving DecidableEq, Repr

/-- `methods[]` (methods.c:99-118) without the terminator.  The thresholds are decimal constants rounded to `float`. -/
def methods : List Method := [
  ⟨"sign", .sign, binary32.deliver false (55 / 100)⟩,
  ⟨"mag", .mag, binary32.deliver false (40 / 100)⟩,
  ⟨"orig", .orig, binary32.deliver false (64 / 100)⟩,
  ⟨"zerox", .zerox, binary32.deliver false (5 / 10)⟩]

/-- First element satisfying a test: the loop of util.c:11-13. -/
def searchMethod (name : String) : List Method → Option Method
  | [] => none
  | m :: ms => if m.name = name then some m else searchMethod name ms

/-- `resdet_get_method` (util.c:8-15); the argument `none` is NULL. -/
def resdetGetMethod (name : Option String) : Option Method :=
  match name with
  | none => methods.head?
  | some n => searchMethod n methods

/-- `struct RDParameters` (resdet_internal.h:62-66). -/
structure Params where
  range : ℕ
  threshold : Fl
  compressionFilter : ℕ
deriving DecidableEq, Repr

/-- `default_params` (resdet_internal.h:79-82). -/
def defaultParams (c : Cfg) : Params := ⟨c.defaultRange, .fin true (-1), 0⟩

/-- `resdet_alloc_default_parameters` (util.c:17-24): block and contents. -/
def resdetAllocDefaultParameters (c : Cfg) : M (Option (ℕ × Params)) := do
  match ← malloc with
  | none => return none
  | some b => return some (b, defaultParams c)

/-- `resdet_parameters_set_range` (util.c:26-32).  `none` is a NULL object; the result holds the object afterwards. -/
def setRange (p : Option Params) (range : ℕ) : RDError × Option Params :=
  match p with
  | none => (RDEPARAM, none)
  | some p => if range = 0 then (RDEPARAM, some p) else (RDEOK, some { p with range := range })

/-- `resdet_parameters_set_threshold` (util.c:34-40). -/
def setThreshold (p : Option Params) (t : Fl) : RDError × Option Params :=
  match p with
  | none => (RDEPARAM, none)
  | some p =>
    if t.isnan || t.lt (.fin false 0) || t.gt (.fin false 1) then (RDEPARAM, some p)
    else (RDEOK, some { p with threshold := t })

/-- `resdet_parameters_set_compression_filter` (util.c:42-48); `unsigned int` has 32 bits. -/
def setCompressionFilter (p : Option Params) (value : ℕ) : RDError × Option Params :=
  match p with
  | none => (RDEPARAM, none)
  | some p =>
    if value > 4 * 8 - 1 then (RDEPARAM, some p) else (RDEOK, some { p with compressionFilter := value })

/-- `RDErrStr` (util.c:59-68). -/
def RDErrStr : List String := [
  "", "Out of memory", "Internal error", "Invalid image", "Unsupported image file format",
  "Image size exceeds limit", "Parameter missing or invalid", "No images were analyzed"]

/-- `resdet_get_max_error` (util.c:81-83). -/
def resdetGetMaxError : ℤ := (RDErrStr.length : ℤ) - 1

/-- `resdet_error_str` (util.c:70-79).  Outer `none`: undefined (negating INT_MIN overflows, or index out of range);
inner `none`: NULL. -/
def resdetErrorStr (c : Cfg) (strerror : ℤ → String) (e : ℤ) : Option (Option String) :=
  if e < 0 then (if -e > c.intMax then none else some (some (strerror (-e))))
  else if e > resdetGetMaxError then some none
  else (rd RDErrStr e.toNat).map some

/-- `resdet_dims_exceed_limit` (resdet_internal.h:46-50).  C `&&` does not divide once an operand is zero. -/
def dimsExceedLimit (c : Cfg) (width height nimages elemSize : ℕ) : Bool :=
  !(width ≠ 0 && height ≠ 0 && nimages ≠ 0 &&
    c.pixelMax / width / height / nimages ≠ 0 &&
    c.sizeMax / width / height / nimages / elemSize ≠ 0)

end Verif
