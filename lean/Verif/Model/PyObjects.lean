import Verif.Model.Bindings

/-! # Objects of the Python binding

Programs that make, use and close `ImageBuffer`, `Image` and `Analysis` objects.  Objects are numbered in the order in which they
are made; one that does not exist raises an exception, and so does a missing attribute.  Left out are buffers made from a pointer of the
caller, arrays, numpy arrays and PIL images. -/

namespace Verif

/-- `ImageBuffer` (resdet.py:92-147): what `data` points to, the pointer object `_as_parameter_` once it is not the same as `data` any
more, and the attributes width, height and nimages once they are set. -/
structure PyBuf where
  data : Option (Buf Fl) := none
  param : Option (Option (Buf Fl)) := none
  size : Option (ℤ × ℤ × ℤ) := none

/-- The pointer passed for the buffer itself: `_as_parameter_` (resdet.py:100). -/
def PyBuf.pointer (b : PyBuf) : Option (Buf Fl) := b.param.getD b.data

/-- `ImageBuffer.close` (resdet.py:135-137): `data` becomes a new pointer, `_as_parameter_` stays. -/
def PyBuf.close (b : PyBuf) : M PyBuf := do
  freeBuf b.data
  return { b with data := none, param := some b.pointer }

/-- The objects of a program; an image or an analysis that was closed is NULL (resdet.py:92-256). -/
structure PyState where
  bufs : List PyBuf := []
  images : List (Option RDImage) := []
  analyses : List (Option Analysis) := []

/-- One statement of a program.  A method is given by its name (resdet.py:92-415). -/
inductive PyOp where
  | buffer
  | dimensions (width height nimages : ℤ)
  | readImage (filename : List UInt8) (type : Option (List UInt8))
  | image (filename : List UInt8) (type reader : Option (List UInt8)) (buf : Option ℕ)
  | readFrame (image buf : ℕ)
  | seek (image : ℕ) (offset : ℤ) (progress : Bool)
  | closeImage (image : ℕ)
  | closeBuffer (buf : ℕ)
  | item (buf : ℕ) (index : PyIndex)
  | analysis (width height : ℤ) (method : Option String) (d : PyDict)
  | analyze (analysis buf : ℕ)
  | analyzeList (analysis : ℕ) (image : List Fl)
  | results (analysis : ℕ)
  | destroy (analysis : ℕ)
  | resdetect (buf : ℕ) (method : Option String) (d : PyDict)
  | resdetectFile (filename : List UInt8) (type : Option (List UInt8)) (method : Option String) (d : PyDict)

/-- What a statement returns (resdet.py:92-415). -/
inductive PyVal where
  | unit
  | bool (b : Bool)
  | float (x : Fl)
  | lists (widths heights : List Res)
deriving DecidableEq, Repr

/-- Passing on an exception or a value (resdet.py:270-291). -/
def Raises.to {α : Type} (r : Raises α) (f : α → PyVal) : Raises PyVal :=
  match r with
  | .ok a => .ok (f a)
  | .raised e => .raised e

/-- `type.encode("utf-8") if type else None` (resdet.py:154). -/
def pyText (t : Option (List UInt8)) : Option (List UInt8) := if t = some [] then none else t

/-- `Method.get` (resdet.py:82-85), or None. -/
def pyMethod (name : Option String) : Option Method := name.bind (fun n => resdetGetMethod (some n))

/-- Conversion of a Python integer to `c_uint64` by ctypes (resdet.py:180-191). -/
def pyOffset (n : ℤ) : ℕ := (n % 2 ^ 64).toNat

/-- The library call of `Image.__init__` (resdet.py:158-162). -/
def pyOpen (s : Sys) (io : Io) (filename : List UInt8) (type reader : Option (List UInt8)) (wantBuf : Bool) : M Opened :=
  match pyText reader with
  | some r => resdetOpenImageWithReader s io (some filename) (some r) true true wantBuf
  | none => resdetOpenImage s io (some filename) (pyText type) true true wantBuf

/-- `Image.__init__` (resdet.py:153-171).  The library writes the pointer to the samples to `data`, whatever that was before. -/
def pyImage (s : Sys) (io : Io) (st : PyState) (filename : List UInt8) (type reader : Option (List UInt8)) (buf : Option ℕ) :
    M (Raises PyVal × PyState) := do
  match buf with
  | none =>
    let o ← pyOpen s io filename type reader false
    match o.image with
    | none => return (.raised (some o.error), st)
    | some i => return (.ok .unit, { st with images := st.images ++ [some i] })
  | some k =>
    match st.bufs[k]? with
    | none => return (.raised none, st)
    | some b =>
      let o ← pyOpen s io filename type reader true
      match o.image with
      | none => return (.raised (some o.error), { st with bufs := st.bufs.set k { b with data := o.buf } })
      | some i => return (.ok .unit, { st with
          bufs := st.bufs.set k { b with data := o.buf, size := some (o.width, o.height, 1) }, images := st.images ++ [some i] })

/-- `Image.read_image_frame` (resdet.py:173-178): the samples are written to what `_as_parameter_` points to. -/
def pyReadFrame (st : PyState) (k j : ℕ) : M (Raises PyVal × PyState) := do
  match st.images[k]?, st.bufs[j]? with
  | some i, some b =>
    let (ret, e, p, i) ← readImageFrame i b.pointer 0
    let b := match b.param with
      | none => { b with data := p }
      | some _ => { b with param := some p }
    let st := { st with images := st.images.set k i, bufs := st.bufs.set j b }
    if e ≠ 0 then return (.raised (some e), st) else return (.ok (.bool ret), st)
  | _, _ => return (.raised none, st)

/-- `Image.seek_frame` (resdet.py:180-191). -/
def pySeek (st : PyState) (k : ℕ) (offset : ℤ) (progress : Bool) : M (Raises PyVal × PyState) := do
  match st.images[k]? with
  | some i =>
    let (ret, e, _, i) ← seekFrame i (pyOffset offset) progress
    let st := { st with images := st.images.set k i }
    if e ≠ 0 then return (.raised (some e), st) else return (.ok (.bool ret), st)
  | none => return (.raised none, st)

/-- The samples `data` points to, read by the library (resdet.py:217-235). -/
def pySamples (b : PyBuf) : M (Option (List Fl)) := do
  match b.data with
  | none => return none
  | some buf =>
    touch buf.id
    return some buf.data

/-- `ImageBuffer.__getitem__` (resdet.py:116-133) for the object: reading through NULL raises an exception in ctypes. -/
def pyItem (b : PyBuf) (i : PyIndex) : M (Raises PyVal) := do
  match b.size with
  | none => return .raised none
  | some (w, h, n) =>
    match pyIndex ⟨0, w, h, n⟩ i with
    | none => return .raised none
    | some k =>
      match ← pySamples b with
      | none => return .raised none
      | some data =>
        let x ← need (if 0 ≤ k then data[k.toNat]? else none)
        return .ok (.float x)

/-- One statement (resdet.py:92-415). -/
def pyStep (s : Sys) (io : Io) (fuel : ℕ) (st : PyState) : PyOp → M (Raises PyVal × PyState)
  | .buffer => return (.ok .unit, { st with bufs := st.bufs ++ [{}] })
  | .dimensions w h n => do  -- resdet.py:102-108
    match ← malloc with
    | none => return (.ok .unit, { st with bufs := st.bufs ++ [{ size := some (w, h, n) }] })
    | some b => return (.ok .unit, { st with bufs := st.bufs ++
        [{ data := some ⟨b, List.replicate (pySize s.cfg (w * h * 4) / 4) s.env.junk⟩, size := some (w, h, n) }] })
  | .readImage fn ft => do  -- resdet.py:342-355
    let o ← readImage s io (some fn) (pyText ft) true true
    if o.error ≠ 0 then
      freeBuf o.images
      return (.raised (some o.error), st)
    else return (.ok .unit, { st with bufs := st.bufs ++ [{ data := o.images, size := some (o.width, o.height, o.nimages) }] })
  | .image fn ft rn buf => pyImage s io st fn ft rn buf
  | .readFrame k j => pyReadFrame st k j
  | .seek k n p => pySeek st k n p
  | .closeImage k => do  -- resdet.py:193-195
    match st.images[k]? with
    | none => return (.raised none, st)
    | some i =>
      closeImage i
      return (.ok .unit, { st with images := st.images.set k none })
  | .closeBuffer j => do
    match st.bufs[j]? with
    | none => return (.raised none, st)
    | some b => return (.ok .unit, { st with bufs := st.bufs.set j (← b.close) })
  | .item j i => do
    match st.bufs[j]? with
    | none => return (.raised none, st)
    | some b => return (← pyItem b i, st)
  | .analysis w h m d => do
    match ← pyAnalysis s (pyMethod m) w h d with
    | .raised e => return (.raised e, st)
    | .ok a => return (.ok .unit, { st with analyses := st.analyses ++ [some a] })
  | .analyze k j => do  -- resdet.py:223-225
    match st.analyses[k]?, st.bufs[j]? with
    | some a, some b =>
      let (r, a) ← pyAnalyze s a (← pySamples b)
      return (r.to (fun _ => .unit), { st with analyses := st.analyses.set k a })
    | _, _ => return (.raised none, st)
  | .analyzeList k l => do
    match st.analyses[k]? with
    | some a =>
      let (r, a) ← pyAnalyzeList s a l
      return (r.to (fun _ => .unit), { st with analyses := st.analyses.set k a })
    | none => return (.raised none, st)
  | .results k => do
    match st.analyses[k]? with
    | some a => return ((← pyResults s a).to (fun r => .lists r.1 r.2), st)
    | none => return (.raised none, st)
  | .destroy k => do  -- resdet.py:254-256
    match st.analyses[k]? with
    | none => return (.raised none, st)
    | some a =>
      destroyAnalysis a
      return (.ok .unit, { st with analyses := st.analyses.set k none })
  | .resdetect j m d => do  -- resdet.py:379-381
    match st.bufs[j]? with
    | none => return (.raised none, st)
    | some b =>
      match b.size with
      | none => return (.raised none, st)
      | some (w, h, n) => return ((← pyResdetect s (← pySamples b) n w h (pyMethod m) d).to (fun r => .lists r.1 r.2), st)
  | .resdetectFile fn ft m d => do
    return ((← pyResdetectFile s io fuel (some fn) (pyText ft) (pyMethod m) d).to (fun r => .lists r.1 r.2), st)

/-- A program: what its statements return, and the objects at the end.  Exceptions are caught by the caller, so it goes on (resdet.py:92-415). -/
def pyRun (s : Sys) (io : Io) (fuel : ℕ) : PyState → List PyOp → M (List (Raises PyVal) × PyState)
  | st, [] => pure ([], st)
  | st, op :: ops => do
    let (r, st) ← pyStep s io fuel st op
    let (rs, st) ← pyRun s io fuel st ops
    return (r :: rs, st)

end Verif
