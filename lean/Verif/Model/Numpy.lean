import Verif.Model.PyObjects

/-! # numpy arrays and PIL images

The Python modules resdet_numpy.py and resdet_PIL.py, and the loop over the frames of a file they are made for.  Memory that numpy and PIL allocate
for themselves is not part of the heap. -/

namespace Verif

/-- What the binding uses of a numpy array: its shape, and the memory from its first element on, as far as it may be read, as `float`s one
after the other (resdet_numpy.py:14-16, 26-33). -/
structure NdArray where
  shape : List ℕ
  memory : List Fl

/-- `Analysis.analyze_image` of a numpy array (resdet_numpy.py:26-28): the address of its first element. -/
def ndAnalyze (s : Sys) (a : Option Analysis) (x : NdArray) : M (Raises Unit × Option Analysis) := pyAnalyze s a (some x.memory)

/-- `resdetect` of a numpy array (resdet_numpy.py:30-33).  Less than two dimensions are an IndexError. -/
def ndResdetect (s : Sys) (x : NdArray) (m : Option Method) (d : PyDict) : M (Raises (List Res × List Res)) :=
  match x.shape with
  | w :: h :: rest => pyResdetect s (some x.memory) (rest.headD 1 : ℕ) w h m d
  | _ => return .raised none

/-- `resdet_numpy.Image` (resdet_numpy.py:9-12): the image, and the buffer it reads into. -/
structure NdImage where
  image : Option RDImage
  buffer : PyBuf

/-- Closing the image and the buffer, as the finalisers do (resdet.py:146-147, 204-205). -/
def NdImage.close (im : NdImage) : M Unit := do
  let _ ← im.buffer.close
  closeImage im.image

/-- `resdet_numpy.Image.__init__` (resdet_numpy.py:10-12, resdet.py:153-171).  The buffer of an image that could not be opened is closed. -/
def ndOpen (s : Sys) (io : Io) (filename : List UInt8) (type reader : Option (List UInt8)) : M (Raises NdImage) := do
  let o ← pyOpen s io filename type reader true
  match o.image with
  | none =>
    freeBuf o.buf
    return .raised (some o.error)
  | some i => return .ok ⟨some i, { data := o.buf, size := some (o.width, o.height, 1) }⟩

/-- `read_image_frame_as_ndarray` (resdet_numpy.py:14-16, resdet.py:110-114, 173-178): a copy of the samples, with the shape (width, height).
A NULL pointer is a ValueError. -/
def ndRead (im : NdImage) : M (Raises (Option NdArray) × NdImage) := do
  let (ret, e, p, i) ← readImageFrame im.image im.buffer.pointer 0
  let b := match im.buffer.param with
    | none => { im.buffer with data := p }
    | some _ => { im.buffer with param := some p }
  let im := ⟨i, b⟩
  if e ≠ 0 then return (.raised (some e), im)
  else if !ret then return (.ok none, im)
  else
    match b.size, ← pySamples b with
    | some (w, h, _), some data =>
      let data ← need (if w.toNat * h.toNat ≤ data.length then some (data.take (w.toNat * h.toNat)) else none)
      return (.ok (some ⟨[w.toNat, h.toNat], data⟩), im)
    | _, _ => return (.raised none, im)

/-- Open a file, read one frame and drop the image (resdet_numpy.py:9-16). -/
def ndFirst (s : Sys) (io : Io) (filename : List UInt8) (type reader : Option (List UInt8)) : M (Raises (Option NdArray)) := do
  match ← ndOpen s io filename type reader with
  | .raised e => return .raised e
  | .ok im =>
    let (r, im) ← ndRead im
    im.close
    return r

/-- One frame of a PIL image: its size and, row by row, the samples `convert("F")` gives (resdet_PIL.py:21-23). -/
structure PilFrame where
  width : ℕ
  height : ℕ
  samples : List Fl

/-- `PIL.Image.fromarray(ndarray, "F")` (resdet_PIL.py:11): the first dimension of the array is the height.  Other than two dimensions are an
exception. -/
def pilFrom (x : NdArray) : Option PilFrame :=
  match x.shape with
  | [h, w] => some ⟨w, h, x.memory⟩
  | _ => none

/-- `numpy.array(image.convert("F"))` (resdet_PIL.py:23). -/
def pilArray (f : PilFrame) : NdArray := ⟨[f.height, f.width], f.samples⟩

/-- `for frame in image: analysis.analyze_image(frame)`, with the frames `convert`ed before (resdet_numpy.py:18-24, resdet_PIL.py:13-19). -/
def ndLoop (s : Sys) (convert : NdArray → Option NdArray) : (fuel : ℕ) → NdImage → Option Analysis → M (Raises Unit × NdImage × Option Analysis)
  | 0, _, _ => M.ub
  | fuel + 1, im, a => do
    let (r, im) ← ndRead im
    match r with
    | .raised e => return (.raised e, im, a)
    | .ok none => return (.ok (), im, a)
    | .ok (some x) =>
      match convert x with
      | none => return (.raised none, im, a)
      | some x =>
        let (r, a) ← ndAnalyze s a x
        match r with
        | .raised e => return (.raised e, im, a)
        | .ok _ => ndLoop s convert fuel im a

/-- The program the iterators are made for: open a file, make an `Analysis` of its width and height, analyse one frame after the other and ask for
the results.  At the end the finalisers close the objects (resdet_numpy.py:18-28; resdet_PIL.py:13-23). -/
def ndDetect (s : Sys) (io : Io) (fuel : ℕ) (convert : NdArray → Option NdArray) (filename : List UInt8) (type reader : Option (List UInt8))
    (m : Option Method) (d : PyDict) : M (Raises (List Res × List Res)) := do
  match ← ndOpen s io filename type reader with
  | .raised e => return .raised e
  | .ok im =>
    match im.buffer.size with
    | none => return .raised none
    | some (w, h, _) =>
      match ← pyAnalysis s m w h d with
      | .raised e =>
        im.close
        return .raised e
      | .ok a =>
        let (r, im, a) ← ndLoop s convert fuel im (some a)
        let r ← (match r with
          | .raised e => pure (.raised e)
          | .ok _ => pyResults s a)
        im.close
        destroyAnalysis a
        return r

/-- With frames as numpy arrays (resdet_numpy.py:18-28). -/
def numpyDetect (s : Sys) (io : Io) (fuel : ℕ) := ndDetect s io fuel some

/-- With frames as PIL images (resdet_PIL.py:13-23). -/
def pilDetect (s : Sys) (io : Io) (fuel : ℕ) := ndDetect s io fuel (fun x => (pilFrom x).map pilArray)

/-- A PIL image: its frames, and which one it is at (resdet_PIL.py:25-38). -/
structure PilImage where
  frames : List PilFrame
  tell : ℕ

/-- The loop of `resdetect` (resdet_PIL.py:29-35) over the frames that are left. -/
def pilLoop (s : Sys) : List PilFrame → Option Analysis → M (Raises Unit × Option Analysis)
  | [], a => return (.ok (), a)
  | f :: fs, a => do
    let (r, a) ← ndAnalyze s a (pilArray f)
    match r with
    | .raised e => return (.raised e, a)
    | .ok _ => pilLoop s fs a

/-- `resdetect` of a PIL image (resdet_PIL.py:25-38).  The position the image has afterwards is left out. -/
def pilResdetect (s : Sys) (im : PilImage) (m : Option Method) (d : PyDict) : M (Raises (List Res × List Res)) := do
  match im.frames[im.tell]? with
  | none => return .raised none
  | some f =>
    match ← pyAnalysis s m f.width f.height d with
    | .raised e => return .raised e
    | .ok a =>
      let (r, a) ← pilLoop s (im.frames.drop im.tell) (some a)
      let r ← (match r with
        | .raised e => pure (.raised e)
        | .ok _ => pyResults s a)
      destroyAnalysis a
      return r

end Verif
