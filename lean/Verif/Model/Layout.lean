import Verif.Model.Bindings
import Verif.Model.Tools

/-!
# Structures in memory, as the bindings see them

The bindings read the library's structures from memory: JavaScript at hard-coded offsets, Python by declaring the fields to ctypes.
Memory is a partial function from addresses to bytes; reading elsewhere has no result.
-/

namespace Verif

/-- Memory (resdet.mts:46-76). -/
abbrev Mem := ℕ → Option UInt8

/-- The types of the fields of `RDResolution` and `RDMethod` (resdet.h:37-46). -/
inductive CType where
  | size
  | ptr
  | float
deriving DecidableEq, Repr

/-- The sizes of the types in bytes, and the order of bytes (resdet.h:37-46). -/
structure Abi where
  size : ℕ
  ptr : ℕ
  little : Bool
deriving DecidableEq, Repr

/-- `sizeof` and, all types being aligned to their size, `alignof` (resdet.h:37-46). -/
def Abi.bytes (a : Abi) : CType → ℕ
  | .size => a.size
  | .ptr => a.ptr
  | .float => 4

/-- The next multiple (resdet.h:37-46). -/
def roundUp (n a : ℕ) : ℕ := (n + a - 1) / a * a

/-- Where fields are put that follow `n` bytes: each at the next multiple of its alignment; and where the last one ends (resdet.h:37-46). -/
def place (a : Abi) (n : ℕ) : List CType → List ℕ × ℕ
  | [] => ([], n)
  | t :: ts =>
    let r := place a (roundUp n (a.bytes t) + a.bytes t) ts
    (roundUp n (a.bytes t) :: r.1, r.2)

/-- The offset of field `i` of a structure (resdet.h:37-46). -/
def fieldAt (a : Abi) (l : List CType) (i : ℕ) : ℕ := (place a 0 l).1.getD i 0

/-- The size of a structure: it is padded to a multiple of the largest alignment (resdet.h:37-46). -/
def structSize (a : Abi) (l : List CType) : ℕ := roundUp (place a 0 l).2 ((l.map a.bytes).foldl max 1)

/-- The number in `n` bytes from address `p` on (resdet.mts:46-76). -/
def readNat (m : Mem) (little : Bool) (p n : ℕ) : Option ℕ := do
  let b ← (List.range n).mapM (fun i => m (p + i))
  return (if little then b.reverse else b).foldl (fun n d => 256 * n + d.toNat) 0

/-- The bytes of a string up to its end, with `fuel` for its length (resdet.mts:46-52). -/
def readString (m : Mem) : ℕ → ℕ → Option (List UInt8)
  | 0, _ => none
  | fuel + 1, p => do
    let b ← m p
    if b = 0 then return [] else return b :: (← readString m fuel (p + 1))

/-! ## JavaScript (bindings/emscripten/resdet.mts); WebAssembly has little-endian memory -/

/-- `getValue(p, '*')` of emscripten: `HEAPU32[p >> 2]` (resdet.mts:46-52). -/
def jsPtr (m : Mem) (p : ℕ) : Option ℕ := readNat m true (p / 4 * 4) 4

/-- `getValue(p, 'i32')`: `HEAP32[p >> 2]` (resdet.mts:71-76). -/
def jsInt (m : Mem) (p : ℕ) : Option ℤ := (readNat m true (p / 4 * 4) 4).map (fun n : ℕ => if n < 2 ^ 31 then (n : ℤ) else (n : ℤ) - 2 ^ 32)

/-- `getValue(p, 'float')`: `HEAPF32[p >> 2]` (resdet.mts:46-52, 71-76). -/
def jsFloat (m : Mem) (p : ℕ) : Option Fl := (readNat m true (p / 4 * 4) 4).map floatOfBits

/-- `Resolution.fromRDResolution` (resdet.mts:71-76). -/
def jsResolution (m : Mem) (p : ℕ) : Option (ℤ × Fl) := do
  let index ← jsInt m p
  let confidence ← jsFloat m (p + 4)
  return (index, confidence)

/-- The list made from a pointer to the array and a pointer to the count (resdet.mts:145-151, 223-229).  `Array.from` makes an empty
array of a negative length. -/
def jsResolutions (m : Mem) (resp countp : ℕ) : Option (List (ℤ × Fl)) := do
  let count ← jsInt m countp
  let res ← jsPtr m resp
  (List.range count.toNat).mapM (fun i => jsResolution m (res + i * 8))

/-- `Method.fromRDMethod` (resdet.mts:46-52): name, threshold and address. -/
def jsMethod (m : Mem) (fuel p : ℕ) : Option (List UInt8 × Fl × ℕ) := do
  let name ← readString m fuel (← jsPtr m p)
  let threshold ← jsFloat m (p + 8)
  return (name, threshold, p)

/-- `methods` (resdet.mts:164-169), with `fuel` for the number of rounds and the length of names. -/
def jsMethods (m : Mem) : ℕ → ℕ → Option (List (List UInt8 × Fl × ℕ))
  | 0, _ => none
  | fuel + 1, p => do
    if (← jsPtr m p) = 0 then return []
    let x ← jsMethod m fuel p
    return x :: (← jsMethods m fuel (p + 12))

/-- `HEAPF32.set(image, k)` (resdet.mts:118, 203): the samples are stored from element `k` of the heap on. -/
def jsSetFloats (m : Mem) (image : List Fl) (k : ℕ) : Mem := fun p =>
  if 4 * k ≤ p ∧ p < 4 * (k + image.length) then
    (image[(p - 4 * k) / 4]?).map (fun x => (bitsOfFloat x / 256 ^ (p % 4)).toUInt8)
  else m p

/-! ## Python (bindings/python) -/

/-- The fields of `RDResolution` (libresdet_api.py:17-21). -/
def pyResolutionFields : List CType := [.size, .float]

/-- The fields of `RDMethod` (libresdet_api.py:23-28). -/
def pyMethodFields : List CType := [.ptr, .ptr, .float]

/-- Reading a field of a structure: ctypes places fields as C does (libresdet_api.py:17-28). -/
def pyField (m : Mem) (a : Abi) (l : List CType) (i p : ℕ) : Option ℕ :=
  readNat m a.little (p + fieldAt a l i) (a.bytes (l.getD i .float))

/-- `_resolution_list_from_rdresolutions` (resdet.py:311-316), with the array at `res`. -/
def pyResolutions (m : Mem) (a : Abi) (res count : ℕ) : Option (List Res) :=
  (List.range count).mapM (fun i => do
    let index ← pyField m a pyResolutionFields 0 (res + structSize a pyResolutionFields * i)
    let confidence ← pyField m a pyResolutionFields 1 (res + structSize a pyResolutionFields * i)
    return ⟨index, floatOfBits confidence⟩)

/-- `methods` (resdet.py:323-329) with `Method.from_rdmethod` (resdet.py:78-80).  An empty name would end the list, too. -/
def pyMethods (m : Mem) (a : Abi) : ℕ → ℕ → Option (List (List UInt8 × Fl × ℕ))
  | 0, _ => none
  | fuel + 1, p => do
    let name ← pyField m a pyMethodFields 0 p
    if name = 0 then return []
    let text ← readString m fuel name
    if text = [] then return []
    let threshold ← pyField m a pyMethodFields 2 p
    return (text, floatOfBits threshold, p) :: (← pyMethods m a fuel (p + structSize a pyMethodFields))

/-- `list_image_readers` (resdet.py:334-340). -/
def pyReaders (m : Mem) (a : Abi) : ℕ → ℕ → Option (List (List UInt8))
  | 0, _ => none
  | fuel + 1, p => do
    let name ← readNat m a.little p a.ptr
    if name = 0 then return []
    let text ← readString m fuel name
    return text :: (← pyReaders m a fuel (p + a.ptr))

end Verif
