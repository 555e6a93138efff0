import Verif.Model.Util

/-!
# lib/methods.c

The detection functions.  `f` is the coefficient array; `result` the score array; all index arithmetic on `f` is in
`size_t` because `stride` and `dist` are.
-/

namespace Verif

/-- `f[y*stride+x*dist-i*dist]` (methods.c:21,34,76,91) -/
def leftIdx (c : Cfg) (stride dist y x i : ℕ) : ℕ :=
  c.szSub (c.sz (c.sz (y * stride) + c.sz (x * dist))) (c.sz (i * dist))

/-- `f[y*stride+x*dist+i*dist]` (methods.c:21,34,76,91) -/
def rightIdx (c : Cfg) (stride dist y x i : ℕ) : ℕ :=
  c.sz (c.sz (c.sz (y * stride) + c.sz (x * dist)) + c.sz (i * dist))

/-- `f[y*stride+x*dist]` (methods.c:62,91) -/
def midIdx (c : Cfg) (stride dist y x : ℕ) : ℕ := c.sz (c.sz (y * stride) + c.sz (x * dist))

/-- `count += cond` on an `rdint_storage` counter (methods.c:21, 34, 76). -/
def bump (c : Cfg) (n : ℕ) (b : Bool) : ℕ := c.stor (n + if b then 1 else 0)

/-- `result[i] += v` in `intermediate` arithmetic (methods.c:22, 37). -/
def accum (c : Cfg) (result : List Fl) (i : ℕ) (v : Fl) : Option (List Fl) := do
  let r ← rd result i
  wr result i (c.inter.add r v)

/-- The doubly nested counting loop of methods.c:19-21 (and 74-76). -/
def signCount (c : Cfg) (f : List Fl) (n stride dist range x : ℕ) : Option ℕ :=
  idxLoop c 0 n (fun y cnt =>
    idxLoop c 1 (range + 1) (fun i cnt => do
      let l ← rd f (leftIdx c stride dist y x i)
      let r ← rd f (rightIdx c stride dist y x i)
      return bump c cnt (l.signbit != r.signbit)) cnt) 0

/-- `(intermediate)n*range` (methods.c:22,37) -/
def interProd (c : Cfg) (n range : ℕ) : Fl := c.inter.mul (c.inter.ofNat n) (c.inter.ofNat range)

/-- `detect_method_sign` (methods.c:16-25). -/
def detectSign (c : Cfg) (f : List Fl) (n stride dist range : ℕ) (result : List Fl) (start end_ : ℕ) :
    Option (List Fl) :=
  idxLoop c start end_ (fun x result => do
    let signDiff ← signCount c f n stride dist range x
    accum c result (c.idxSub x start) (c.inter.div (c.inter.ofNat signDiff) (interProd c n range))) result

/-- `EPSILON` (precision.h:41,45,49): the distance from 1 to the next `intermediate`. -/
def epsilon (c : Cfg) : Fl := .fin false (pow2 (1 - (c.inter.p : ℤ)))

/-- The argument of `frexp` in methods.c:34: `f[..]/copysign(MAX(fabs(g),EPSILON),g) + 1`.  `fabs` and `copysign` are the
`coeff` variants, so the `intermediate` constant is converted to `coeff`. -/
def magTerm (c : Cfg) (a b : Fl) : Fl :=
  let m := if b.fabs.gt (epsilon c) then b.fabs else c.coeff.conv (epsilon c)
  c.coeff.add (c.coeff.div a (m.copysign b)) (.fin false 1)

/-- The counting loop of methods.c:30-36. -/
def magCount (s : Sys) (f : List Fl) (n stride dist range x : ℕ) : Option ℕ :=
  let c := s.cfg
  idxLoop c 0 n (fun y cnt =>
    idxLoop c 1 (range + 1) (fun i cnt => do
      let l ← rd f (leftIdx c stride dist y x i)
      let r ← rd f (rightIdx c stride dist y x i)
      let t := c.inter.conv (magTerm c l r)
      return bump c cnt (t.frexpExp (s.env.frexpJunk t) ≤ 0)) cnt) 0

/-- `detect_method_magnitude` (methods.c:28-40). -/
def detectMag (s : Sys) (f : List Fl) (n stride dist range : ℕ) (result : List Fl) (start end_ : ℕ) :
    Option (List Fl) :=
  let c := s.cfg
  idxLoop c start end_ (fun x result => do
    let magMatch ← magCount s f n stride dist range x
    accum c result (c.idxSub x start) (c.inter.div (c.inter.ofNat magMatch) (interProd c n range))) result

/-- Column means of magnitudes (methods.c:60-64). -/
def origSums (c : Cfg) (f : List Fl) (length n stride dist : ℕ) : Option (List Fl) := do
  let sum := List.replicate length (Fl.fin false 0)
  let sum ← idxLoop c 0 n (fun y sum =>
    idxLoop c 0 length (fun x sum => do
      let v ← rd f (midIdx c stride dist y x)
      accum c sum x (c.inter.conv v).fabs) sum) sum
  idxLoop c 0 length (fun x sum => do
    let v ← rd sum x
    wr sum x (c.inter.div v (c.inter.ofNat n))) sum

/-- The test of methods.c:66-72 at position `x`. -/
def origTest (c : Cfg) (sum : List Fl) (range x : ℕ) : Option Bool := do
  let sx ← rd sum x
  let mid := c.inter.mul sx (c.inter.ofNat range)
  let lr ← idxLoop c 1 (range + 1) (fun i (lr : Fl × Fl) => do
    let a ← rd sum (c.idxSub x i)
    let b ← rd sum (c.idx (x + i))
    return (c.inter.add lr.1 a, c.inter.add lr.2 b)) (Fl.fin false 0, Fl.fin false 0)
  let left := lr.1
  let right := lr.2
  let lrdiff := (c.inter.sub left right).fabs
  let mn := if left.lt right then left else right
  return mn.gt mid && lrdiff.lt (c.inter.sub left mid).fabs && lrdiff.lt (c.inter.sub right mid).fabs

/-- The main loop of `detect_method_original` (methods.c:65-79). -/
def origLoop (c : Cfg) (f sum : List Fl) (n stride dist range : ℕ) (result : List Fl) (start end_ : ℕ) :
    Option (List Fl) :=
  idxLoop c start end_ (fun x result => do
    if (← origTest c sum range x) then
      let sign ← signCount c f n stride dist range x
      accum c result (c.idxSub x start) (c.inter.div (c.inter.ofNat sign) (interProd c range n))
    else return result) result

/-- `detect_method_original` (methods.c:45-83).  `MAG_RANGE` is taken to be undefined at compile time, so it is `range`
(methods.c:46-48).  Returns the error, the score array and the bounds. -/
def detectOrig (c : Cfg) (f : List Fl) (length n stride dist range : ℕ) (result : List Fl) (bounds : ℕ × ℕ) :
    M (RDError × List Fl × (ℕ × ℕ)) := do
  let maxrange := c.idx range
  if c.idx (maxrange * 2) ≥ length then return (RDEOK, result, bounds)
  else
    match ← calloc c length c.szInter with
    | none => return (RDENOMEM, result, bounds)
    | some block =>
      let start := maxrange
      let end_ := c.idx (c.szSub length maxrange)
      let sum ← M.lift (origSums c f length n stride dist)
      let result ← M.lift (origLoop c f sum n stride dist range result start end_)
      free (some block)
      return (RDEOK, result, (start, end_))

/-- `detect_method_zerocrossing` (methods.c:87-97). -/
def detectZerox (c : Cfg) (f : List Fl) (n stride dist : ℕ) (result : List Fl) (start end_ : ℕ) :
    Option (List Fl) :=
  idxLoop c start end_ (fun x result => do
    let zc ← idxLoop c 0 n (fun y cnt => do
      let l ← rd f (leftIdx c stride dist y x 1)
      let m ← rd f (midIdx c stride dist y x)
      let r ← rd f (rightIdx c stride dist y x 1)
      return bump c cnt (l.signbit != r.signbit && ((l.lt m && m.lt r) || (l.gt m && m.gt r)))) 0
    accum c result (c.idxSub x start) (c.inter.div (c.inter.ofNat zc) (c.inter.ofNat n))) result

/-- The call through `method->func` (analysis.c:117,120). -/
def detect (s : Sys) (d : Detect) (f : List Fl) (length n stride dist range : ℕ) (result : List Fl) (bounds : ℕ × ℕ) :
    M (RDError × List Fl × (ℕ × ℕ)) :=
  let c := s.cfg
  match d with
  | .sign => do
    let r ← M.lift (detectSign c f n stride dist range result bounds.1 bounds.2)
    return (RDEOK, r, bounds)
  | .mag => do
    let r ← M.lift (detectMag s f n stride dist range result bounds.1 bounds.2)
    return (RDEOK, r, bounds)
  | .orig => detectOrig c f length n stride dist range result bounds
  | .zerox => do
    let r ← M.lift (detectZerox c f n stride dist result bounds.1 bounds.2)
    return (RDEOK, r, bounds)

end Verif
