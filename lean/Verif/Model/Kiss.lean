import Verif.Base.Mem

/-!
# The bundled transform: lib/kissfft/kiss_fft.c, lib/kissfft/kiss_fftr.c and lib/transform/kiss_fft.c

Every definition is generic in the scalar arithmetic `A : Arith S`, so that the same program text is run with rounded
floating point numbers by the library model and with real numbers by the correctness theorems.  `C_FIXDIV` is a no-op in
floating point builds (_kiss_fft_guts.h:90) and is left out.  The OpenMP, SIMD and fixed point variants are not modelled.
-/

namespace Verif

/-- `kiss_fft_cpx` (kiss_fft.h:87-90). -/
structure Cpx (S : Type) where
  r : S
  i : S
deriving DecidableEq, Repr

/-- Scalar operations used by the transform, and the constant tables it precomputes.  The tables are computed with the
platform's `cos`/`sin`; here they are parameters (kiss_fft.h:82-84; _kiss_fft_guts.h:87-138). -/
structure Arith (S : Type) where
  add : S → S → S
  sub : S → S → S
  mul : S → S → S
  neg : S → S
  zero : S
  /-- `((kiss_fft_scalar).5)` (_kiss_fft_guts.h:138) -/
  half : S
  /-- conversion `coeff` to `kiss_fft_scalar` (lib/transform/kiss_fft.c:71) -/
  load : S → S
  /-- conversion `kiss_fft_scalar` to `coeff` (lib/transform/kiss_fft.c:74) -/
  store : S → S
  /-- `st->twiddles[i]` for length `n` (kiss_fft.c:357-363) -/
  twiddle : ℕ → ℕ → Cpx S
  /-- `st->super_twiddles[i]` for half length `n` (kiss_fftr.c:53-59) -/
  superTwiddle : ℕ → ℕ → Cpx S
  /-- `p->shift[.][i]` for length `n` (lib/transform/kiss_fft.c:53-62) -/
  shift : ℕ → ℕ → Cpx S

namespace Arith
variable {S : Type} (A : Arith S)

/-- `C_MUL` (_kiss_fft_guts.h:87-89) -/
def cMul (a b : Cpx S) : Cpx S :=
  ⟨A.sub (A.mul a.r b.r) (A.mul a.i b.i), A.add (A.mul a.r b.i) (A.mul a.i b.r)⟩
/-- `C_ADD`, `C_ADDTO` (_kiss_fft_guts.h:100-105,112-117) -/
def cAdd (a b : Cpx S) : Cpx S := ⟨A.add a.r b.r, A.add a.i b.i⟩
/-- `C_SUB` (_kiss_fft_guts.h:106-111) -/
def cSub (a b : Cpx S) : Cpx S := ⟨A.sub a.r b.r, A.sub a.i b.i⟩
/-- `HALF_OF` (_kiss_fft_guts.h:138) -/
def halfOf (x : S) : S := A.mul x A.half

end Arith

variable {S : Type}

/-- `kiss_fft_state`, without its memory: length and factor table (_kiss_fft_guts.h:27-32). -/
structure FftCfg where
  nfft : ℕ
  factors : List (ℕ × ℕ)
deriving DecidableEq, Repr

/-- Read of `st->twiddles[k]`: the table has `nfft` entries (kiss_fft.c:342-343). -/
def twAt (A : Arith S) (st : FftCfg) (k : ℕ) : Option (Cpx S) :=
  if k < st.nfft then some (A.twiddle st.nfft k) else none

/-- One iteration of `kf_bfly2` (kiss_fft.c:26-35) on the pair `Fout[0], Fout2[0]` with twiddle `tw1`. -/
def bfly2Step (A : Arith S) (tw1 f0 f1 : Cpx S) : Cpx S × Cpx S :=
  let t := A.cMul f1 tw1
  (A.cAdd f0 t, A.cSub f0 t)

/-- `kf_bfly2` (kiss_fft.c:15-36). -/
def kfBfly2 (A : Arith S) (st : FftCfg) (fstride m : ℕ) (out : List (Cpx S)) : Option (List (Cpx S)) :=
  loop 0 m (fun k out => do
    let f0 ← rd out k
    let f1 ← rd out (k + m)
    let tw1 ← twAt A st (k * fstride)
    let (g0, g1) := bfly2Step A tw1 f0 f1
    let out ← wr out (k + m) g1
    wr out k g0) out

/-- One iteration of `kf_bfly4` (kiss_fft.c:54-83), forward transform (`st->inverse` is 0: lib/transform/kiss_fft.c:34,37). -/
def bfly4Step (A : Arith S) (tw1 tw2 tw3 f0 f1 f2 f3 : Cpx S) : Cpx S × Cpx S × Cpx S × Cpx S :=
  let s0 := A.cMul f1 tw1
  let s1 := A.cMul f2 tw2
  let s2 := A.cMul f3 tw3
  let s5 := A.cSub f0 s1
  let f0 := A.cAdd f0 s1
  let s3 := A.cAdd s0 s2
  let s4 := A.cSub s0 s2
  let f2 := A.cSub f0 s3
  let f0 := A.cAdd f0 s3
  let f1 : Cpx S := ⟨A.add s5.r s4.i, A.sub s5.i s4.r⟩
  let f3 : Cpx S := ⟨A.sub s5.r s4.i, A.add s5.i s4.r⟩
  (f0, f1, f2, f3)

/-- `kf_bfly4` (kiss_fft.c:38-84). -/
def kfBfly4 (A : Arith S) (st : FftCfg) (fstride m : ℕ) (out : List (Cpx S)) : Option (List (Cpx S)) :=
  loop 0 m (fun k out => do
    let f0 ← rd out k
    let f1 ← rd out (k + m)
    let f2 ← rd out (k + 2 * m)
    let f3 ← rd out (k + 3 * m)
    let tw1 ← twAt A st (k * fstride)
    let tw2 ← twAt A st (k * (fstride * 2))
    let tw3 ← twAt A st (k * (fstride * 3))
    let (g0, g1, g2, g3) := bfly4Step A tw1 tw2 tw3 f0 f1 f2 f3
    let out ← wr out (k + 2 * m) g2
    let out ← wr out k g0
    let out ← wr out (k + m) g1
    wr out (k + 3 * m) g3) out

/-- One iteration of `kf_bfly3` (kiss_fft.c:102-127). -/
def bfly3Step (A : Arith S) (epi3 tw1 tw2 f0 f1 f2 : Cpx S) : Cpx S × Cpx S × Cpx S :=
  let s1 := A.cMul f1 tw1
  let s2 := A.cMul f2 tw2
  let s3 := A.cAdd s1 s2
  let s0 := A.cSub s1 s2
  let f1 : Cpx S := ⟨A.sub f0.r (A.halfOf s3.r), A.sub f0.i (A.halfOf s3.i)⟩
  let s0 : Cpx S := ⟨A.mul s0.r epi3.i, A.mul s0.i epi3.i⟩
  let f0 := A.cAdd f0 s3
  let f2 : Cpx S := ⟨A.add f1.r s0.i, A.sub f1.i s0.r⟩
  let f1 : Cpx S := ⟨A.sub f1.r s0.i, A.add f1.i s0.r⟩
  (f0, f1, f2)

/-- `kf_bfly3` (kiss_fft.c:86-128). -/
def kfBfly3 (A : Arith S) (st : FftCfg) (fstride m : ℕ) (out : List (Cpx S)) : Option (List (Cpx S)) := do
  let epi3 ← twAt A st (fstride * m)
  loop 0 m (fun k out => do
    let f0 ← rd out k
    let f1 ← rd out (k + m)
    let f2 ← rd out (k + 2 * m)
    let tw1 ← twAt A st (k * fstride)
    let tw2 ← twAt A st (k * (fstride * 2))
    let (g0, g1, g2) := bfly3Step A epi3 tw1 tw2 f0 f1 f2
    let out ← wr out k g0
    let out ← wr out (k + 2 * m) g2
    wr out (k + m) g1) out

/-- One iteration of `kf_bfly5` (kiss_fft.c:153-188). -/
def bfly5Step (A : Arith S) (ya yb tw1 tw2 tw3 tw4 f0 f1 f2 f3 f4 : Cpx S) :
    Cpx S × Cpx S × Cpx S × Cpx S × Cpx S :=
  let s0 := f0
  let s1 := A.cMul f1 tw1
  let s2 := A.cMul f2 tw2
  let s3 := A.cMul f3 tw3
  let s4 := A.cMul f4 tw4
  let s7 := A.cAdd s1 s4
  let s10 := A.cSub s1 s4
  let s8 := A.cAdd s2 s3
  let s9 := A.cSub s2 s3
  let g0 : Cpx S := ⟨A.add f0.r (A.add s7.r s8.r), A.add f0.i (A.add s7.i s8.i)⟩
  let s5 : Cpx S := ⟨A.add (A.add s0.r (A.mul s7.r ya.r)) (A.mul s8.r yb.r),
                    A.add (A.add s0.i (A.mul s7.i ya.r)) (A.mul s8.i yb.r)⟩
  let s6 : Cpx S := ⟨A.add (A.mul s10.i ya.i) (A.mul s9.i yb.i),
                    A.sub (A.neg (A.mul s10.r ya.i)) (A.mul s9.r yb.i)⟩
  let g1 := A.cSub s5 s6
  let g4 := A.cAdd s5 s6
  let s11 : Cpx S := ⟨A.add (A.add s0.r (A.mul s7.r yb.r)) (A.mul s8.r ya.r),
                     A.add (A.add s0.i (A.mul s7.i yb.r)) (A.mul s8.i ya.r)⟩
  let s12 : Cpx S := ⟨A.add (A.neg (A.mul s10.i yb.i)) (A.mul s9.i ya.i),
                     A.sub (A.mul s10.r yb.i) (A.mul s9.r ya.i)⟩
  let g2 := A.cAdd s11 s12
  let g3 := A.cSub s11 s12
  (g0, g1, g2, g3, g4)

/-- `kf_bfly5` (kiss_fft.c:130-189). -/
def kfBfly5 (A : Arith S) (st : FftCfg) (fstride m : ℕ) (out : List (Cpx S)) : Option (List (Cpx S)) := do
  let ya ← twAt A st (fstride * m)
  let yb ← twAt A st (fstride * 2 * m)
  loop 0 m (fun u out => do
    let f0 ← rd out u
    let f1 ← rd out (u + m)
    let f2 ← rd out (u + 2 * m)
    let f3 ← rd out (u + 3 * m)
    let f4 ← rd out (u + 4 * m)
    let tw1 ← twAt A st (u * fstride)
    let tw2 ← twAt A st (2 * u * fstride)
    let tw3 ← twAt A st (3 * u * fstride)
    let tw4 ← twAt A st (4 * u * fstride)
    let (g0, g1, g2, g3, g4) := bfly5Step A ya yb tw1 tw2 tw3 tw4 f0 f1 f2 f3 f4
    let out ← wr out u g0
    let out ← wr out (u + m) g1
    let out ← wr out (u + 4 * m) g4
    let out ← wr out (u + 2 * m) g2
    wr out (u + 3 * m) g3) out

/-- Inner accumulation of `kf_bfly_generic` (kiss_fft.c:221-228): `Fout[k] = sum_q scratch[q]*twiddles[..]`.  The state is
`(twidx, Fout[k])`; `twidx` is an `int`. -/
def genericAcc (A : Arith S) (intMax : ℕ) (st : FftCfg) (fstride k p : ℕ) (scratch : List (Cpx S)) :
    Option (Cpx S) := do
  let s0 ← rd scratch 0
  let r ← loop 1 p (fun q (s : ℕ × Cpx S) => do
    let t := s.1 + fstride * k
    if t > intMax then none
    let t := if t ≥ st.nfft then t - st.nfft else t
    let tw ← twAt A st t
    let sq ← rd scratch q
    return (t, A.cAdd s.2 (A.cMul sq tw))) (0, s0)
  return r.2

/-- The loops of `kf_bfly_generic` once the scratch array is there (kiss_fft.c:211-231). -/
def genericLoops (A : Arith S) (intMax : ℕ) (st : FftCfg) (fstride m p : ℕ) (out : List (Cpx S)) :
    Option (List (Cpx S)) :=
  loop 0 m (fun u out => do
    let scratch ← (List.range p).mapM (fun q1 => rd out (u + q1 * m))
    loop 0 p (fun q1 out => do
      let v ← genericAcc A intMax st fstride (u + q1 * m) p scratch
      wr out (u + q1 * m) v) out) out

/-- `kf_bfly_generic` (kiss_fft.c:192-233): silently returns when the scratch array cannot be allocated. -/
def kfBflyGeneric (A : Arith S) (c : Cfg) (st : FftCfg) (fstride m p : ℕ) (out : List (Cpx S)) :
    M (List (Cpx S)) := do
  match ← malloc with
  | none => return out
  | some scratch =>
    let out ← M.lift (genericLoops A c.intMax st fstride m p out)
    free (some scratch)
    return out

/-- The dispatch on the radix (kiss_fft.c:293-299). -/
def butterfly (A : Arith S) (c : Cfg) (st : FftCfg) (fstride m p : ℕ) (out : List (Cpx S)) : M (List (Cpx S)) :=
  match p with
  | 2 => M.lift (kfBfly2 A st fstride m out)
  | 3 => M.lift (kfBfly3 A st fstride m out)
  | 4 => M.lift (kfBfly4 A st fstride m out)
  | 5 => M.lift (kfBfly5 A st fstride m out)
  | p => kfBflyGeneric A c st fstride m p out

/-- `for k in ks: res ++= body k` in `M` (kiss_fft.c:211-231). -/
def collectM {α : Type} (body : ℕ → M (List α)) : List ℕ → M (List α)
  | [] => pure []
  | k :: ks => do
    let a ← body k
    let b ← collectM body ks
    return a ++ b

/-- `kf_work` (kiss_fft.c:235-300).  A call owns the segment `Fout[0 .. p*m)` of the output; the model returns the
contents of that segment.  `f` is the whole input array, `off` the position `f` points to. -/
def kfWork (A : Arith S) (c : Cfg) (st : FftCfg) (f : List (Cpx S)) (inStride : ℕ) :
    List (ℕ × ℕ) → (off fstride : ℕ) → M (List (Cpx S))
  | [], _, _ => M.ub
  | (p, m) :: rest, off, fstride => do
    let out ←
      if m = 1 then
        collectM (fun k => M.lift ((rd f (off + k * (fstride * inStride))).map (fun x => [x]))) (List.range p)
      else
        collectM (fun k => kfWork A c st f inStride rest (off + k * (fstride * inStride)) (fstride * p)) (List.range p)
    butterfly A c st fstride m p out

/-- The next trial divisor of `kf_factor` (kiss_fft.c:316-322). -/
def nextDivisor (s n p : ℕ) : ℕ :=
  let p := if p = 4 then 2 else if p = 2 then 3 else p + 2
  if p > s then n else p

/-- The inner loop of `kf_factor` (kiss_fft.c:315-323): the first trial divisor that divides `n`.  `fuel` bounds the
number of iterations; running out is the outcome "does not terminate". -/
def findDivisor (s n : ℕ) : (fuel p : ℕ) → Option ℕ
  | 0, p => if n % p = 0 then some p else none
  | fuel + 1, p => if n % p = 0 then some p else findDivisor s n fuel (nextDivisor s n p)

/-- The outer loop of `kf_factor` (kiss_fft.c:314-327).  `room` is the number of free pairs in `st->factors`; writing
past the table is undefined. -/
def factorLoop (s : ℕ) : (room n p : ℕ) → Option (List (ℕ × ℕ))
  | 0, _, _ => none
  | room + 1, n, p => do
    let p ← findDivisor s n (s + 3) p
    let n := n / p
    if n > 1 then
      let rest ← factorLoop s room n p
      return (p, n) :: rest
    else return [(p, n)]

/-- `MAXFACTORS` (_kiss_fft_guts.h:21) -/
def MAXFACTORS : ℕ := 32

/-- `kf_factor` (kiss_fft.c:306-328).  Simplification: `floor(sqrt((double)n))` is the integer square root, which is
exact for every `int`. -/
def kfFactor (n : ℕ) : Option (List (ℕ × ℕ)) := factorLoop (Nat.sqrt n) MAXFACTORS n 4

/-- `kiss_fft_alloc` in memory supplied by the caller (kiss_fft.c:337-368), without the twiddle table contents. -/
def kissFftAlloc (nfft : ℕ) : Option FftCfg := do
  let fs ← kfFactor nfft
  return ⟨nfft, fs⟩

/-- `kiss_fft` with distinct input and output (kiss_fft.c:371-400). -/
def kissFft (A : Arith S) (c : Cfg) (st : FftCfg) (fin : List (Cpx S)) : M (List (Cpx S)) :=
  kfWork A c st fin 1 st.factors 0 1

/-- A real array seen as an array of complex numbers: the cast in kiss_fftr.c:77. -/
def pairs : List S → List (Cpx S)
  | a :: b :: rest => ⟨a, b⟩ :: pairs rest
  | _ => []

/-- Read of `st->super_twiddles[k]`: the table has `ncfft/2` entries (kiss_fftr.c:36,50). -/
def stwAt (A : Arith S) (st : FftCfg) (k : ℕ) : Option (Cpx S) :=
  if k < st.nfft / 2 then some (A.superTwiddle st.nfft k) else none

/-- One iteration of the unpacking loop of `kiss_fftr` (kiss_fftr.c:102-115): new values of `freqdata[k]` and
`freqdata[ncfft-k]`. -/
def fftrStep (A : Arith S) (stw fpk fpnk' : Cpx S) : Cpx S × Cpx S :=
  let fpnk : Cpx S := ⟨fpnk'.r, A.neg fpnk'.i⟩
  let f1k := A.cAdd fpk fpnk
  let f2k := A.cSub fpk fpnk
  let tw := A.cMul f2k stw
  (⟨A.halfOf (A.add f1k.r tw.r), A.halfOf (A.add f1k.i tw.i)⟩,
   ⟨A.halfOf (A.sub f1k.r tw.r), A.halfOf (A.sub tw.i f1k.i)⟩)

/-- The unpacking of `kiss_fftr` (kiss_fftr.c:88-116); `freqdata` is the output array, of which entries
`0 .. ncfft` are written. -/
def fftrUnpack (A : Arith S) (st : FftCfg) (tmpbuf freqdata : List (Cpx S)) : Option (List (Cpx S)) := do
  let ncfft := st.nfft
  let tdc ← rd tmpbuf 0
  let freqdata ← wr freqdata 0 ⟨A.add tdc.r tdc.i, A.zero⟩
  let freqdata ← wr freqdata ncfft ⟨A.sub tdc.r tdc.i, A.zero⟩
  loop 1 (ncfft / 2 + 1) (fun k freqdata => do
    let fpk ← rd tmpbuf k
    let fpnk ← rd tmpbuf (ncfft - k)
    let stw ← stwAt A st (k - 1)
    let (a, b) := fftrStep A stw fpk fpnk
    let freqdata ← wr freqdata k a
    wr freqdata (ncfft - k) b) freqdata

/-- `kiss_fftr` (kiss_fftr.c:63-117). -/
def kissFftr (A : Arith S) (c : Cfg) (st : FftCfg) (timedata : List S) (freqdata : List (Cpx S)) :
    M (List (Cpx S)) := do
  let tmpbuf ← kissFft A c st (pairs timedata)
  M.lift (fftrUnpack A st tmpbuf freqdata)

/-- `resdet_plan` of the KISS backend (lib/transform/kiss_fft.c:10-16).  For the work arrays the model keeps the block
and the number of elements it has room for. -/
structure KissPlan where
  block : ℕ
  width : ℕ
  height : ℕ
  cfg0 : Option (ℕ × FftCfg)
  cfg1 : Option (ℕ × FftCfg)
  /-- block, elements of type `kiss_fft_scalar` -/
  mirror : Option (ℕ × ℕ)
  /-- block, elements of type `kiss_fft_cpx` -/
  F : Option (ℕ × ℕ)
  shift0 : Option (ℕ × ℕ)
  shift1 : Option (ℕ × ℕ)
deriving DecidableEq, Repr

/-- `malloc(bytes)` used as an array of elements of `size` bytes: block and capacity (kiss_fft.h:65). -/
def mallocArr (c : Cfg) (bytes size : ℕ) : M (Option (ℕ × ℕ)) := do
  match ← malloc with
  | none => return none
  | some b => return some (b, c.sz bytes / size)

/-- `kiss_fftr_alloc(nfft2, false, NULL, NULL)` (kiss_fftr.c:21-61) with `nfft2 = 2*n` passed as `int`.  If the number of
bytes needed wraps around, initialising the tables runs past the block. -/
def kissFftrAlloc (c : Cfg) (n : ℕ) : M (Option (ℕ × FftCfg)) := do
  -- `width*2` and `nfft*3` are int computations
  if n * 2 > c.intMax ∨ n * 3 > c.intMax then M.ub
  else
    let subsize := c.szFft + 2 * c.szKiss * (n - 1)
    let memneeded := c.szFftr + subsize + 2 * c.szKiss * (n * 3 / 2)
    match ← malloc with
    | none => return none
    | some b =>
      if memneeded > c.sizeMax then M.ub
      else
        let st ← M.lift (kissFftAlloc n)
        return some (b, st)

/-- Block of an optional allocation, as passed to `free` (lib/transform/kiss_fft.c:84-96). -/
def blk {α : Type} (o : Option (ℕ × α)) : Option ℕ := o.map Prod.fst

/-- `resdet_free_plan` (lib/transform/kiss_fft.c:84-96). -/
def kissFreePlan (p : Option KissPlan) : M Unit :=
  match p with
  | none => pure ()
  | some p => do
    touch p.block
    free (blk p.cfg0)
    free (blk p.shift0)
    if p.width ≠ p.height then
      free (blk p.cfg1)
      free (blk p.shift1)
    free (blk p.mirror)
    free (blk p.F)
    free (some p.block)

/-- The failure exit of `resdet_create_plan` (lib/transform/kiss_fft.c:40-42). -/
def kissPlanFail (p : Option KissPlan) : M (Option KissPlan × RDError) := do
  kissFreePlan p
  return (none, RDENOMEM)

/-- `resdet_create_plan` (lib/transform/kiss_fft.c:22-66).  Filling the `shift` tables checks their capacity. -/
def kissCreatePlan (c : Cfg) (width height : ℕ) : M (Option KissPlan × RDError) := do
  if width > c.intMax / 3 ∨ height > c.intMax / 3 then return (none, RDETOOBIG)
  else
    let bufsize := if width > height then width else height
    match ← malloc with
    | none => kissPlanFail none
    | some b =>
      -- calloc: everything zero
      let p : KissPlan := ⟨b, 0, 0, none, none, none, none, none, none⟩
      match ← mallocArr c (c.szKiss * bufsize * 2) c.szKiss with
      | none => kissPlanFail (some p)
      | some mirror =>
        let p := { p with mirror := some mirror }
        match ← mallocArr c (2 * c.szKiss * (bufsize + 1)) (2 * c.szKiss) with
        | none => kissPlanFail (some p)
        | some F =>
          let p := { p with F := some F }
          match ← mallocArr c (2 * c.szKiss * width) (2 * c.szKiss) with
          | none => kissPlanFail (some p)
          | some shift0 =>
            let p := { p with shift0 := some shift0 }
            match ← kissFftrAlloc c width with
            | none => kissPlanFail (some p)
            | some cfg0 =>
              let p := { p with cfg0 := some cfg0 }
              if width = height then
                if width ≤ shift0.2 then
                  return (some { p with shift1 := some shift0, cfg1 := some cfg0, width := width, height := height },
                    RDEOK)
                else M.ub
              else
                match ← mallocArr c (2 * c.szKiss * height) (2 * c.szKiss) with
                | none => kissPlanFail (some p)
                | some shift1 =>
                  let p := { p with shift1 := some shift1 }
                  match ← kissFftrAlloc c height with
                  | none => kissPlanFail (some p)
                  | some cfg1 =>
                    if width ≤ shift0.2 ∧ height ≤ shift1.2 then
                      return (some { p with cfg1 := some cfg1, width := width, height := height }, RDEOK)
                    else M.ub

/-- Write-back loop of `kiss_dct` (lib/transform/kiss_fft.c:73-74). -/
def dctStore (A : Arith S) (F : List (Cpx S)) (shiftCap j length stride dist : ℕ) (f : List S) : Option (List S) :=
  loop 0 length (fun i f => do
    let Fi ← rd F i
    if i < shiftCap then
      let s := A.shift length i
      wr f (j * dist + i * stride) (A.store (A.sub (A.mul Fi.r s.r) (A.mul Fi.i s.i)))
    else none) f

/-- One iteration of the outer loop of `kiss_dct` (lib/transform/kiss_fft.c:69-75).  `mirror` is completely rewritten in
each iteration, so the model builds it from the row instead of storing it: the row followed by its reverse.  `F` starts
out as arbitrary memory `F0` of the capacity of the array. -/
def dctRow (A : Arith S) (c : Cfg) (st : FftCfg) (F0 : List (Cpx S)) (mirrorCap shiftCap j length stride dist : ℕ)
    (f : List S) : M (List S) := do
  let row ← M.lift ((List.range length).mapM (fun i => rd f (j * dist + i * stride)))
  let half := row.map A.load
  if length * 2 ≤ mirrorCap then
    let F ← kissFftr A c st (half ++ half.reverse) F0
    M.lift (dctStore A F shiftCap j length stride dist f)
  else M.ub

/-- `kiss_dct` (lib/transform/kiss_fft.c:68-76). -/
def kissDct (A : Arith S) (c : Cfg) (st : FftCfg) (F0 : List (Cpx S)) (mirrorCap shiftCap n length stride dist : ℕ)
    (f : List S) : M (List S) :=
  (List.range n).foldlM (fun f j => dctRow A c st F0 mirrorCap shiftCap j length stride dist f) f

/-- Dereference of a pointer that must not be NULL (lib/transform/kiss_fft.c:78-82). -/
def need {α : Type} (o : Option α) : M α := M.lift o

/-- `resdet_transform` (lib/transform/kiss_fft.c:78-82).  `junk` is the initial contents of the array `p->F`. -/
def kissTransform (A : Arith S) (c : Cfg) (junk : Cpx S) (p : KissPlan) (f : List S) : M (List S) := do
  touch p.block
  let cfg0 ← need p.cfg0
  let cfg1 ← need p.cfg1
  let mirror ← need p.mirror
  let F ← need p.F
  let s0 ← need p.shift0
  let s1 ← need p.shift1
  touch cfg0.1
  touch cfg1.1
  touch mirror.1
  touch F.1
  touch s0.1
  touch s1.1
  let F0 := List.replicate F.2 junk
  let f ← kissDct A c cfg0.2 F0 mirror.2 s0.2 p.height p.width 1 p.width f
  kissDct A c cfg1.2 F0 mirror.2 s1.2 p.width p.height p.width 1 f

/-- Rounded arithmetic in the format of `kiss_fft_scalar`, for given platform tables (kiss_fft.h:82-84). -/
def flArith (c : Cfg) (tw stw sh : ℕ → ℕ → Cpx Fl) : Arith Fl where
  add := c.kiss.add
  sub := c.kiss.sub
  mul := c.kiss.mul
  neg := Fl.neg
  zero := .fin false 0
  half := .fin false (1 / 2)
  load := c.kiss.conv
  store := c.coeff.conv
  twiddle := tw
  superTwiddle := stw
  shift := sh

end Verif
