import Verif.Model.Cli
import Mathlib.Data.Nat.Digits.Defs

/-!
# src/stat.c, src/imgread.c and src/profile.c

The development tools.  What they print is kept as data; times, usage messages and everything printed on standard error are left
out here, except that an error is put into words with `resdet_error_str` where the code does so.  `Model/ToolsOutput.lean` adds them.
-/

namespace Verif

/-- What `statres` prints (stat.c:10-27). -/
structure Stat where
  median : Fl
  inner : Fl
  outer : Fl
  mild : List Res
  extreme : List Res
deriving DecidableEq, Repr

/-- The confidence of an element; out of bounds is undefined (stat.c:11-13). -/
def confidence (rw : List Res) (i : ℕ) : Option Fl := (rd rw i).map Res.confidence

/-- `for(; i < cw && rw[i].confidence < limit; i++)` (stat.c:19-23): the final `i` and the elements passed. -/
def statScan (rw : List Res) (cw : ℕ) (limit : Fl) : (fuel i : ℕ) → Option (ℕ × List Res)
  | 0, i => some (i, [])
  | fuel + 1, i =>
    if i < cw then do
      let x ← rd rw i
      if x.confidence.lt limit then
        let (j, l) ← statScan rw cw limit fuel (i + 1)
        return (j, x :: l)
      else return (i, [])
    else some (i, [])

/-- `for(; i < cw; i++)` (stat.c:25-26): the elements printed. -/
def statRest (rw : List Res) (cw : ℕ) : (fuel i : ℕ) → Option (List Res)
  | 0, _ => some []
  | fuel + 1, i =>
    if i < cw then do
      let x ← rd rw i
      let l ← statRest rw cw fuel (i + 1)
      return x :: l
    else some []

/-- A quartile (stat.c:12-13): `rw[a].confidence*(x-a) + rw[b].confidence*(1-(x-a))` in `double`, stored in a `float`. -/
def quartile (x : Fl) (a : ℕ) (ca cb : Fl) : Fl :=
  let t := binary64.sub x (binary64.ofNat a)
  binary32.conv (binary64.add (binary64.mul (binary64.conv ca) t) (binary64.mul (binary64.conv cb) (binary64.sub (binary64.ofNat 1) t)))

/-- `statres` (stat.c:10-27).  `cw` iterations suffice for the loops. -/
def statres (c : Cfg) (rw : List Res) (cw : ℕ) : Option Stat := do
  let m0 ← confidence rw (cw / 2)
  let m1 ← confidence rw (c.sz (cw + 1) / 2)
  let median := binary32.div (binary32.add m0 m1) (binary32.ofNat 2)
  let l0 ← confidence rw (cw / 4)
  let l1 ← confidence rw (c.sz (cw + 1) / 4)
  let lq := quartile (binary64.div (binary64.ofNat cw) (binary64.ofNat 4)) (cw / 4) l0 l1
  let h0 ← confidence rw (c.sz (cw * 3) / 4)
  let h1 ← confidence rw (c.sz (c.sz (cw + 1) * 3) / 4)
  let hq := quartile (binary64.div (binary64.ofNat (c.sz (cw * 3))) (binary64.ofNat 4)) (c.sz (cw * 3) / 4) h0 h1
  let iq := binary32.sub hq lq
  let inner := binary32.add (binary32.mul (binary32.ofNat 3) iq) hq
  let outer := binary32.add (binary32.mul (binary32.ofNat 6) iq) hq
  let (i, _) ← statScan rw cw inner cw 0
  let (i, mild) ← statScan rw cw outer cw i
  let extreme ← statRest rw cw cw i
  return ⟨median, inner, outer, mild, extreme⟩

/-- `main` of stat (stat.c:28-52) with at least one argument: the value returned and what is printed for widths and heights.
`argv[2]` is NULL if there is no second argument. -/
def statMain (s : Sys) (io : Io) (v : CliEnv) (fuel : ℕ) (input : List UInt8) (method : Option (List UInt8)) :
    M (RDError × Option (Stat × Stat)) := do
  let (e, out) ← resdetectFile s io fuel (some input) none Ptrs.all (resdetGetMethod (method.map textOf)) none
  if e ≠ 0 then
    freeBuf out.rw
    freeBuf out.rh
    let msg ← need (resdetErrorStr s.cfg v.strerror e)
    let _ ← need msg
    return (e, none)
  else
    let rw ← need out.rw
    let a ← need (statres s.cfg rw.data (s.cfg.szSub out.cw 1))
    let rh ← need out.rh
    let b ← need (statres s.cfg rh.data (s.cfg.szSub out.ch 1))
    freeBuf out.rw
    freeBuf out.rh
    return (e, some (a, b))

/-- The object representation of a `float` as a number; `Fl` keeps no NaN payload, the quiet NaN stands for all (imgread.c:38). -/
def bitsOfFloat (x : Fl) : ℕ :=
  (if x.signbit then 2 ^ 31 else 0) +
    match x with
    | .nan _ => 255 * 2 ^ 23 + 2 ^ 22
    | .inf _ => 255 * 2 ^ 23
    | .fin _ v =>
      if |v| < pow2 (-126) then ⌊|v| / pow2 (-149)⌋.toNat
      else (ilog2 |v| + 126).toNat * 2 ^ 23 + ⌊|v| / pow2 (ilog2 |v| - 23)⌋.toNat

/-- The four bytes of a `float` in memory (imgread.c:38). -/
def nativeBytes (c : Cfg) (x : Fl) : List UInt8 :=
  let n := bitsOfFloat x
  let b := [(n / 2 ^ 24).toUInt8, (n / 2 ^ 16).toUInt8, (n / 2 ^ 8).toUInt8, n.toUInt8]
  if c.littleEndian then b.reverse else b

/-- `printf("%zu")` (imgread.c:36; profile.c:183). -/
def printZu (n : ℕ) : List UInt8 := if n = 0 then [48] else (Nat.digits 10 n).reverse.map (fun d => (48 + d).toUInt8)

/-- `fopen(argv[2], "wb")` (imgread.c:26); whether it succeeds is a parameter.  What is written is collected by the caller. -/
def openOut (ok : Bool) : M (Option File) := fun w =>
  if ok then some (some ⟨some w.next, ⟨[], 0, false⟩⟩, { w with files := w.next :: w.files, next := w.next + 1 }) else some (none, w)

/-- `for(size_t i = height; i > 0; i--) fwrite(image+(i-1)*width,sizeof(*image),width,out)` (imgread.c:37-38): the bytes. -/
def imgRows (c : Cfg) (image : List Fl) (width : ℕ) : (i : ℕ) → Option (List UInt8)
  | 0 => some []
  | i + 1 => do
    let off := c.sz (i * width)
    if image.length < off + width then none
    else
      let l ← imgRows c image width i
      return (((image.drop off).take width).map (nativeBytes c)).flatten ++ l

/-- The loop of imgread (imgread.c:32-39): error, handle, image and the bytes written.  The loop has no bound of its own; `none`
when `fuel` frames are not enough. -/
def imgLoop (s : Sys) (width height : ℕ) (out : File) : (fuel : ℕ) → RDImage → Buf Fl → M (RDError × RDImage × Buf Fl × List UInt8)
  | 0, _, _ => M.ub
  | fuel + 1, i, buf => do
    let (ret, e, buf, i) ← readImageFrame (some i) (some buf) 0
    let buf ← need buf
    let i ← need i
    if !ret then return (e, i, buf, [])
    else if e ≠ 0 then return (e, i, buf, [])
    else
      touchFile out
      let rows ← need (imgRows s.cfg buf.data width height)
      let (e, i, buf, l) ← imgLoop s width height out fuel i buf
      return (e, i, buf, cs "Pf\n" ++ printZu width ++ [ch ' '] ++ printZu height ++ cs "\n-1.0\n" ++ rows ++ l)

/-- The label `end` of imgread (imgread.c:41-48). -/
def imgEnd (s : Sys) (v : CliEnv) (e : RDError) (rdimage : Option RDImage) (image : Option (Buf Fl)) (out : Option File) : M Unit := do
  if e ≠ 0 then
    let msg ← need (resdetErrorStr s.cfg v.strerror e)
    let _ ← need msg
    pure ()
  closeImage rdimage
  match out with
  | some f => closeFile f
  | none => pure ()
  freeBuf image

/-- `main` of imgread (imgread.c:10-49) with two arguments: the error seen and what was written, if the output could be opened.
The exit status is 0 in every case.  (With one argument `fopen` gets a null pointer.) -/
def imgMain (s : Sys) (io : Io) (v : CliEnv) (fuel : ℕ) (input : List UInt8) (canWrite : Bool) : M (RDError × Option (List UInt8)) := do
  let o ← resdetOpenImage s io (some input) none true true true
  if o.error ≠ 0 then
    imgEnd s v o.error o.image o.buf none
    return (o.error, none)
  else
    match ← openOut canWrite with
    | none =>
      imgEnd s v 0 o.image o.buf none
      return (0, none)
    | some out =>
      let i ← need o.image
      let buf ← need o.buf
      let (e, i, buf, l) ← imgLoop s o.width o.height out fuel i buf
      imgEnd s v e (some i) (some buf) (some out)
      return (e, some l)

/-- `diffres` (profile.c:28-46) from the positions `l` and `r` on: `*plus` and `*minus`. -/
def diffres (c : Cfg) (left : List ℕ) (leftlen : ℕ) (right : List Res) (rightlen : ℕ) : (fuel l r plus minus : ℕ) → Option (ℕ × ℕ)
  | 0, _, _, _, _ => none
  | fuel + 1, l, r, plus, minus =>
    if l < leftlen ∧ r < rightlen then do
      let a ← rd left l
      let b ← rd right r
      if a > b.index then diffres c left leftlen right rightlen fuel l (r + 1) (c.sz (plus + 1)) minus
      else if a < b.index then diffres c left leftlen right rightlen fuel (l + 1) r plus (c.sz (minus + 1))
      else diffres c left leftlen right rightlen fuel (l + 1) (r + 1) plus minus
    else some (c.sz (plus + (rightlen - r)), c.sz (minus + (leftlen - l)))

/-- The pieces of a line between spaces, as repeated `strsep(&line, " ")` delivers them (profile.c:52). -/
def strsep : List UInt8 → List (List UInt8)
  | [] => [[]]
  | b :: t => if b = ch ' ' then [] :: strsep t else match strsep t with
    | [] => [[b]]
    | p :: ps => (b :: p) :: ps

/-- The loop of `readres` (profile.c:52-62) over the pieces; `none` after the label `error`. -/
def readresLoop (c : Cfg) : List (List UInt8) → Option (Buf ℕ) → M (Option (Buf ℕ))
  | [], ar => pure ar
  | t :: ts, ar => do
    let tmp ← match ar with
      | none => malloc
      | some b => realloc b.id
    match tmp with
    | none =>
      freeBuf ar
      return none
    | some b =>
      match strtou ullMax t with
      | none =>
        free (some b)
        return none
      | some n => readresLoop c ts (some ⟨b, ((ar.map Buf.data).getD []) ++ [c.sz n]⟩)

/-- `readres` (profile.c:48-70): the array, NULL with count 0 after an error. -/
def readres (c : Cfg) (line : List UInt8) : M (Option (Buf ℕ)) := readresLoop c (strsep line) none

/-- `line[len-1] = '\0'` and the string that remains (profile.c:117, 139, 151). -/
def chop (line : List UInt8) : List UInt8 := line.dropLast.takeWhile (fun b => b != 0)

/-- The figures for one image and method: `plus` and `minus`; `none` if the detection failed (profile.c:177-181). -/
abbrev Figures := Option (ℕ × ℕ)

/-- One round of the loop over the methods (profile.c:159-187). -/
def profileMethod (s : Sys) (v : CliEnv) (image : List Fl) (d w h : ℕ) (kw kh : List ℕ) (m : Method) : M Figures := do
  let (e, out) ← resdetect s (some image) d w h Ptrs.all (some m) none
  if e ≠ 0 then
    let msg ← need (resdetErrorStr s.cfg v.strerror e)
    let _ ← need msg
    freeBuf out.rw
    freeBuf out.rh
    return none
  else
    let rw ← need out.rw
    let cw := s.cfg.szSub out.cw 1
    let (plus, minus) ← need (diffres s.cfg kw kw.length rw.data cw (kw.length + cw + 1) 0 0 0 0)
    let rh ← need out.rh
    let ch := s.cfg.szSub out.ch 1
    let (plus, minus) ← need (diffres s.cfg kh kh.length rh.data ch (kh.length + ch + 1) 0 0 plus minus)
    freeBuf out.rw
    freeBuf out.rh
    return some (plus, minus)

/-- The loop over the methods (profile.c:159-187). -/
def profileMethods (s : Sys) (v : CliEnv) (image : List Fl) (d w h : ℕ) (kw kh : List ℕ) : List Method → M (List Figures)
  | [] => pure []
  | m :: ms => do
    let x ← profileMethod s v image d w h kw kh m
    let l ← profileMethods s v image d w h kw kh ms
    return x :: l

/-- What happens with one image that could be read (profile.c:133-191): the figures of each method, or `none` if a list of known
resolutions is missing or malformed; and the lines left. -/
def profileImage (s : Sys) (v : CliEnv) (image : Buf Fl) (d w h : ℕ) (lines : List (List UInt8)) : M (Option (List Figures) × List (List UInt8)) := do
  match lines with
  | [] =>
    free (some image.id)
    return (none, [])
  | l1 :: lines =>
    match ← readres s.cfg (chop l1) with
    | none =>
      free (some image.id)
      return (none, lines)
    | some kw =>
      match lines with
      | [] =>
        freeBuf (some kw)
        free (some image.id)
        return (none, [])
      | l2 :: lines =>
        match ← readres s.cfg (chop l2) with
        | none =>
          freeBuf (some kw)
          free (some image.id)
          return (none, lines)
        | some kh =>
          let l ← profileMethods s v image.data d w h kw.data kh.data methods
          freeBuf (some kw)
          freeBuf (some kh)
          free (some image.id)
          return (some l, lines)

/-- The loop over the dictionary (profile.c:114-192): for each image the figures of each method, and `ret`.  `lines` are what
`getline` delivers, each with its newline if it has one; a failure of `getline` other than the end of the file is left out. -/
def profileLoop (s : Sys) (io : Io) (v : CliEnv) : (fuel : ℕ) → (lines : List (List UInt8)) → M (List (List Figures) × Bool)
  | 0, _ => M.ub
  | _ + 1, [] => pure ([], false)
  | fuel + 1, line :: lines =>
    if line.head? = some (ch '\n') then profileLoop s io v fuel lines
    else do
      let o ← readImage s io (some (chop line)) none true true
      if o.error ≠ 0 then
        let msg ← need (resdetErrorStr s.cfg v.strerror o.error)
        let _ ← need msg
        match lines with
        | _ :: _ :: lines => profileLoop s io v fuel lines
        | _ => return ([], true)
      else
        let image ← need o.images
        match ← profileImage s v image o.nimages o.width o.height lines with
        | (none, _) => return ([], true)
        | (some l, lines) =>
          if l.any Option.isNone then return ([l], true)
          else
            let (ls, ret) ← profileLoop s io v fuel lines
            return (l :: ls, ret)

/-- What profile prints and returns: the figures per image and method, the totals per method, the exit status (profile.c:183, 196-199). -/
structure Profile where
  images : List (List Figures)
  totals : List (ℕ × ℕ)
  code : ℤ
deriving DecidableEq, Repr

/-- `diffplus[m-methods] += plus; diffminus[m-methods] += minus` (profile.c:180-181); nothing is added after a failure. -/
def addTotals (c : Cfg) : List (ℕ × ℕ) → List Figures → List (ℕ × ℕ)
  | (a, b) :: ts, some (p, m) :: fs => (c.sz (a + p), c.sz (b + m)) :: addTotals c ts fs
  | t :: ts, none :: fs => t :: addTotals c ts fs
  | ts, _ => ts

/-- `main` of profile (profile.c:72-200), with the lines of the dictionary, which could be opened. -/
def profileMain (s : Sys) (io : Io) (v : CliEnv) (lines : List (List UInt8)) : M Profile := do
  let (images, ret) ← profileLoop s io v (lines.length + 1) lines
  return ⟨images, images.foldl (addTotals s.cfg) (List.replicate methods.length (0, 0)), if ret then 1 else 0⟩

end Verif
