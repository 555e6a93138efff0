import Verif.Model.Image

/-!
# src/resdet.c

The command, from the options `getopt` delivers to the exit status.  `getopt` itself is in
Model/Getopt.lean.  What is printed is kept as data here; the bytes on both streams are in Model/CliText.lean and Model/CliOutput.lean.
-/

namespace Verif

/-- An option delivered by `getopt` with the option string of resdet.c:70; `bad` is `'?'`. -/
inductive CliOpt where
  | v (arg : List UInt8)
  | m (arg : List UInt8)
  | t (arg : List UInt8)
  | R (arg : List UInt8)
  | x (arg : List UInt8)
  | r (arg : List UInt8)
  | f (arg : List UInt8)
  | o (arg : List UInt8)
  | n (arg : List UInt8)
  | p
  | h
  | V
  | bad
deriving DecidableEq, Repr

/-- What the C library leaves open (resdet.c:70-163). -/
structure CliEnv where
  /-- `strtod`; `none` if there is no number at the start of the text -/
  strtod : List UInt8 → Option Fl
  strerror : ℤ → String

/-- The sign and the digits `strtol` and its relatives read in base 10: white space, an optional sign, digits (resdet.c:72, 94, 101, 145, 153). -/
def subject (t : List UInt8) : Bool × List UInt8 :=
  match t.dropWhile isspace with
  | [] => (false, [])
  | b :: t =>
    if b = ch '-' then (true, t.takeWhile isdigit)
    else if b = ch '+' then (false, t.takeWhile isdigit)
    else (false, (b :: t).takeWhile isdigit)

/-- C `strtoul`/`strtoull` into a type with greatest value `max`; `none` if nothing was converted (`*endptr` is the start).
A value out of range gives `max`; a minus sign negates in the unsigned type (resdet.c:94, 101, 145, 153). -/
def strtou (max : ℕ) (t : List UInt8) : Option ℕ :=
  let (neg, ds) := subject t
  if ds = [] then none
  else
    let v := Stream.decimal ds
    if max < v then some max else if neg ∧ v ≠ 0 then some (max + 1 - v) else some v

/-- C `strtol`: 0 if nothing was converted, clamped to the range of `long` (resdet.c:72). -/
def strtol (c : Cfg) (t : List UInt8) : ℤ :=
  let (neg, ds) := subject t
  let v : ℤ := Stream.decimal ds
  if neg then (if -(c.longMax : ℤ) - 1 ≤ -v then -v else -(c.longMax : ℤ) - 1)
  else (if v ≤ c.longMax then v else c.longMax)

/-- Conversion to `int`, wrapping around (implementation-defined in C; gcc and clang) (resdet.c:72). -/
def toInt (c : Cfg) (v : ℤ) : ℤ := (v + (c.intMax + 1)) % (2 * (c.intMax + 1)) - (c.intMax + 1)

/-- `ULLONG_MAX`, also `UINT64_MAX` (resdet.c:94, 101, 145). -/
def ullMax : ℕ := 2 ^ 64 - 1

/-- C `strcasecmp(a, b) == 0` in the "C" locale (resdet.c:77, 197-201). -/
def strcaseeq (a b : List UInt8) : Bool := a.map tolower == b.map tolower

/-- What is printed on standard output.  `best`, `lists` and `report` are the outputs for `-v1`, `-v2`/`-v3` and the rest (resdet.c:236-272). -/
inductive Shown where
  | nothing
  /-- help, version or list of readers -/
  | info
  | best (width height : ℕ)
  | lists (confidence : Bool) (widths heights : List Res)
  | report (givenW givenH bestW bestH : ℕ) (notUpsampled : Bool) (widths heights : List Res)
deriving DecidableEq, Repr

/-- What the caller of the command sees (resdet.c:274-288). -/
structure Exit where
  code : ℤ
  shown : Shown
deriving DecidableEq, Repr

/-- The variables of `main` set by options (resdet.c:64-68). -/
structure CliState where
  verbosity : ℤ := -1
  method : Option (List UInt8) := none
  type : Option (List UInt8) := none
  imageReader : Option (List UInt8) := none
  rangeOpt : Option (List UInt8) := none
  thresholdOpt : Option (List UInt8) := none
  filterOpt : Option (List UInt8) := none
  offset : ℕ := 0
  nframes : ℕ := 0
  progress : Bool := false
  foundReader : Bool := false
deriving DecidableEq, Repr

/-- The loop over the options (resdet.c:70-116): the exit, or the variables afterwards. -/
def cliOptions (c : Cfg) (io : Io) : List CliOpt → CliState → Exit ⊕ CliState
  | [], st => .inr st
  | .v a :: os, st => cliOptions c io os { st with verbosity := toInt c (strtol c a) }
  | .m a :: os, st => cliOptions c io os { st with method := some a }
  | .t a :: os, st => cliOptions c io os { st with type := some a }
  | .R a :: os, st =>
    let found := st.foundReader || (listImageReaders io).any (fun n => strcaseeq n a)
    if !found then .inl ⟨if a = cs "list" then 0 else 1, .info⟩
    else cliOptions c io os { st with foundReader := found, imageReader := some a }
  | .x a :: os, st => cliOptions c io os { st with thresholdOpt := some a }
  | .r a :: os, st => cliOptions c io os { st with rangeOpt := some a }
  | .f a :: os, st => cliOptions c io os { st with filterOpt := some a }
  | .o a :: os, st =>
    match strtou ullMax a with
    | none => .inl ⟨1, .nothing⟩
    | some v => cliOptions c io os { st with offset := v }
  | .n a :: os, st =>
    match strtou ullMax a with
    | none => .inl ⟨1, .nothing⟩
    | some v => if v = 0 then .inl ⟨1, .nothing⟩ else cliOptions c io os { st with nframes := v }
  | .p :: os, st => cliOptions c io os { st with progress := true }
  | .h :: _, _ => .inl ⟨0, .info⟩
  | .V :: _, _ => .inl ⟨0, .info⟩
  | .bad :: _, _ => .inl ⟨1, .nothing⟩

/-- A method name as the text `resdet_get_method` compares: the bytes as characters (resdet.c:118-135). -/
def textOf (b : List UInt8) : String := String.ofList (b.map (fun x => Char.ofNat x.toNat))

/-- `-x` (resdet.c:136-143): `none` is the error exit.  The quotient is a `double`, stored in a `float`. -/
def cliThreshold (v : CliEnv) (o : Option (List UInt8)) (p : Params) : Option Params :=
  match o with
  | none => some p
  | some t =>
    match v.strtod t with
    | none => none
    | some d =>
      match setThreshold (some p) (binary32.conv (binary64.div d (binary64.ofNat 100))) with
      | (e, some p) => if e ≠ 0 then none else some p
      | _ => none

/-- `-r` (resdet.c:144-151): the number is converted to `size_t`. -/
def cliRange (c : Cfg) (o : Option (List UInt8)) (p : Params) : Option Params :=
  match o with
  | none => some p
  | some t =>
    match strtou ullMax t with
    | none => none
    | some n =>
      match setRange (some p) (c.sz n) with
      | (e, some p) => if e ≠ 0 then none else some p
      | _ => none

/-- `-f` (resdet.c:152-159). -/
def cliFilter (c : Cfg) (o : Option (List UInt8)) (p : Params) : Option Params :=
  match o with
  | none => some p
  | some t =>
    if t = cs "auto" then some p
    else
      match strtou (2 * c.longMax + 1) t with
      | none => none
      | some n =>
        if n > 255 then none
        else
          match setCompressionFilter (some p) n with
          | (e, some p) => if e ≠ 0 then none else some p
          | _ => none

/-- The extension with its dot, as `strrchr(input, '.')` finds it (resdet.c:195). -/
def dotExt (input : List UInt8) : Option (List UInt8) :=
  if ch '.' ∈ input then some (ch '.' :: (input.reverse.takeWhile (fun b => b != ch '.')).reverse) else none

/-- The filter for an extension (resdet.c:196-202). -/
def autoFactor (ext : List UInt8) : ℕ :=
  let factor := 0
  let factor := if strcaseeq ext (cs ".jpeg") || strcaseeq ext (cs ".jpg") || strcaseeq ext (cs ".mp4") || strcaseeq ext (cs ".mkv")
    then 3 else factor
  let factor := if strcaseeq ext (cs ".webp") || strcaseeq ext (cs ".webm") then 2 else factor
  if strcaseeq ext (cs ".avif") || strcaseeq ext (cs ".heic") then 5 else factor

/-- `-f auto` (resdet.c:194-205); the result of the setter is ignored. -/
def cliAuto (o : Option (List UInt8)) (input : List UInt8) (p : Params) : Params :=
  if o = some (cs "auto") then
    match dotExt input with
    | some ext => (setCompressionFilter (some p) (autoFactor ext)).2.getD p
    | none => p
  else p

/-- The frame loop (resdet.c:211-220): error, `ct`, handle, image, analysis.  The loop has no bound of its own; `none` when
`fuel` frames are not enough. -/
def cliLoop (s : Sys) (nframes : ℕ) : (fuel ct : ℕ) → RDImage → Buf Fl → Analysis → M (RDError × ℕ × RDImage × Buf Fl × Analysis)
  | 0, _, _, _, _ => M.ub
  | fuel + 1, ct, i, buf, a => do
    let (ret, e, buf, i) ← readImageFrame (some i) (some buf) 0
    let buf ← need buf
    let i ← need i
    if !ret then return (e, ct, i, buf, a)
    else
      let (e, a) ← analyzeImage s (some a) (some buf.data)
      let a ← need a
      if e ≠ 0 then return (e, ct, i, buf, a)
      else
        let ct := s.cfg.sz (ct + 1)
        if nframes ≠ 0 ∧ ct > nframes then return (e, ct, i, buf, a) else cliLoop s nframes fuel ct i buf a

/-- The first `n` elements of an array (resdet.c:244, 251, 265). -/
def readAll (l : List Res) : ℕ → Option (List Res)
  | 0 => some []
  | n + 1 => do
    let a ← readAll l n
    let b ← rd l n
    return a ++ [b]

/-- Printing the results (resdet.c:236-272). -/
def cliShow (c : Cfg) (verbosity : ℤ) (rw rh : List Res) (cw ch : ℕ) : Option Shown :=
  if verbosity = 0 then some .nothing
  else if verbosity = 1 then do
    let a ← rd rw 0
    let b ← rd rh 0
    return .best a.index b.index
  else if verbosity = 2 ∨ verbosity = 3 then do
    let a ← readAll rw cw
    let b ← readAll rh ch
    return .lists (verbosity = 3) a b
  else do
    let gw ← rd rw (c.szSub cw 1)
    let gh ← rd rh (c.szSub ch 1)
    let bw ← rd rw 0
    let bh ← rd rh 0
    let a ← readAll rw (c.szSub cw 1)
    let b ← readAll rh (c.szSub ch 1)
    return .report gw.index gh.index bw.index bh.index (cw = 1 ∧ ch = 1) a b

/-- The label `end` (resdet.c:274-288).  `counts` are `cw` and `ch` if they have been set; `params` is a block. -/
def cliEnd (s : Sys) (v : CliEnv) (verbosity : ℤ) (params : ℕ) (analysis : Option Analysis) (rdimage : Option RDImage)
    (image : Option (Buf Fl)) (rw rh : Option (Buf Res)) (counts : Option (ℕ × ℕ)) (e : RDError) (ret : Bool) (shown : Shown) :
    M Exit := do
  destroyAnalysis analysis
  closeImage rdimage
  freeBuf image
  free (some params)
  freeBuf rw
  freeBuf rh
  if e ≠ 0 then
    let msg ← need (resdetErrorStr s.cfg v.strerror e)
    -- printing a null pointer with %s is undefined
    let _ ← need msg
    return ⟨1, shown⟩
  else if ret then return ⟨1, shown⟩
  else if verbosity = 0 then
    let (cw, ch) ← need counts
    return ⟨if cw = 1 ∧ ch = 1 then 1 else 0, shown⟩
  else return ⟨0, shown⟩

/-- From creating the analysis on (resdet.c:207-272). -/
def cliAnalyze (s : Sys) (v : CliEnv) (fuel : ℕ) (st : CliState) (m : Method) (block : ℕ) (p : Params) (i : RDImage) (buf : Buf Fl)
    (width height : ℕ) : M Exit := do
  let (a, e) ← createAnalysis s (some m) width height (some p)
  if e ≠ 0 then cliEnd s v st.verbosity block a (some i) (some buf) none none none e false .nothing
  else
    let a ← need a
    let (e, ct, i, buf, a) ← cliLoop s st.nframes fuel 1 i buf a
    if e = 0 ∧ ct = 1 then cliEnd s v st.verbosity block (some a) (some i) (some buf) none none none e true .nothing
    else if e ≠ 0 then cliEnd s v st.verbosity block (some a) (some i) (some buf) none none none e false .nothing
    else
      let (e, out, a) ← analysisResults s (some a) Ptrs.all
      if e ≠ 0 then cliEnd s v st.verbosity block a (some i) (some buf) out.rw out.rh (some (out.cw, out.ch)) e false .nothing
      else
        let rw ← need out.rw
        let rh ← need out.rh
        let shown ← need (cliShow s.cfg st.verbosity rw.data rh.data out.cw out.ch)
        cliEnd s v st.verbosity block a (some i) (some buf) out.rw out.rh (some (out.cw, out.ch)) e false shown

/-- Opening the image (resdet.c:174-177). -/
def cliOpen (s : Sys) (io : Io) (st : CliState) (input : List UInt8) : M Opened :=
  match st.imageReader with
  | some r => resdetOpenImageWithReader s io (some input) (some r) true true true
  | none => resdetOpenImage s io (some input) st.type true true true

/-- From opening the image on (resdet.c:165-288). -/
def cliRun (s : Sys) (io : Io) (v : CliEnv) (fuel : ℕ) (st : CliState) (input : List UInt8) (m : Method) (block : ℕ) (p : Params) : M Exit := do
  let o ← cliOpen s io st input
  if o.error ≠ 0 then cliEnd s v st.verbosity block none o.image o.buf none none none o.error false .nothing
  else
    let i ← need o.image
    let buf ← need o.buf
    if st.offset = 0 then cliAnalyze s v fuel st m block (cliAuto st.filterOpt input p) i buf o.width o.height
    else
      let (ret, e, _, i) ← seekFrame (some i) st.offset st.progress
      let i ← need i
      if !ret then cliEnd s v st.verbosity block none (some i) (some buf) none none none e (e = 0) .nothing
      else cliAnalyze s v fuel st m block (cliAuto st.filterOpt input p) i buf o.width o.height

/-- `main` (resdet.c:62-289), given the options `getopt` delivers and `argv[optind]`. -/
def cliMain (s : Sys) (io : Io) (v : CliEnv) (fuel : ℕ) (opts : List CliOpt) (input : Option (List UInt8)) : M Exit :=
  match cliOptions s.cfg io opts {} with
  | .inl e => pure e
  | .inr st =>
    match input with
    | none => pure ⟨1, .nothing⟩
    | some input =>
      match resdetGetMethod (st.method.map textOf) with
      | none => pure ⟨1, .nothing⟩
      | some m => do
        match ← resdetAllocDefaultParameters s.cfg with
        | none => return ⟨1, .nothing⟩
        | some (block, p) =>
          match (cliThreshold v st.thresholdOpt p).bind (fun p => (cliRange s.cfg st.rangeOpt p).bind (cliFilter s.cfg st.filterOpt)) with
          | none =>
            free (some block)
            return ⟨1, .nothing⟩
          | some p =>
            if st.type.isSome && st.imageReader.isSome then return ⟨1, .nothing⟩
            else cliRun s io v fuel st input m block p

end Verif
