import Verif.Model.CliText
import Verif.Model.Getopt

/-!
# What the command writes to standard output and standard error (src/resdet.c)

The functions of `Model/Cli.lean` once more, with the text of both streams collected (`…Out`).  `C92_same` says that they are the same
otherwise.  The texts of `strerror` are taken to be bytes, one per character.  Left out: the messages `getopt` prints itself, and the order in which the two streams reach a common terminal.
-/

namespace Verif

/-- The text of both streams (resdet.c:62-289). -/
structure Output where
  out : List UInt8
  err : List UInt8
deriving DecidableEq, Repr

/-- What the texts mention: `argv[0]`, `RESDET_VERSION_STRING` (resdet.c:18) and `resdet_libversion()` (util.c:55-57). -/
structure Naming where
  self : List UInt8
  version : List UInt8
  libversion : List UInt8

/-- `seek_progress` (resdet.c:22-24). -/
def seekLine (offset : ℕ) : List UInt8 := cs "Seeking past frame " ++ printZu offset ++ [13]

/-- `usage` (resdet.c:26-29). -/
def usageText (nm : Naming) : List UInt8 :=
  cs "Usage: " ++ nm.self ++
    cs " [-h -V -m <method> -v <verbosity> -t <filetype> -R <image_reader> -r <range> -x <threshold> -f <value> -p -o <offset> -n <nframes>] image\n"

/-- `"   %-5s - %.0f%%"` (resdet.c:57, 59); the product is a `float`. -/
def methodLine (m : Method) : List UInt8 :=
  cs "   " ++ cs m.name ++ List.replicate (5 - (cs m.name).length) (ch ' ') ++ cs " - " ++
    (match binary32.mul m.threshold (binary32.ofNat 100) with
      | .fin _ v => printZu (rne v).toNat
      | _ => []) ++ cs "%"

/-- The methods as `help` lists them (resdet.c:55-59). -/
def methodLines : List Method → List UInt8
  | [] => []
  | m :: ms => methodLine m ++ cs " (default method)\n" ++ (ms.map (fun m => methodLine m ++ [ch '\n'])).flatten

/-- `help` (resdet.c:31-61). -/
def helpText (c : Cfg) (nm : Naming) : List UInt8 :=
  cs "Usage: " ++ nm.self ++
    cs " [-h -V -m <method> -v <verbosity> -t <filetype> -r <range> -x <threshold> -f <value> -p -o <offset> -n <nframes>] image\n" ++
    cs " -h   This help text.\n" ++
    cs " -V   Show the resdet CLI and library version.\n" ++
    cs "\n" ++
    cs " -m   Optional detection method, see below.\n" ++
    cs " -v   verbosity: -1 - Human-readable output, default.\n" ++
    cs "                  0 - Behave like a shell test, returning true if upscaling was detected, false if not or on error.\n" ++
    cs "                  1 - Print only the best guess width and height.\n" ++
    cs "                  2 - All detected widths and heights in confidence order.\n" ++
    cs "                  3 - -v2 plus the floating point confidence value.\n" ++
    cs " -t   filetype: Override the input type. May be an extension or MIME type.\n" ++
    cs " -R   image reader: Select a specific image reader to read the file. Mutually exclusive with -t.\n" ++
    cs "                    Use -R list to see available image readers.\n" ++
    cs " -r   range: Number of neighboring values to search (" ++ printZu c.defaultRange ++ cs ").\n" ++
    cs " -x   threshold: Print all detection results above this method-specific confidence level (0-100).\n" ++
    cs " -f   Filter out possible compression artifacts. Value: an integer filter value or \"auto\" to set one based on the file type." ++
    cs " -p   Show progress in number of frames analyzed so far.\n" ++
    cs " -o   offset: Seek to this frame number before starting detection.\n" ++
    cs " -n   nframes: Limit detection to this number of frames.\n" ++
    cs "\n" ++
    cs "Available detection methods and default thresholds:\n" ++ methodLines methods

/-- `puts` of every reader (resdet.c:84-85). -/
def readerLines (io : Io) : List UInt8 := ((listImageReaders io).map (· ++ [ch '\n'])).flatten

/-- `printf("%s%s",*image_reader,*(image_reader+1) ? ", " : "\n")` for every reader (resdet.c:111-112). -/
def joinReaders : List (List UInt8) → List UInt8
  | [] => []
  | [r] => r ++ [ch '\n']
  | r :: rs => r ++ cs ", " ++ joinReaders rs

/-- `-V` (resdet.c:110-112). -/
def versionText (io : Io) (nm : Naming) : List UInt8 :=
  cs "resdet version " ++ nm.version ++ cs "\nlibresdet version " ++ nm.libversion ++ cs "\nBuilt with image readers: " ++ joinReaders (listImageReaders io)

/-- The loop over the options (resdet.c:70-116). -/
def cliOptionsOut (c : Cfg) (io : Io) (nm : Naming) : List CliOpt → CliState → (Exit × Output) ⊕ CliState
  | [], st => .inr st
  | .v a :: os, st => cliOptionsOut c io nm os { st with verbosity := toInt c (strtol c a) }
  | .m a :: os, st => cliOptionsOut c io nm os { st with method := some a }
  | .t a :: os, st => cliOptionsOut c io nm os { st with type := some a }
  | .R a :: os, st =>
    let found := st.foundReader || (listImageReaders io).any (fun n => strcaseeq n a)
    if !found then
      if a = cs "list" then .inl (⟨0, .info⟩, ⟨readerLines io, []⟩)
      else .inl (⟨1, .info⟩, ⟨readerLines io, cs "No image reader \"" ++ a ++ cs "\", use one of:\n"⟩)
    else cliOptionsOut c io nm os { st with foundReader := found, imageReader := some a }
  | .x a :: os, st => cliOptionsOut c io nm os { st with thresholdOpt := some a }
  | .r a :: os, st => cliOptionsOut c io nm os { st with rangeOpt := some a }
  | .f a :: os, st => cliOptionsOut c io nm os { st with filterOpt := some a }
  | .o a :: os, st =>
    match strtou ullMax a with
    | none => .inl (⟨1, .nothing⟩, ⟨[], cs "Invalid offset " ++ a ++ cs "\n"⟩)
    | some v => cliOptionsOut c io nm os { st with offset := v }
  | .n a :: os, st =>
    match strtou ullMax a with
    | none => .inl (⟨1, .nothing⟩, ⟨[], cs "Invalid nframes " ++ a ++ cs "\n"⟩)
    | some v =>
      if v = 0 then .inl (⟨1, .nothing⟩, ⟨[], cs "Invalid nframes " ++ a ++ cs "\n"⟩) else cliOptionsOut c io nm os { st with nframes := v }
  | .p :: os, st => cliOptionsOut c io nm os { st with progress := true }
  | .h :: _, _ => .inl (⟨0, .info⟩, ⟨helpText c nm, []⟩)
  | .V :: _, _ => .inl (⟨0, .info⟩, ⟨versionText io nm, []⟩)
  | .bad :: _, _ => .inl (⟨1, .nothing⟩, ⟨[], usageText nm⟩)

/-- The frame loop (resdet.c:211-220) with what it writes to standard error.  `ct+offset` is a `uint64_t`. -/
def cliLoopOut (s : Sys) (progress : Bool) (offset nframes : ℕ) :
    (fuel ct : ℕ) → RDImage → Buf Fl → Analysis → M ((RDError × ℕ × RDImage × Buf Fl × Analysis) × List UInt8)
  | 0, _, _, _, _ => M.ub
  | fuel + 1, ct, i, buf, a => do
    let (ret, e, buf, i) ← readImageFrame (some i) (some buf) 0
    let buf ← need buf
    let i ← need i
    if !ret then return ((e, ct, i, buf, a), [])
    else
      let line := if progress then cs "Analyzing frame " ++ printZu ((ct + offset) % (ullMax + 1)) ++ [13] else []
      let (e, a) ← analyzeImage s (some a) (some buf.data)
      let a ← need a
      if e ≠ 0 then return ((e, ct, i, buf, a), line)
      else
        let ct := s.cfg.sz (ct + 1)
        if nframes ≠ 0 ∧ ct > nframes then return ((e, ct, i, buf, a), line)
        else
          let (r, rest) ← cliLoopOut s progress offset nframes fuel ct i buf a
          return (r, line ++ rest)

/-- The label `end` (resdet.c:274-288), with the output so far. -/
def cliEndOut (s : Sys) (v : CliEnv) (verbosity : ℤ) (params : ℕ) (analysis : Option Analysis) (rdimage : Option RDImage)
    (image : Option (Buf Fl)) (rw rh : Option (Buf Res)) (counts : Option (ℕ × ℕ)) (e : RDError) (ret : Bool) (shown : Shown) (err : List UInt8) :
    M (Exit × Output) := do
  destroyAnalysis analysis
  closeImage rdimage
  freeBuf image
  free (some params)
  freeBuf rw
  freeBuf rh
  if e ≠ 0 then
    let msg ← need (resdetErrorStr s.cfg v.strerror e)
    let msg ← need msg
    return (⟨1, shown⟩, ⟨cliText shown, err ++ (cs msg ++ [ch '\n'])⟩)
  else if ret then return (⟨1, shown⟩, ⟨cliText shown, err⟩)
  else if verbosity = 0 then
    let (cw, ch) ← need counts
    return (⟨if cw = 1 ∧ ch = 1 then 1 else 0, shown⟩, ⟨cliText shown, err⟩)
  else return (⟨0, shown⟩, ⟨cliText shown, err⟩)

/-- From creating the analysis on (resdet.c:207-272). -/
def cliAnalyzeOut (s : Sys) (v : CliEnv) (fuel : ℕ) (st : CliState) (m : Method) (block : ℕ) (p : Params) (i : RDImage) (buf : Buf Fl)
    (width height : ℕ) (err : List UInt8) : M (Exit × Output) := do
  let (a, e) ← createAnalysis s (some m) width height (some p)
  if e ≠ 0 then cliEndOut s v st.verbosity block a (some i) (some buf) none none none e false .nothing err
  else
    let a ← need a
    let ((e, ct, i, buf, a), lines) ← cliLoopOut s st.progress st.offset st.nframes fuel 1 i buf a
    if e = 0 ∧ ct = 1 then
      cliEndOut s v st.verbosity block (some a) (some i) (some buf) none none none e true .nothing (err ++ lines ++ cs "No frames left in input.\n")
    else
      let err := err ++ lines ++ if st.progress then [ch '\n'] else []
      if e ≠ 0 then cliEndOut s v st.verbosity block (some a) (some i) (some buf) none none none e false .nothing err
      else
        let (e, out, a) ← analysisResults s (some a) Ptrs.all
        if e ≠ 0 then cliEndOut s v st.verbosity block a (some i) (some buf) out.rw out.rh (some (out.cw, out.ch)) e false .nothing err
        else
          let rw ← need out.rw
          let rh ← need out.rh
          let shown ← need (cliShow s.cfg st.verbosity rw.data rh.data out.cw out.ch)
          cliEndOut s v st.verbosity block a (some i) (some buf) out.rw out.rh (some (out.cw, out.ch)) e false shown err

/-- From opening the image on (resdet.c:165-288). -/
def cliRunOut (s : Sys) (io : Io) (v : CliEnv) (fuel : ℕ) (st : CliState) (input : List UInt8) (m : Method) (block : ℕ) (p : Params) :
    M (Exit × Output) := do
  let o ← cliOpen s io st input
  if o.error ≠ 0 then cliEndOut s v st.verbosity block none o.image o.buf none none none o.error false .nothing []
  else
    let i ← need o.image
    let buf ← need o.buf
    if st.offset = 0 then cliAnalyzeOut s v fuel st m block (cliAuto st.filterOpt input p) i buf o.width o.height []
    else
      let (ret, e, calls, i) ← seekFrame (some i) st.offset st.progress
      let i ← need i
      let lines := if st.progress then (calls.map seekLine).flatten else []
      if !ret then
        cliEndOut s v st.verbosity block none (some i) (some buf) none none none e (e = 0) .nothing
          (lines ++ if e = 0 then cs "Passed end of file while seeking to frame " ++ printZu st.offset ++ cs "\n" else [])
      else
        cliAnalyzeOut s v fuel st m block (cliAuto st.filterOpt input p) i buf o.width o.height (lines ++ if st.progress then [ch '\n'] else [])

/-- The message for arguments of `-x`, `-r` and `-f` that cannot be used (resdet.c:136-159); the first one is reported. -/
def cliParamsOut (c : Cfg) (v : CliEnv) (st : CliState) (p : Params) : List UInt8 ⊕ Params :=
  match cliThreshold v st.thresholdOpt p with
  | none => .inl (cs "Invalid threshold value " ++ st.thresholdOpt.getD [] ++ cs "\n")
  | some p =>
    match cliRange c st.rangeOpt p with
    | none => .inl (cs "Invalid range value " ++ st.rangeOpt.getD [] ++ cs "\n")
    | some p =>
      match cliFilter c st.filterOpt p with
      | none => .inl (cs "Invalid filter value " ++ st.filterOpt.getD [] ++ cs "\n")
      | some p => .inr p

/-- `main` (resdet.c:62-289), given the options `getopt` delivers and `argv[optind]`. -/
def cliMainOut (s : Sys) (io : Io) (v : CliEnv) (nm : Naming) (fuel : ℕ) (opts : List CliOpt) (input : Option (List UInt8)) : M (Exit × Output) :=
  match cliOptionsOut s.cfg io nm opts {} with
  | .inl e => pure e
  | .inr st =>
    match input with
    | none => pure (⟨1, .nothing⟩, ⟨[], usageText nm⟩)
    | some input =>
      match resdetGetMethod (st.method.map textOf) with
      | none => pure (⟨1, .nothing⟩, ⟨[], cs "Invalid method \"" ++ st.method.getD [] ++ cs "\"\nAvailable methods:\n" ++
          (methods.map (fun m => cs m.name ++ [ch '\n'])).flatten⟩)
      | some m => do
        match ← resdetAllocDefaultParameters s.cfg with
        | none => return (⟨1, .nothing⟩, ⟨[], cs "Out of memory"⟩)
        | some (block, p) =>
          match cliParamsOut s.cfg v st p with
          | .inl msg =>
            free (some block)
            return (⟨1, .nothing⟩, ⟨[], msg⟩)
          | .inr p =>
            if st.type.isSome && st.imageReader.isSome then
              return (⟨1, .nothing⟩, ⟨[], cs "Type option (-t) cannot be used with an image reader (-R)"⟩)
            else cliRunOut s io v fuel st input m block p

/-- `main` (resdet.c:62-289), given the words after the program name. -/
def cliCommandOut (s : Sys) (io : Io) (v : CliEnv) (nm : Naming) (fuel : ℕ) (permute : Bool) (words : List (List UInt8)) : M (Exit × Output) :=
  let (opts, rest) := getopt permute none words
  cliMainOut s io v nm fuel opts rest.head?

end Verif
