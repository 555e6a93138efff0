import Verif.Model.CliOutput

/-!
# What stat, imgread and profile write, and the times profile measures (src/stat.c, src/imgread.c, src/profile.c)

The functions of `Model/Tools.lean` once more, with the text of both streams collected (`…Out`), and from the command line on.  Sums of
times are taken not to overflow.  Left out: the order in which the two streams reach a common terminal.
-/

namespace Verif

/-- `struct timeval`, as `getrusage` fills it in (profile.c:163-164, 170-171). -/
structure Timeval where
  sec : ℤ
  usec : ℤ
deriving DecidableEq, Repr

/-- `diffts` (profile.c:17-25). -/
def diffts (start stop : Timeval) : Timeval :=
  if stop.usec - start.usec < 0 then ⟨stop.sec - start.sec - 1, 1000000 + stop.usec - start.usec⟩
  else ⟨stop.sec - start.sec, stop.usec - start.usec⟩

/-- Adding to the total (profile.c:174-175); C division rounds towards zero. -/
def addTime (t d : Timeval) : Timeval :=
  ⟨t.sec + (d.sec + (t.usec + d.usec).tdiv 1000000), (t.usec + d.usec).tmod 1000000⟩

/-- `"%.<k>ld"` (profile.c:183, 198): at least `k` digits. -/
def printLd (k : ℕ) (n : ℤ) : List UInt8 :=
  let d := printZu n.natAbs
  (if n < 0 then [ch '-'] else []) ++ List.replicate (k - d.length) (ch '0') ++ d

/-- `"%2ld.%.9ld"` (profile.c:183, 198). -/
def timeText (t : Timeval) : List UInt8 := padLeft 2 (printLd 1 t.sec) ++ [ch '.'] ++ printLd 9 t.usec

/-- `padding` (profile.c:92-97): the length of the longest name. -/
def profilePadding : List Method → ℕ
  | [] => 0
  | m :: ms => max (cs m.name).length (profilePadding ms)

/-- `"%-*s   %2ld.%.9ld   (+%zu -%zu)\n"` (profile.c:183, 198). -/
def profileRow (padding : ℕ) (m : Method) (t : Timeval) (plus minus : ℕ) : List UInt8 :=
  cs m.name ++ List.replicate (padding - (cs m.name).length) (ch ' ') ++ cs "   " ++ timeText t ++ cs "   (+" ++ printZu plus ++ cs " -" ++ printZu minus ++ cs ")\n"

/-- Two pieces of output, one after the other (profile.c:114-198). -/
def Output.then (a b : Output) : Output := ⟨a.out ++ b.out, a.err ++ b.err⟩

/-- The figures for one image and method with the time taken; `none` if the detection failed (profile.c:163-181). -/
abbrev Timed := Option (Timeval × ℕ × ℕ)

/-- One round of the loop over the methods (profile.c:159-187).  `clock i` is what `getrusage` reports when it is called for the `i`th
time, `k` the number of calls so far. -/
def profileMethodOut (s : Sys) (v : CliEnv) (clock : ℕ → Timeval) (image : List Fl) (d w h : ℕ) (kw kh : List ℕ) (m : Method) (k : ℕ) :
    M (Timed × Output × ℕ) := do
  let (e, out) ← resdetect s (some image) d w h Ptrs.all (some m) none
  if e ≠ 0 then
    let msg ← need (resdetErrorStr s.cfg v.strerror e)
    let msg ← need msg
    freeBuf out.rw
    freeBuf out.rh
    return (none, ⟨[], cs "Error during detection: " ++ cs msg ++ [ch '\n']⟩, k + 1)
  else
    let t := diffts (clock k) (clock (k + 1))
    let rw ← need out.rw
    let cw := s.cfg.szSub out.cw 1
    let (plus, minus) ← need (diffres s.cfg kw kw.length rw.data cw (kw.length + cw + 1) 0 0 0 0)
    let rh ← need out.rh
    let ch := s.cfg.szSub out.ch 1
    let (plus, minus) ← need (diffres s.cfg kh kh.length rh.data ch (kh.length + ch + 1) 0 0 plus minus)
    freeBuf out.rw
    freeBuf out.rh
    return (some (t, plus, minus), ⟨profileRow (profilePadding methods) m t plus minus, []⟩, k + 2)

/-- The loop over the methods (profile.c:159-187). -/
def profileMethodsOut (s : Sys) (v : CliEnv) (clock : ℕ → Timeval) (image : List Fl) (d w h : ℕ) (kw kh : List ℕ) :
    List Method → ℕ → M (List Timed × Output × ℕ)
  | [], k => pure ([], ⟨[], []⟩, k)
  | m :: ms, k => do
    let (x, o, k) ← profileMethodOut s v clock image d w h kw kh m k
    let (l, o', k) ← profileMethodsOut s v clock image d w h kw kh ms k
    return (x :: l, o.then o', k)

/-- What happens with one image that could be read (profile.c:133-191). -/
def profileImageOut (s : Sys) (v : CliEnv) (clock : ℕ → Timeval) (image : Buf Fl) (d w h : ℕ) (lines : List (List UInt8)) (k : ℕ) :
    M ((Option (List Timed) × List (List UInt8)) × Output × ℕ) := do
  match lines with
  | [] =>
    free (some image.id)
    return ((none, []), ⟨[], []⟩, k)
  | l1 :: lines =>
    match ← readres s.cfg (chop l1) with
    | none =>
      free (some image.id)
      return ((none, lines), ⟨[], []⟩, k)
    | some kw =>
      match lines with
      | [] =>
        freeBuf (some kw)
        free (some image.id)
        return ((none, []), ⟨[], []⟩, k)
      | l2 :: lines =>
        match ← readres s.cfg (chop l2) with
        | none =>
          freeBuf (some kw)
          free (some image.id)
          return ((none, lines), ⟨[], []⟩, k)
        | some kh =>
          let (l, o, k) ← profileMethodsOut s v clock image.data d w h kw.data kh.data methods k
          freeBuf (some kw)
          freeBuf (some kh)
          free (some image.id)
          return ((some l, lines), o, k)

/-- The loop over the dictionary (profile.c:114-192). -/
def profileLoopOut (s : Sys) (io : Io) (v : CliEnv) (clock : ℕ → Timeval) : (fuel : ℕ) → (lines : List (List UInt8)) → (k : ℕ) →
    M ((List (List Timed) × Bool) × Output)
  | 0, _, _ => M.ub
  | _ + 1, [], _ => pure (([], false), ⟨[], []⟩)
  | fuel + 1, line :: lines, k =>
    if line.head? = some (ch '\n') then profileLoopOut s io v clock fuel lines k
    else do
      let name := chop line
      let o ← readImage s io (some name) none true true
      if o.error ≠ 0 then
        let msg ← need (resdetErrorStr s.cfg v.strerror o.error)
        let msg ← need msg
        let said : Output := ⟨name ++ [ch '\n'], cs "Error reading " ++ name ++ cs ": " ++ cs msg ++ [ch '\n']⟩
        match lines with
        | _ :: _ :: lines =>
          let (r, o) ← profileLoopOut s io v clock fuel lines k
          return (r, said.then o)
        | _ => return (([], true), said)
      else
        let image ← need o.images
        match ← profileImageOut s v clock image o.nimages o.width o.height lines k with
        | ((none, _), o, _) => return (([], true), Output.then ⟨name ++ [ch '\n'], []⟩ o)
        | ((some l, lines), o, k) =>
          if l.any Option.isNone then return (([l], true), Output.then ⟨name ++ [ch '\n'], []⟩ o)
          else
            let ((ls, ret), o') ← profileLoopOut s io v clock fuel lines k
            return ((l :: ls, ret), Output.then ⟨name ++ [ch '\n'], []⟩ (o.then o'))

/-- The figures without the time (profile.c:177-181). -/
def Timed.figures (x : Timed) : Figures := x.map Prod.snd

/-- The totals of the times (profile.c:98-99, 174-175). -/
def addTimes : List Timeval → List Timed → List Timeval
  | t :: ts, some (d, _) :: xs => addTime t d :: addTimes ts xs
  | t :: ts, none :: xs => t :: addTimes ts xs
  | ts, _ => ts

/-- The rows of the totals (profile.c:197-198). -/
def totalRows (padding : ℕ) : List Method → List Timeval → List (ℕ × ℕ) → List UInt8
  | m :: ms, t :: ts, (p, q) :: fs => profileRow padding m t p q ++ totalRows padding ms ts fs
  | _, _, _ => []

/-- What profile measures, prints and returns (profile.c:72-200). -/
structure ProfileRun where
  images : List (List Timed)
  times : List Timeval
  totals : List (ℕ × ℕ)
  code : ℤ
  output : Output
deriving DecidableEq, Repr

/-- `main` of profile (profile.c:72-200), with the lines of the dictionary, which could be opened. -/
def profileMainOut (s : Sys) (io : Io) (v : CliEnv) (clock : ℕ → Timeval) (lines : List (List UInt8)) : M ProfileRun := do
  let ((images, ret), o) ← profileLoopOut s io v clock (lines.length + 1) lines 0
  let times := images.foldl addTimes (List.replicate methods.length ⟨0, 0⟩)
  let totals := (images.map (List.map Timed.figures)).foldl (addTotals s.cfg) (List.replicate methods.length (0, 0))
  return ⟨images, times, totals, if ret then 1 else 0,
    o.then ⟨cs "totals\n" ++ totalRows (profilePadding methods) methods times totals, []⟩⟩

/-- What `getline` delivers of a file until it is exhausted (profile.c:114, 125-126, 135, 147): each line with its newline, the last one
possibly without. -/
def getLines : List UInt8 → List (List UInt8)
  | [] => []
  | b :: t => if b = ch '\n' then [b] :: getLines t else match getLines t with
    | [] => [[b]]
    | l :: ls => (b :: l) :: ls

/-- The usage text of profile (profile.c:74-86). -/
def profileUsage (self : List UInt8) : List UInt8 :=
  cs "Usage: " ++ self ++ cs " dict.txt\n" ++ cs "\ndict.txt provides a set of images with known resolutions with the format\n\tfilename\n\twidth1 width2 ...\n\theight1 height2 ...\n\n\tfilename\n\t...\n\n" ++
    cs "one-line example: printf \"resized.png\\n512\\n512\\n\" | " ++ self ++ cs " /dev/stdin\n"

/-- The command (profile.c:72-200): exit status and text.  `dict` is what `fopen` finds under a name, or `errno`. -/
def profileCommand (s : Sys) (io : Io) (v : CliEnv) (clock : ℕ → Timeval) (dict : List UInt8 → ℤ ⊕ List UInt8) (self : List UInt8) :
    List (List UInt8) → M (ℤ × Output)
  | [] => pure (1, ⟨[], profileUsage self⟩)
  | name :: _ =>
    match dict name with
    | .inl errno => pure (1, ⟨[], cs "Error opening dictionary file: " ++ cs (v.strerror errno) ++ [ch '\n']⟩)
    | .inr bytes => do
      let r ← profileMainOut s io v clock (getLines bytes)
      return (r.code, r.output)

/-- `"\t%4zu (%5.2f%%) - %5.2f%%\n"` (stat.c:23, 26): all operations are in `float`. -/
def statLine (median : Fl) (r : Res) : List UInt8 :=
  let pct (x : Fl) := padLeft 5 (printF 2 (binary32.mul x (binary32.ofNat 100))) ++ cs "%"
  cs "\t" ++ padLeft 4 (printZu r.index) ++ cs " (" ++ pct r.confidence ++ cs ") - " ++
    pct (binary32.div (binary32.sub r.confidence median) (binary32.sub (binary32.ofNat 1) median)) ++ cs "\n"

/-- What `statres` prints (stat.c:17-26). -/
def statText (st : Stat) : List UInt8 :=
  let pct (x : Fl) := padLeft 5 (printF 2 (binary32.mul x (binary32.ofNat 100))) ++ cs "%"
  cs "median: " ++ pct st.median ++ cs "   inner fence: " ++ pct st.inner ++ cs "   outer fence: " ++ pct st.outer ++ cs "\n" ++
    cs "mild outliers:\n" ++ (st.mild.map (statLine st.median)).flatten ++
    cs "extreme outliers:\n" ++ (st.extreme.map (statLine st.median)).flatten

/-- The usage text of stat (stat.c:30-35). -/
def statUsage (self : List UInt8) : List UInt8 :=
  cs "Usage: " ++ self ++ cs " image <method>\n" ++ cs "Methods:\n" ++
    match methods with
    | [] => []
    | m :: ms => cs "\t" ++ cs m.name ++ cs " (default)\n" ++ (ms.map (fun m => cs "\t" ++ cs m.name ++ cs "\n")).flatten

/-- `stat` (stat.c:28-52): what `main` returns and the text. -/
def statCommand (s : Sys) (io : Io) (v : CliEnv) (fuel : ℕ) (self : List UInt8) : List (List UInt8) → M (ℤ × Output)
  | [] => pure (1, ⟨[], statUsage self⟩)
  | input :: rest => do
    let (e, r) ← statMain s io v fuel input rest.head?
    match r with
    | some (a, b) => return (e, ⟨cs "width:\n" ++ statText a ++ cs "height:\n" ++ statText b, []⟩)
    | none =>
      let msg ← need (resdetErrorStr s.cfg v.strerror e)
      let msg ← need msg
      return (e, ⟨[], cs msg ++ cs "\n"⟩)

/-- The usage text of imgread (imgread.c:12). -/
def imgUsage (self : List UInt8) : List UInt8 := cs "Usage: " ++ self ++ cs " input_image output.pfm\n"

/-- `if(e) fprintf(stderr,"%s\n",resdet_error_str(e))` (imgread.c:42-43). -/
def imgSaid (s : Sys) (v : CliEnv) (e : RDError) : M (List UInt8) :=
  if e ≠ 0 then do
    let msg ← need (resdetErrorStr s.cfg v.strerror e)
    let msg ← need msg
    return cs msg ++ cs "\n"
  else pure []

/-- What `perror` writes if the output cannot be opened (imgread.c:28); it is not tried after an error (imgread.c:23-24). -/
def imgPerror (v : CliEnv) (e : RDError) (cannot : Option ℤ) : List UInt8 :=
  if e ≠ 0 then [] else match cannot with
    | none => []
    | some errno => cs "error opening output: " ++ cs (v.strerror errno) ++ cs "\n"

/-- `imgread` (imgread.c:10-49): exit status, text, and what is written, if the output could be opened.  `create` says whether `fopen` can
open the output, and if not its `errno`; a null pointer in place of the name is undefined behaviour. -/
def imgCommand (s : Sys) (io : Io) (v : CliEnv) (fuel : ℕ) (create : List UInt8 → Option ℤ) (self : List UInt8) :
    List (List UInt8) → M (ℤ × Output × Option (List UInt8))
  | [] => pure (1, ⟨[], imgUsage self⟩, none)
  | [input] => do
    let o ← resdetOpenImage s io (some input) none true true true
    if o.error ≠ 0 then
      imgEnd s v o.error o.image o.buf none
      let msg ← need (resdetErrorStr s.cfg v.strerror o.error)
      let msg ← need msg
      return (0, ⟨[], cs msg ++ cs "\n"⟩, none)
    else M.ub
  | input :: output :: _ => do
    let (e, file) ← imgMain s io v fuel input (create output).isNone
    let said ← imgSaid s v e
    return (0, ⟨[], imgPerror v e (create output) ++ said⟩, file)

end Verif
