import Verif.Model.Cli
import Verif.Model.Tools

/-!
# The text the command prints (src/resdet.c:238-272)

`cliShow` says which numbers are printed; here are the bytes.  The help, version and reader list texts, and
what goes to standard error, are in Model/CliOutput.lean.
-/

namespace Verif

/-- The exact digits of `m / 10^k` with `k` digits after the point (resdet.c:247, 254, 267, 270). -/
def printFixed (k m : ℕ) : List UInt8 :=
  let f := printZu (m % 10 ^ k)
  printZu (m / 10 ^ k) ++ [ch '.'] ++ (List.replicate (k - f.length) (ch '0') ++ f)

/-- `printf("%.<k>f")` of a `float` (converted to `double`, which is exact): the value rounded to `k` digits after the point, ties to
even (resdet.c:247, 254, 267, 270). -/
def printF (k : ℕ) : Fl → List UInt8
  | .nan s => (if s then [ch '-'] else []) ++ cs "nan"
  | .inf s => (if s then [ch '-'] else []) ++ cs "inf"
  | .fin s v => (if v < 0 ∨ v = 0 ∧ s = true then [ch '-'] else []) ++ printFixed k (rne (|v| * 10 ^ k)).toNat

/-- A field width: blanks in front (resdet.c:267-270). -/
def padLeft (n : ℕ) (t : List UInt8) : List UInt8 := List.replicate (n - t.length) (ch ' ') ++ t

/-- An entry for `-v2` and `-v3` (resdet.c:244-247). -/
def cliEntry (confidence : Bool) (r : Res) : List UInt8 :=
  printZu r.index ++ (if confidence then ch ':' :: printF 6 r.confidence else []) ++ [ch ' ']

/-- `"%5zu (%5.2f%%)"` (resdet.c:267, 270); `confidence*100` is computed in `float`. -/
def cliCell (r : Res) : List UInt8 :=
  padLeft 5 (printZu r.index) ++ cs " (" ++ padLeft 5 (printF 2 (binary32.mul r.confidence (binary32.ofNat 100))) ++ cs "%)"

/-- A row of the table (resdet.c:264-269). -/
def cliRow (rw rh : List Res) (i : ℕ) : List UInt8 :=
  (match rw[i]? with
    | some r => cliCell r ++ cs "   "
    | none => padLeft 17 []) ++
  (match rh[i]? with
    | some r => cliCell r
    | none => []) ++ [ch '\n']

/-- What is printed (resdet.c:238-271); the help, version and reader list texts are left out. -/
def cliText : Shown → List UInt8
  | .nothing => []
  | .info => []
  | .best a b => printZu a ++ [ch ' '] ++ printZu b ++ [ch '\n']
  | .lists conf a b => (a.map (cliEntry conf)).flatten ++ [ch '\n'] ++ ((b.map (cliEntry conf)).flatten ++ [ch '\n'])
  | .report gw gh bw bh not a b =>
    cs "given: " ++ printZu gw ++ [ch 'x'] ++ printZu gh ++ cs "\nbest guess: " ++ printZu bw ++ [ch 'x'] ++ printZu bh ++
      (if not then cs " (not upsampled)" else []) ++ [ch '\n'] ++
      ((if max a.length b.length ≠ 0 then cs "all width        height\n" else []) ++
        ((List.range (max a.length b.length)).map (cliRow a b)).flatten)

end Verif
