import Verif.Model.Cli

/-!
# The command line of src/resdet.c

`getopt` as POSIX describes it, from the words of the command line to the options `main` acts on.  glibc looks for options behind
the operands as well, unless `POSIXLY_CORRECT` is set; other libraries stop at the first operand.  Both are modelled.  Left out:
the messages `getopt` prints, and a call without even a program name.
-/

namespace Verif

/-- The option string (resdet.c:70). -/
def optString : List UInt8 := cs "v:m:t:x:r:pn:o:R:f:hV"

/-- What an option string says of a letter: `none` if it is not an option, else whether it takes an argument (resdet.c:70). -/
def optKind (b : UInt8) : List UInt8 → Option Bool
  | [] => none
  | a :: rest => if a = b ∧ b ≠ ch ':' then some (rest.head? == some (ch ':')) else optKind b rest

/-- The `switch` on the letter delivered (resdet.c:71-115); `arg` is `optarg`. -/
def deliver (b : UInt8) (arg : List UInt8) : CliOpt :=
  if b = ch 'v' then .v arg
  else if b = ch 'm' then .m arg
  else if b = ch 't' then .t arg
  else if b = ch 'R' then .R arg
  else if b = ch 'x' then .x arg
  else if b = ch 'r' then .r arg
  else if b = ch 'f' then .f arg
  else if b = ch 'o' then .o arg
  else if b = ch 'n' then .n arg
  else if b = ch 'p' then .p
  else if b = ch 'h' then .h
  else if b = ch 'V' then .V
  else .bad

/-- The letters of a word after its dash: what is delivered, and the letter that takes the next word as its argument, if any.  A letter
that is not an option, or a colon, delivers `'?'` (resdet.c:70). -/
def getoptWord : List UInt8 → List CliOpt × Option UInt8
  | [] => ([], none)
  | b :: rest =>
    match optKind b optString with
    | none => let (l, a) := getoptWord rest; (.bad :: l, a)
    | some false => let (l, a) := getoptWord rest; (deliver b [] :: l, a)
    | some true => if rest = [] then ([], some b) else ([deliver b rest], none)

/-- `getopt` called until it returns -1: the options delivered, and the words from `argv[optind]` on.  With `permute` operands in front
of options are moved behind them.  `wait` is a letter that still wants its argument (resdet.c:70). -/
def getopt (permute : Bool) : Option UInt8 → List (List UInt8) → List CliOpt × List (List UInt8)
  | none, [] => ([], [])
  | some _, [] => ([.bad], [])
  | some b, a :: words => let (l, rest) := getopt permute none words; (deliver b a :: l, rest)
  | none, a :: words =>
    if a = cs "--" then ([], words)
    else if a.head? = some (ch '-') ∧ a ≠ cs "-" then
      let (l, wait) := getoptWord a.tail
      let (l', rest) := getopt permute wait words
      (l ++ l', rest)
    else if permute then let (l, rest) := getopt permute none words; (l, a :: rest)
    else ([], a :: words)

/-- `main` (resdet.c:62-289), given the words after the program name. -/
def cliCommand (s : Sys) (io : Io) (v : CliEnv) (fuel : ℕ) (permute : Bool) (words : List (List UInt8)) : M Exit :=
  let (opts, rest) := getopt permute none words
  cliMain s io v fuel opts rest.head?

end Verif
