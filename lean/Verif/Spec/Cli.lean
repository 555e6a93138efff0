import Verif.Model.Cli
import Verif.Spec.Formats
import Verif.Spec.Sequential

/-!
# What the options of the command mean
-/

namespace Verif.Spec

/-- `t` starts, after white space, with a decimal number: whether it has a minus sign, and its digits' value. -/
def Number (t : List UInt8) (neg : Bool) (n : ℕ) : Prop :=
  ∃ sp sg ds rest, t = sp ++ (sg ++ (ds ++ rest)) ∧ Blank sp ∧ Numeral n ds ∧ (∀ b, rest.head? = some b → ¬ Digits [b]) ∧
    (neg = true ∧ sg = [ch '-'] ∨ neg = false ∧ (sg = [] ∨ sg = [ch '+']))

/-- The number as a count from 0 to `max`: too large ones are the greatest count, negative ones count down from there. -/
def CountsIn (max : ℕ) (t : List UInt8) (k : ℕ) : Prop :=
  ∃ neg n, Number t neg n ∧
    (max < n ∧ k = max ∨ n ≤ max ∧ (neg = false ∨ n = 0) ∧ k = n ∨ n ≤ max ∧ neg = true ∧ n ≠ 0 ∧ k = max + 1 - n)

/-- The number as a count in 64 bits. -/
def Counts (t : List UInt8) (k : ℕ) : Prop := CountsIn (2 ^ 64 - 1) t k

/-- `arg` names a reader that is compiled in, up to case. -/
def NamesReader (io : Io) (arg : List UInt8) : Prop := ∃ n ∈ listImageReaders io, SameText n arg

/-- An option that ends the command at once, and the exit status; `before` are the options in front of it. -/
inductive EndsAt (io : Io) (before : List CliOpt) : CliOpt → ℤ → Prop where
  | help : EndsAt io before .h 0
  | version : EndsAt io before .V 0
  | readers {a : List UInt8} : (∀ b, CliOpt.R b ∉ before) → ¬ NamesReader io a → a = cs "list" → EndsAt io before (.R a) 0
  | reader {a : List UInt8} : (∀ b, CliOpt.R b ∉ before) → ¬ NamesReader io a → a ≠ cs "list" → EndsAt io before (.R a) 1
  | offset {a : List UInt8} : (∀ k, ¬ Counts a k) → EndsAt io before (.o a) 1
  | count {a : List UInt8} : (∀ k, k ≠ 0 → ¬ Counts a k) → EndsAt io before (.n a) 1
  | unknown : EndsAt io before .bad 1

/-- The first option that ends the command does so with this status. -/
def Ends (io : Io) (opts : List CliOpt) (code : ℤ) : Prop :=
  ∃ before o after, opts = before ++ o :: after ∧ EndsAt io before o code ∧
    ∀ b1 o1 a1 c, before = b1 ++ o1 :: a1 → ¬ EndsAt io b1 o1 c

/-- The last argument given to an option. -/
def last (f : CliOpt → Option (List UInt8)) (opts : List CliOpt) : Option (List UInt8) := (opts.filterMap f).getLast?

end Spec

namespace CliOpt

/-- The arguments of each option. -/
def vArg : CliOpt → Option (List UInt8) | v a => some a | _ => none
def mArg : CliOpt → Option (List UInt8) | m a => some a | _ => none
def tArg : CliOpt → Option (List UInt8) | t a => some a | _ => none
def rArg : CliOpt → Option (List UInt8) | R a => some a | _ => none
def xArg : CliOpt → Option (List UInt8) | x a => some a | _ => none
def rangeArg : CliOpt → Option (List UInt8) | r a => some a | _ => none
def fArg : CliOpt → Option (List UInt8) | f a => some a | _ => none
def oArg : CliOpt → Option (List UInt8) | o a => some a | _ => none
def nArg : CliOpt → Option (List UInt8) | n a => some a | _ => none

end CliOpt

namespace Spec

/-- The verbosity asked for: -1 unless `-v` gives another number. -/
def Verbosity (c : Cfg) (opts : List CliOpt) (k : ℤ) : Prop :=
  (last CliOpt.vArg opts = none ∧ k = -1) ∨
  ∃ a neg n, last CliOpt.vArg opts = some a ∧ Number a neg n ∧ n ≤ c.intMax ∧ k = if neg then -(n : ℤ) else n

/-- A number with a sign, or the nearest one that fits `long`. -/
def longValue (c : Cfg) (neg : Bool) (n : ℕ) : ℤ := if neg then max (-(n : ℤ)) (-(c.longMax : ℤ) - 1) else min (n : ℤ) c.longMax

/-- The method asked for. -/
def WantsMethod (opts : List CliOpt) (m : Method) : Prop :=
  (last CliOpt.mArg opts = none ∧ methods.head? = some m) ∨ (m ∈ methods ∧ last CliOpt.mArg opts = some (cs m.name))

/-- The threshold asked for, in percent. -/
def WantsThreshold (v : CliEnv) (opts : List CliOpt) (t : Fl) : Prop :=
  (last CliOpt.xArg opts = none ∧ t = .fin true (-1)) ∨
  ∃ a d, last CliOpt.xArg opts = some a ∧ v.strtod a = some d ∧ t = binary32.conv (binary64.div d (binary64.ofNat 100)) ∧ InUnit t

/-- The range asked for. -/
def WantsRange (c : Cfg) (opts : List CliOpt) (r : ℕ) : Prop :=
  (last CliOpt.rangeArg opts = none ∧ r = c.defaultRange) ∨
  ∃ a k, last CliOpt.rangeArg opts = some a ∧ Counts a k ∧ r = k % (c.sizeMax + 1) ∧ r ≠ 0

/-- Extensions with a filter of their own. -/
def autoFilters : List (List UInt8 × ℕ) :=
  [(cs "jpeg", 3), (cs "jpg", 3), (cs "mp4", 3), (cs "mkv", 3), (cs "webp", 2), (cs "webm", 2), (cs "avif", 5), (cs "heic", 5)]

/-- The filter chosen for a file name. -/
inductive AutoFilter (input : List UInt8) : ℕ → Prop where
  | known {stem ext e : List UInt8} {k : ℕ} : input = stem ++ ch '.' :: ext → ch '.' ∉ ext → (e, k) ∈ autoFilters → SameText ext e →
    AutoFilter input k
  | other : (∀ stem ext e k, input = stem ++ ch '.' :: ext → ch '.' ∉ ext → (e, k) ∈ autoFilters → ¬ SameText ext e) → AutoFilter input 0

/-- The filter asked for; the argument is read as an `unsigned long`. -/
def WantsFilter (c : Cfg) (opts : List CliOpt) (input : List UInt8) (k : ℕ) : Prop :=
  (last CliOpt.fArg opts = none ∧ k = 0) ∨ (last CliOpt.fArg opts = some (cs "auto") ∧ AutoFilter input k) ∨
  ∃ a, last CliOpt.fArg opts = some a ∧ a ≠ cs "auto" ∧ CountsIn (2 * c.longMax + 1) a k ∧ k ≤ 31

/-- No option ends the command, and all arguments can be used: the method and the parameters they ask for. -/
structure Wants (c : Cfg) (io : Io) (v : CliEnv) (opts : List CliOpt) (input : List UInt8) (m : Method) (p : Params) : Prop where
  goes : ∀ code, ¬ Ends io opts code
  method : WantsMethod opts m
  threshold : WantsThreshold v opts p.threshold
  range : WantsRange c opts p.range
  filter : WantsFilter c opts input p.compressionFilter
  one : last CliOpt.tArg opts = none ∨ last CliOpt.rArg opts = none

/-- How the image is opened. -/
def opening (s : Sys) (io : Io) (opts : List CliOpt) (input : List UInt8) : M Opened :=
  match last CliOpt.rArg opts with
  | some r => resdetOpenImageWithReader s io (some input) (some r) true true true
  | none => resdetOpenImage s io (some input) (last CliOpt.tArg opts) true true true

/-- How many frames to skip. -/
def Skips (opts : List CliOpt) (k : ℕ) : Prop :=
  (last CliOpt.oArg opts = none ∧ k = 0) ∨ ∃ a, last CliOpt.oArg opts = some a ∧ Counts a k

/-- How many frames to analyse at most. -/
def Limits (opts : List CliOpt) (n : ℕ) : Prop := ∃ a, last CliOpt.nArg opts = some a ∧ Counts a n

/-- The frames selected of those that are not skipped: all, or as many as `-n` says. -/
def Selects (opts : List CliOpt) (frames sel : List (List Fl)) : Prop :=
  (last CliOpt.nArg opts = none ∧ sel = frames) ∨ ∃ n, Limits opts n ∧ sel = frames.take n

/-- The call that skips frames. -/
def skipping (k : ℕ) : List IOp := if k = 0 then [] else [.seek k]

/-- Opening the image shows size `width` x `height`, `k` frames can be skipped, and reading then gives `frames` and stops with `e`. -/
def YieldsAfter (open' : M Opened) (k width height : ℕ) (frames : List (List Fl)) (e : RDError) : Prop :=
  ∀ w : World, w.WF → Plenty w → ∃ i buf w1,
    open' w = some (⟨some i, width, height, some buf, RDEOK⟩, w1) ∧
    ∃ skipped last i' buf' w2, session (skipping k ++ List.replicate (frames.length + 1) .read) (some i) (some buf) w1 =
      some ((skipped ++ (frames.map (.read true RDEOK) ++ [.read false e last]), i', buf'), w2) ∧
      (skipped = [] ∨ ∃ calls, skipped = [.seek true RDEOK calls])

/-- Opening the image works, but `k` frames cannot be skipped. -/
def CannotSkip (open' : M Opened) (k : ℕ) (e : RDError) : Prop :=
  ∀ w : World, w.WF → Plenty w → ∃ i width height buf w1, open' w = some (⟨some i, width, height, some buf, RDEOK⟩, w1) ∧
    ∃ calls i' buf' w2, session [.seek k] (some i) (some buf) w1 = some (([.seek false e calls], i', buf'), w2)

/-- What is printed for the widths `rw` and heights `rh` found in an image of this size. -/
def Prints (verbosity : ℤ) (width height : ℕ) (rw rh : List Res) (out : Shown) : Prop :=
  (verbosity = 0 ∧ out = .nothing) ∨
  (verbosity = 1 ∧ ∃ a b, rw.head? = some a ∧ rh.head? = some b ∧ out = .best a.index b.index) ∨
  ((verbosity = 2 ∨ verbosity = 3) ∧ out = .lists (verbosity = 3) rw rh) ∨
  (¬ (0 ≤ verbosity ∧ verbosity ≤ 3) ∧ ∃ a b, rw.head? = some a ∧ rh.head? = some b ∧
    out = .report width height a.index b.index (rw.length = 1 ∧ rh.length = 1) rw.dropLast rh.dropLast)

end Verif.Spec
