import Verif.Spec.Cli
import Verif.Model.CliOutput

/-!
# What the command tells on standard error
-/

namespace Verif.Spec

/-- A number in decimal. -/
def decimalText (n : ℕ) : List UInt8 := cs (toString n)

/-- The progress of skipping `k` frames: every frame on the same line of the terminal. -/
def skippedLines (k : ℕ) : List UInt8 := ((List.range k).map (fun j => cs "Seeking past frame " ++ decimalText (j + 1) ++ cs "\r")).flatten

/-- The progress of skipping `k` frames and then analysing `n`; numbers have 64 bits. -/
def progressText (k n : ℕ) : List UInt8 :=
  (if k = 0 then [] else skippedLines k ++ cs "\n") ++
    ((List.range n).map (fun j => cs "Analyzing frame " ++ decimalText ((k + j + 1) % 2 ^ 64) ++ cs "\r")).flatten ++ cs "\n"

/-- The progress written with `-p`, and none without. -/
def progressTold (opts : List CliOpt) (k n : ℕ) : List UInt8 := if .p ∈ opts then progressText k n else []

/-- The progress of skipping `k` frames written with `-p`, when nothing was analysed. -/
def skippingTold (opts : List CliOpt) (k : ℕ) : List UInt8 := if .p ∈ opts then (if k = 0 then [] else skippedLines k ++ cs "\n") else []

/-- How many of the frames are handed to the analysis: all, or those up to the first with a sample that is infinite or not a number. -/
def handed (w h : ℕ) (frames : List (List Fl)) : ℕ :=
  min ((frames.takeWhile (fun f => (f.take (w * h)).all Fl.isfinite)).length + 1) frames.length

/-- The command has failed with the message of error `e` after writing `before` to standard error. -/
def FailsWith (s : Sys) (v : CliEnv) (e : RDError) (before : List UInt8) (ex : Exit) (o : Output) : Prop :=
  ex = ⟨1, .nothing⟩ ∧ ∃ msg, resdetErrorStr s.cfg v.strerror e = some (some msg) ∧ o = ⟨[], before ++ cs msg ++ cs "\n"⟩

/-- The names of the readers, one on each line. -/
def readerList (io : Io) : List UInt8 := ((listImageReaders io).map (· ++ cs "\n")).flatten

/-- What the command writes when an option ends it. -/
inductive EndText (io : Io) (nm : Naming) : CliOpt → Output → Prop where
  | help {out : List UInt8} : (∃ rest, out = cs "Usage: " ++ nm.self ++ rest) → EndText io nm .h ⟨out, []⟩
  | version : EndText io nm .V ⟨cs "resdet version " ++ nm.version ++ cs "\nlibresdet version " ++ nm.libversion ++ cs "\nBuilt with image readers: " ++
      (if listImageReaders io = [] then [] else (cs ", ").intercalate (listImageReaders io) ++ cs "\n"), []⟩
  | readers : EndText io nm (.R (cs "list")) ⟨readerList io, []⟩
  | reader {a : List UInt8} : a ≠ cs "list" → EndText io nm (.R a) ⟨readerList io, cs "No image reader \"" ++ a ++ cs "\", use one of:\n"⟩
  | offset {a : List UInt8} : EndText io nm (.o a) ⟨[], cs "Invalid offset " ++ a ++ cs "\n"⟩
  | count {a : List UInt8} : EndText io nm (.n a) ⟨[], cs "Invalid nframes " ++ a ++ cs "\n"⟩
  | unknown {err : List UInt8} : (∃ rest, err = cs "Usage: " ++ nm.self ++ rest) → EndText io nm .bad ⟨[], err⟩

/-- The complaint about arguments that cannot be used; the first of these is reported. -/
inductive Complaint (c : Cfg) (v : CliEnv) (opts : List CliOpt) (input : List UInt8) : List UInt8 → Prop where
  | method {a : List UInt8} : last CliOpt.mArg opts = some a → (∀ m, ¬ WantsMethod opts m) →
      Complaint c v opts input (cs "Invalid method \"" ++ a ++ cs "\"\nAvailable methods:\nsign\nmag\norig\nzerox\n")
  | threshold {a : List UInt8} : (∃ m, WantsMethod opts m) → last CliOpt.xArg opts = some a → (∀ t, ¬ WantsThreshold v opts t) →
      Complaint c v opts input (cs "Invalid threshold value " ++ a ++ cs "\n")
  | range {a : List UInt8} : (∃ m, WantsMethod opts m) → (∃ t, WantsThreshold v opts t) → last CliOpt.rangeArg opts = some a →
      (∀ r, ¬ WantsRange c opts r) → Complaint c v opts input (cs "Invalid range value " ++ a ++ cs "\n")
  | filter {a : List UInt8} : (∃ m, WantsMethod opts m) → (∃ t, WantsThreshold v opts t) → (∃ r, WantsRange c opts r) →
      last CliOpt.fArg opts = some a → (∀ k, ¬ WantsFilter c opts input k) → Complaint c v opts input (cs "Invalid filter value " ++ a ++ cs "\n")
  | both : (∃ m, WantsMethod opts m) → (∃ t, WantsThreshold v opts t) → (∃ r, WantsRange c opts r) → (∃ k, WantsFilter c opts input k) →
      last CliOpt.tArg opts ≠ none → last CliOpt.rArg opts ≠ none →
      Complaint c v opts input (cs "Type option (-t) cannot be used with an image reader (-R)")

/-- A line of `out`, but not the first, starts with `t`. -/
def LineStarts (t out : List UInt8) : Prop := ∃ a b, out = a ++ cs "\n" ++ t ++ b

end Verif.Spec
