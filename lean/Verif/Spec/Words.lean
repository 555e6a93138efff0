import Verif.Spec.Cli
import Mathlib.Data.Rat.Floor

/-!
# How a command line is written, and what its options are documented to accept
-/

namespace Verif.Spec

/-- The options with an argument. -/
def valued : List (Char × (List UInt8 → CliOpt)) :=
  [('m', .m), ('v', .v), ('t', .t), ('R', .R), ('r', .r), ('x', .x), ('f', .f), ('o', .o), ('n', .n)]

/-- The options without one. -/
def switches : List (Char × CliOpt) := [('h', .h), ('V', .V), ('p', .p)]

/-- A letter that stands for an option without an argument, or for none. -/
inductive Letter : UInt8 → CliOpt → Prop where
  | switch {c : Char} {o : CliOpt} : (c, o) ∈ switches → Letter (ch c) o
  | unknown {b : UInt8} : (∀ c o, (c, o) ∈ switches → b ≠ ch c) → (∀ c f, (c, f) ∈ valued → b ≠ ch c) → Letter b .bad

/-- Letters side by side. -/
inductive Letters : List UInt8 → List CliOpt → Prop where
  | nil : Letters [] []
  | cons {b : UInt8} {o : CliOpt} {t : List UInt8} {os : List CliOpt} : Letter b o → Letters t os → Letters (b :: t) (o :: os)

/-- Words that give options: `-pV`, `-v0`, `-v 0`, also `-pv0` and `-pv 0`. -/
inductive Phrase : List (List UInt8) → List CliOpt → Prop where
  | switches {t : List UInt8} {os : List CliOpt} : Letters t os → t ≠ [] → t ≠ [ch '-'] → Phrase [ch '-' :: t] os
  | joined {t a : List UInt8} {os : List CliOpt} {c : Char} {f : List UInt8 → CliOpt} : Letters t os → (c, f) ∈ valued → a ≠ [] →
    Phrase [ch '-' :: (t ++ ch c :: a)] (os ++ [f a])
  | separate {t a : List UInt8} {os : List CliOpt} {c : Char} {f : List UInt8 → CliOpt} : Letters t os → (c, f) ∈ valued →
    Phrase [ch '-' :: (t ++ [ch c]), a] (os ++ [f a])

/-- A word that is not for options. -/
def Operand (w : List UInt8) : Prop := w.head? ≠ some (ch '-') ∨ w = [ch '-']

/-- A command line with its options and operands.  `anywhere`: options may follow operands. -/
inductive CommandLine (anywhere : Bool) : List (List UInt8) → List CliOpt → List (List UInt8) → Prop where
  | nil : CommandLine anywhere [] [] []
  | phrase {ws words operands : List (List UInt8)} {os opts : List CliOpt} : Phrase ws os → CommandLine anywhere words opts operands →
    CommandLine anywhere (ws ++ words) (os ++ opts) operands
  | dashes {words : List (List UInt8)} : CommandLine anywhere (cs "--" :: words) [] words
  /-- the argument is missing -/
  | missing {t : List UInt8} {os : List CliOpt} {c : Char} {f : List UInt8 → CliOpt} : Letters t os → (c, f) ∈ valued →
    CommandLine anywhere [ch '-' :: (t ++ [ch c])] (os ++ [.bad]) []
  | operand {w : List UInt8} {words operands : List (List UInt8)} {opts : List CliOpt} : anywhere = true → Operand w →
    CommandLine anywhere words opts operands → CommandLine anywhere (w :: words) opts (w :: operands)
  | rest {w : List UInt8} {words : List (List UInt8)} : anywhere = false → Operand w → CommandLine anywhere (w :: words) [] (w :: words)

/-- Ratio notation without exponent: digits, or digits, a point and digits. -/
inductive Ratio : ℚ → List UInt8 → Prop where
  | whole {n : ℕ} {t : List UInt8} : Numeral n t → Ratio n t
  | point {n k : ℕ} {t f : List UInt8} : Numeral n t → Numeral k f → Ratio (n + k / 10 ^ f.length) (t ++ ch '.' :: f)

/-- `strtod` rounds decimal numbers correctly. -/
def ReadsDecimals (v : CliEnv) : Prop := ∀ q t, Ratio q t → v.strtod t = some (binary64.deliver false q)

/-- What the help text says each option accepts. -/
inductive Documented (c : Cfg) (io : Io) : CliOpt → Prop where
  | verbosity {a : List UInt8} : a ∈ [cs "-1", cs "0", cs "1", cs "2", cs "3"] → Documented c io (.v a)
  | method {m : Method} : m ∈ methods → Documented c io (.m (cs m.name))
  | type {a : List UInt8} : Documented c io (.t a)
  | reader {a : List UInt8} : NamesReader io a → Documented c io (.R a)
  | threshold {a : List UInt8} {q : ℚ} : Ratio q a → q ≤ 100 → Documented c io (.x a)
  | range {a : List UInt8} {k : ℕ} : Numeral k a → 1 ≤ k → k ≤ c.sizeMax → k < 2 ^ 64 → Documented c io (.r a)
  | filter {a : List UInt8} {k : ℕ} : Numeral k a → k ≤ 31 → Documented c io (.f a)
  | auto : Documented c io (.f (cs "auto"))
  | offset {a : List UInt8} {k : ℕ} : Numeral k a → k < 2 ^ 64 → Documented c io (.o a)
  | count {a : List UInt8} {k : ℕ} : Numeral k a → 1 ≤ k → k < 2 ^ 64 → Documented c io (.n a)
  | progress : Documented c io .p

/-- The options are taken at their word; of an option given several times the last one counts. -/
structure AtTheirWord (c : Cfg) (opts : List CliOpt) (input : List UInt8) (m : Method) (p : Params) (vb : ℤ) (offset : ℕ) (count : Option ℕ) : Prop where
  verbosity : (last CliOpt.vArg opts = none ∨ last CliOpt.vArg opts = some (cs "-1")) ∧ vb = -1 ∨
    0 ≤ vb ∧ ∃ a, last CliOpt.vArg opts = some a ∧ Numeral vb.toNat a
  method : last CliOpt.mArg opts = none ∧ methods.head? = some m ∨ m ∈ methods ∧ last CliOpt.mArg opts = some (cs m.name)
  /-- -1 makes the library use the threshold of the method -/
  threshold : last CliOpt.xArg opts = none ∧ p.threshold = .fin true (-1) ∨
    ∃ a q t, last CliOpt.xArg opts = some a ∧ Ratio q a ∧ p.threshold = .fin false t ∧ |t - q / 100| ≤ 1 / 2 ^ 23
  range : last CliOpt.rangeArg opts = none ∧ p.range = c.defaultRange ∨ ∃ a, last CliOpt.rangeArg opts = some a ∧ Numeral p.range a
  filter : last CliOpt.fArg opts = none ∧ p.compressionFilter = 0 ∨ last CliOpt.fArg opts = some (cs "auto") ∧ AutoFilter input p.compressionFilter ∨
    ∃ a, last CliOpt.fArg opts = some a ∧ Numeral p.compressionFilter a
  offset : last CliOpt.oArg opts = none ∧ offset = 0 ∨ ∃ a, last CliOpt.oArg opts = some a ∧ Numeral offset a
  count : last CliOpt.nArg opts = none ∧ count = none ∨ ∃ a n, last CliOpt.nArg opts = some a ∧ Numeral n a ∧ count = some n

/-- Something is wrong with the options: an unknown letter, a missing argument, an argument without a number where one is needed, a number out of
bounds, an unknown name, or two options that exclude each other. -/
inductive Wrong (io : Io) (v : CliEnv) (opts : List CliOpt) : Prop where
  | letter : CliOpt.bad ∈ opts → Wrong io v opts
  | offset {a : List UInt8} : CliOpt.o a ∈ opts → (∀ neg n, ¬ Number a neg n) → Wrong io v opts
  | count {a : List UInt8} : CliOpt.n a ∈ opts → (∀ neg n, Number a neg n → n = 0) → Wrong io v opts
  | reader {a : List UInt8} : (opts.filterMap CliOpt.rArg).head? = some a → ¬ NamesReader io a → Wrong io v opts
  | method {a : List UInt8} : last CliOpt.mArg opts = some a → (∀ m ∈ methods, a ≠ cs m.name) → Wrong io v opts
  | noThreshold {a : List UInt8} : last CliOpt.xArg opts = some a → v.strtod a = none → Wrong io v opts
  | threshold {a : List UInt8} {d : Fl} : last CliOpt.xArg opts = some a → v.strtod a = some d →
    ¬ InUnit (binary32.conv (binary64.div d (binary64.ofNat 100))) → Wrong io v opts
  | range {a : List UInt8} : last CliOpt.rangeArg opts = some a → (∀ neg n, Number a neg n → n = 0) → Wrong io v opts
  | filter {a : List UInt8} : last CliOpt.fArg opts = some a → a ≠ cs "auto" → (∀ neg n, Number a neg n → neg = false ∧ 31 < n) → Wrong io v opts
  | both {a b : List UInt8} : last CliOpt.tArg opts = some a → last CliOpt.rArg opts = some b → Wrong io v opts

end Verif.Spec
