import Verif.Model.Configure
import Verif.Spec.Basic

/-! # Notions used to state what the options of a build do -/

namespace Verif.Spec

/-- A host with 64 bit `size_t` and 32 bit `int`. -/
structure Wide (p : Platform) : Prop where
  size : p.sizeMax = 2 ^ 64 - 1
  int : p.intMax = 2 ^ 31 - 1
  int_long : p.intMax ≤ p.longMax
  fast32 : 2 ^ 32 - 1 ≤ p.fast32Max
  long_wf : p.long.WF
  long_p : 53 ≤ p.long.p
  long_room : 2 * (p.long.p : ℤ) < p.long.emax
  long_size : 8 ≤ p.szLong ∧ p.szLong ≤ 16
  ptr : p.szPtr ≤ 8
  res : 0 < p.szRes ∧ p.szRes ≤ 16
  size_macro : p.macros "SIZE_MAX" = some p.sizeMax
  macros_le : ∀ s n, p.macros s = some n → n ≤ 2 ^ 64 - 1

/-- A host with 32 bit `size_t` and `int`, such as WebAssembly. -/
structure Narrow (p : Platform) : Prop where
  size : p.sizeMax = 2 ^ 32 - 1
  int : p.intMax = 2 ^ 31 - 1
  int_long : p.intMax ≤ p.longMax
  fast32 : 2 ^ 32 - 1 ≤ p.fast32Max
  long_wf : p.long.WF
  long_size : 8 ≤ p.szLong
  ptr : p.szPtr ≤ 4
  res : 0 < p.szRes ∧ p.szRes ≤ 8
  size_macro : p.macros "SIZE_MAX" = some p.sizeMax

/-- The format of `float`, `double` and `long double` on a host. -/
def formatOf (p : Platform) : Prec → Fmt
  | .f => binary32
  | .d => binary64
  | .l => p.long

/-- The size of `float`, `double` and `long double`. -/
def sizeIn (p : Platform) : Prec → ℕ
  | .f => 4
  | .d => 8
  | .l => p.szLong

/-- The values the documentation gives for a precision; `default` is the type if the option is left out. -/
inductive Asks (default : Prec) : Option Token → Prec → Prop where
  | unset : Asks default none default
  | f : Asks default (some (.name "F")) .f
  | d : Asks default (some (.name "D")) .d
  | l : Asks default (some (.name "L")) .l

/-- The values the documentation gives for a limit: a positive number; `default` if the option is left out. -/
inductive Limit (default : ℕ) : Option Token → ℕ → Prop where
  | unset : Limit default none default
  | number {n : UInt64} : 0 < n.toNat → Limit default (some (.number n)) n.toNat

/-- The more precise of two types. -/
def finer : Prec → Prec → Prec
  | .l, _ => .l
  | _, .l => .l
  | .d, _ => .d
  | _, .d => .d
  | .f, .f => .f

/-- A name that means nothing to the build: not `F`, `D` or `L`, and no macro. -/
def Unknown (p : Platform) (s : String) : Prop := s ≠ "F" ∧ s ≠ "D" ∧ s ≠ "L" ∧ p.macros s = none

end Verif.Spec
