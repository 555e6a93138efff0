import Verif.Model.Layout
import Verif.Spec.Tools
import Verif.Spec.Demo

/-! # What lies in memory where

The usual platforms: `size_t` and pointers have 4 or 8 bytes, and every type is aligned to its size.
-/

namespace Verif.Spec

/-- The platforms considered. -/
def Usual (a : Abi) : Prop := (a.size = 4 ∨ a.size = 8) ∧ (a.ptr = 4 ∨ a.ptr = 8)

/-- The `n` bytes from `p` on are those of the number `v`. -/
def HoldsNat (m : Mem) (little : Bool) (p n v : ℕ) : Prop :=
  v < 256 ^ n ∧ ∀ i < n, m (p + i) = some (v / 256 ^ (if little then i else n - 1 - i)).toUInt8

/-- The four bytes from `p` on are those of a `float`; NaNs have several representations. -/
def HoldsFloat (m : Mem) (little : Bool) (p : ℕ) (x : Fl) : Prop := ∃ n, floatOfBits n = x ∧ HoldsNat m little p 4 n

/-- The string at `p`, ended by a null byte. -/
def HoldsString (m : Mem) (p : ℕ) (s : List UInt8) : Prop := (0 : UInt8) ∉ s ∧ ∀ i, ∀ b, (s ++ [0])[i]? = some b → m (p + i) = some b

/-- An array of `RDResolution` (resdet.h:37-40) at `p`: `index` comes first, `confidence` behind it, and a structure takes as much space as
two `size_t`. -/
def HoldsResolutions (m : Mem) (a : Abi) (p : ℕ) (l : List Res) : Prop :=
  ∀ i, ∀ r, l[i]? = some r → HoldsNat m a.little (p + i * (2 * a.size)) a.size r.index ∧
    HoldsFloat m a.little (p + i * (2 * a.size) + a.size) r.confidence

/-- An array of `RDMethod` (resdet.h:42-46) at `p`, ended by a NULL name: two pointers, the first to the name, then the threshold; a
structure takes as much space as three pointers. -/
def HoldsMethods (m : Mem) (a : Abi) (p : ℕ) (l : List Method) : Prop :=
  (∀ i, ∀ x, l[i]? = some x → HoldsFloat m a.little (p + i * (3 * a.ptr) + 2 * a.ptr) x.threshold ∧
    ∃ q, q ≠ 0 ∧ HoldsNat m a.little (p + i * (3 * a.ptr)) a.ptr q ∧ HoldsString m q (cs x.name)) ∧
  HoldsNat m a.little (p + l.length * (3 * a.ptr)) a.ptr 0

/-- An array of strings at `p`, ended by NULL. -/
def HoldsStrings (m : Mem) (a : Abi) (p : ℕ) (l : List (List UInt8)) : Prop :=
  (∀ i, ∀ s, l[i]? = some s → ∃ q, q ≠ 0 ∧ HoldsNat m a.little (p + i * a.ptr) a.ptr q ∧ HoldsString m q s) ∧
  HoldsNat m a.little (p + l.length * a.ptr) a.ptr 0

/-- WebAssembly. -/
def wasm32 : Abi := ⟨4, 4, true⟩

end Verif.Spec
