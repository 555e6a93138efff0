import Verif.Model.Bindings
import Verif.Spec.Basic

/-! # Dictionaries of the bindings and the parameters they stand for -/

namespace Verif.Spec

/-- The library accepts every value in the dictionary. -/
structure Sane (c : Cfg) (d : PyDict) : Prop where
  range : ∀ n, d.range = some n → 1 ≤ n ∧ n ≤ c.sizeMax
  threshold : ∀ t, d.threshold = some t → InUnit (binary32.conv t)
  filter : ∀ n, d.compressionFilter = some n → 0 ≤ n ∧ n ≤ 31

/-- The library accepts every value in the object. -/
structure SaneJs (v : JsConv) (d : JsObject) : Prop where
  range : ∀ n, d.range = some n → 1 ≤ v.size n
  threshold : ∀ t, d.threshold = some t → InUnit (v.float t)
  filter : ∀ n, d.compressionFilter = some n → v.byte n ≤ 31

/-- The parameters a dictionary of sane values stands for. -/
def PyMeans (c : Cfg) (d : PyDict) (p : Option Params) : Prop :=
  (d = {} ∧ p = none) ∨ (d ≠ {} ∧ ∃ q, p = some q ∧ (q.range : ℤ) = d.range.getD c.defaultRange ∧
    q.threshold = (d.threshold.map binary32.conv).getD (.fin true (-1)) ∧ (q.compressionFilter : ℤ) = d.compressionFilter.getD 0)

@[inherit_doc PyMeans]
def JsMeans (c : Cfg) (v : JsConv) (d : JsObject) (p : Option Params) : Prop :=
  (d = {} ∧ p = none) ∨ (d ≠ {} ∧ ∃ q, p = some q ∧ q.range = (d.range.map v.size).getD c.defaultRange ∧
    q.threshold = (d.threshold.map v.float).getD (.fin true (-1)) ∧ q.compressionFilter = (d.compressionFilter.map v.byte).getD 0)

end Verif.Spec
