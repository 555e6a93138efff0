import Verif.Spec.History

/-! # Calls that return the same but for the widths -/

namespace Verif.Spec

/-- The same error, the same list of heights, and a list of widths in both or in none. -/
def SameHeights : Obs → Obs → Prop
  | .analyzed e, .analyzed e' => e = e'
  | .results e rw _ rh ch, .results e' rw' _ rh' ch' => e = e' ∧ rw.isSome = rw'.isSome ∧ rh = rh' ∧ ch = ch'
  | _, _ => False

end Verif.Spec
