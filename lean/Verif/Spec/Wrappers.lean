import Verif.Model.Bindings
import Verif.Spec.DemoFiles

/-! # What the wrappers of the bindings should hand out -/

namespace Verif.Spec

/-- The outcome of a library function seen from another language: the two lists, or an exception made from the error code. -/
def answer (v : RDError × Out) : Raises (List Res × List Res) :=
  if v.1 = RDEOK then .ok ((v.2.rw.map Buf.data).getD [], (v.2.rh.map Buf.data).getD []) else .raised (some v.1)

end Verif.Spec

namespace Verif.Demo

/-- Conversion of numbers by dropping the fraction. -/
def conv : JsConv where
  size := fun x => match x with
    | .fin _ q => if 0 ≤ q.num / q.den ∧ q.num / q.den ≤ sys.cfg.sizeMax then (q.num / q.den).toNat else 0
    | _ => 0
  float := binary32.conv
  byte := fun x => match x with
    | .fin _ q => (q.num / q.den).toNat
    | _ => 0

theorem conv_size (x : Fl) : conv.size x ≤ sys.cfg.sizeMax := by
  cases x with
  | fin s q =>
    simp only [conv]
    split
    · omega
    · exact Nat.zero_le _
  | inf s => exact Nat.zero_le _
  | nan s => exact Nat.zero_le _

/-- Range 1 and threshold 0, as an object of either language. -/
def dict : PyDict := { range := some 1, threshold := some (.fin false 0) }

def obj : JsObject := { range := some (.fin false 1), threshold := some (.fin false 0) }

/-- What is found in the 4 by 2 frame with these parameters. -/
def found : Raises (List Res × List Res) :=
  .ok ([⟨2, .fin false (1/2)⟩, ⟨1, .fin false 0⟩, ⟨4, .fin true (-1)⟩], [⟨2, .fin true (-1)⟩])

end Verif.Demo
