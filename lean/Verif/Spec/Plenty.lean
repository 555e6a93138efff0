import Verif.Base.Mem

namespace Verif

/-- No allocation from here on fails. -/
def Plenty (w : World) : Prop := ∀ j, w.sched j = true

end Verif
