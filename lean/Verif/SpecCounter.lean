import Verif.Model.CounterPtr
import Verif.SpecIter

/-!
# Calls of the iterator on a target
-/

set_option autoImplicit false

namespace Veb.Iter
variable {T K V : Type} [LinearOrder K] [VebTree T K V]

/-- One call of `next` or `next_back` on the target `P`. -/
def callOn (P : Ptr) (it : Iter T K) : Side → R (Iter T K × Option (K × V))
  | .front => it.nextOn P
  | .back => it.nextBackOn P

/-- A sequence of calls: the iterator afterwards and the items returned. -/
def callsOn (P : Ptr) (it : Iter T K) : List Side → R (Iter T K × List (Option (K × V)))
  | [] => pure (it, [])
  | s :: ss => do
    let (it, o) ← it.callOn P s
    let (it, os) ← it.callsOn P ss
    pure (it, o :: os)

end Veb.Iter
