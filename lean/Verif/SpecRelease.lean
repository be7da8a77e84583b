import Verif.Model.IterRelease

/-!
# Vocabulary for iterators in a release build
-/

set_option autoImplicit false

namespace Veb.Iter
variable {T K V : Type} [LinearOrder K] [VebTree T K V]

/-- One call of `next` or `next_back`. -/
def callRel (it : Iter T K) : Side → R (Iter T K × Option (K × V))
  | .front => it.nextRel
  | .back => it.nextBackRel

/-- A sequence of calls: the iterator afterwards and the items returned. -/
def callsRel (it : Iter T K) : List Side → R (Iter T K × List (Option (K × V)))
  | [] => pure (it, [])
  | s :: ss => do
    let (it, o) ← it.callRel s
    let (it, os) ← it.callsRel ss
    pure (it, o :: os)

end Veb.Iter
