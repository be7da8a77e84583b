import Verif.SpecIter
import Verif.SpecCost
import Verif.Model.TickIter

/-!
# Vocabulary for what iteration costs
-/

set_option autoImplicit false

namespace Veb.Iter
variable {T K V : Type} [LinearOrder K] [VebTree T K V] [TickTree T K V]

/-- One call of `next` or `next_back`, with the log. -/
def callT (it : Iter T K) : Side → Tk (Iter T K × Option (K × V))
  | .front => it.nextT
  | .back => it.nextBackT

/-- A sequence of calls, with the log: the iterator afterwards and the items returned. -/
def callsT (it : Iter T K) : List Side → Tk (Iter T K × List (Option (K × V)))
  | [] => pure (it, [])
  | s :: ss => do
    let (it, o) ← it.callT s
    let (it, os) ← it.callsT ss
    pure (it, o :: os)

/-- How many of the answers are entries. -/
def items {α : Type} (os : List (Option α)) : Nat := os.countP Option.isSome

end Veb.Iter
