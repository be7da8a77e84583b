import Verif.SpecSame
import Verif.SpecLedger

/-!
# Vocabulary for the accessors that hand out `&mut V`

The trait has five accessors with a shared and a `_mut` version each (src/lib.rs:64-82, :91-136).
-/

set_option autoImplicit false

namespace Veb

/-- one of the five accessors, with its key argument -/
inductive Accessor (K : Type) where
  | find (k : K)
  | predecessor (k : K)
  | successor (k : K)
  | minVal
  | maxVal
  deriving DecidableEq, Repr

variable {T K V : Type} [VebTree T K V]

/-- the shared version -/
def Accessor.get (t : T) : Accessor K → R (Option (K × V))
  | .find k => VebTree.find t k
  | .predecessor k => VebTree.predecessor t k
  | .successor k => VebTree.successor t k
  | .minVal => (VebTree.minVal t).map some
  | .maxVal => (VebTree.maxVal t).map some

/-- the `_mut` version: key, value, and the tree after writing a value through the reference -/
def Accessor.getMut (t : T) : Accessor K → R (Option (K × V × (V → T)))
  | .find k => VebTree.findMut t k
  | .predecessor k => VebTree.predecessorMut t k
  | .successor k => VebTree.successorMut t k
  | .minVal => (VebTree.minValMut t).map some
  | .maxVal => (VebTree.maxValMut t).map some

/-- the history given to a tree already there -/
def outputsFrom (t : T) (ops : List (Op K V)) : R (List (Out K V)) := (Exec.run (some t) ops).map Prod.snd

end Veb
