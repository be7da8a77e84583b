import Verif.Model.Tick
import Verif.Model.Iter

/-!
The iterator of src/iter.rs once more, with the log of `Verif.Model.Tick`: the tree methods it calls log what they do, and
the two keys that are compared when both ends are in use log a comparison.  The code is the one of `Verif.Model.Iter`;
`C72_faithful` proves that forgetting the log gives it back.  Cloning and dereferencing of keys is not logged.
-/

set_option autoImplicit false

namespace Veb
open Tk (ev)

namespace Iter
variable {T K V : Type} [VebTree T K V] [TickTree T K V] [DecidableEq K]

/-- `Iterator::next`, src/iter.rs:42-107 -/
def nextT (it : Iter T K) : Tk (Iter T K × Option (K × V)) := do
  match it.data with
  | none => it.stop
  | some .start =>
    let (prevKey, val) ← TickTree.minVal it.tree
    it.emit (.front prevKey) (prevKey, val)
  | some (.front prevKey) =>
    match (← TickTree.successor it.tree prevKey) with
    | some (prevKey, val) => it.emit (.front prevKey) (prevKey, val)
    | none => it.stop
  | some (.back backKey) =>
    let (frontKey, val) ← TickTree.minVal it.tree
    ev .cmp
    if frontKey = backKey then it.stop
    else it.emit (.both frontKey backKey) (frontKey, val)
  | some (.both frontKey backKey) =>
    match (← TickTree.successor it.tree frontKey) with
    | some (frontKey, val) =>
      ev .cmp
      if frontKey = backKey then it.stop
      else it.emit (.both frontKey backKey) (frontKey, val)
    | none =>
      debugAssert false
      it.stop

/-- `DoubleEndedIterator::next_back`, src/iter.rs:129-194 -/
def nextBackT (it : Iter T K) : Tk (Iter T K × Option (K × V)) := do
  match it.data with
  | none => it.stop
  | some .start =>
    let (prevKey, val) ← TickTree.maxVal it.tree
    it.emit (.back prevKey) (prevKey, val)
  | some (.back prevKey) =>
    match (← TickTree.predecessor it.tree prevKey) with
    | some (prevKey, val) => it.emit (.back prevKey) (prevKey, val)
    | none => it.stop
  | some (.front frontKey) =>
    let (backKey, val) ← TickTree.maxVal it.tree
    ev .cmp
    if frontKey = backKey then it.stop
    else it.emit (.both frontKey backKey) (backKey, val)
  | some (.both frontKey backKey) =>
    match (← TickTree.predecessor it.tree backKey) with
    | some (backKey, val) =>
      ev .cmp
      if frontKey = backKey then it.stop
      else it.emit (.both frontKey backKey) (backKey, val)
    | none =>
      debugAssert false
      it.stop

/-- `Iterator::size_hint`, src/iter.rs:109-122 -/
def sizeHintT (it : Iter T K) : Tk (Nat × Option Nat) := do
  match it.data with
  | none => pure (0, some 0)
  | some _ =>
    let (min, max) ← TickTree.lenHint it.tree
    match max with
    | none => pure (min - it.emitted, none)
    | some max => pure (min - it.emitted, some (← subUsize max it.emitted))

end Iter
end Veb
