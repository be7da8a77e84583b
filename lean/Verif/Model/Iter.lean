import Verif.Model.Trait
import Mathlib.Order.Defs.LinearOrder

/-!
The iterator, src/iter.rs.
-/

namespace Veb

/-- `enum IterData`, src/iter.rs:11-26 (the tree reference is kept in `Iter`, it is the same in all states) -/
inductive IterData (K : Type) where
  | start
  | front (prevKey : K)
  | back (prevKey : K)
  | both (frontKey backKey : K)
  deriving DecidableEq, Repr

/-- `struct Iter`, src/iter.rs:6-9, with the shared tree reference factored out. -/
structure Iter (T K : Type) where
  tree : T
  data : Option (IterData K)
  emitted : Nat

namespace Iter
variable {T K V : Type} [VebTree T K V]

/-- `From<&V> for Iter`, src/iter.rs:28-35 -/
def new (t : T) : Iter T K := ⟨t, some .start, 0⟩

variable [DecidableEq K]

/-- The tail of `next`/`next_back`, src/iter.rs:105-106, 192-193: count the item and return it. -/
def emit (it : Iter T K) (d : IterData K) (kv : K × V) : R (Iter T K × Option (K × V)) := do
  pure (⟨it.tree, some d, ← addUsize it.emitted 1⟩, some kv)

/-- The early returns: `self.data = None; return None`. -/
def stop (it : Iter T K) : R (Iter T K × Option (K × V)) := pure (⟨it.tree, none, it.emitted⟩, none)

/-- `Iterator::next`, src/iter.rs:42-107 -/
def next (it : Iter T K) : R (Iter T K × Option (K × V)) := do
  match it.data with
  | none => it.stop
  | some .start =>
    let (prevKey, val) ← VebTree.minVal it.tree
    it.emit (.front prevKey) (prevKey, val)
  | some (.front prevKey) =>
    match (← VebTree.successor it.tree prevKey) with
    | some (prevKey, val) => it.emit (.front prevKey) (prevKey, val)
    | none => it.stop
  | some (.back backKey) =>
    let (frontKey, val) ← VebTree.minVal it.tree
    if frontKey = backKey then it.stop
    else it.emit (.both frontKey backKey) (frontKey, val)
  | some (.both frontKey backKey) =>
    match (← VebTree.successor it.tree frontKey) with
    | some (frontKey, val) =>
      if frontKey = backKey then it.stop
      else it.emit (.both frontKey backKey) (frontKey, val)
    | none =>
      debugAssert false
      it.stop

/-- `DoubleEndedIterator::next_back`, src/iter.rs:129-194 -/
def nextBack (it : Iter T K) : R (Iter T K × Option (K × V)) := do
  match it.data with
  | none => it.stop
  | some .start =>
    let (prevKey, val) ← VebTree.maxVal it.tree
    it.emit (.back prevKey) (prevKey, val)
  | some (.back prevKey) =>
    match (← VebTree.predecessor it.tree prevKey) with
    | some (prevKey, val) => it.emit (.back prevKey) (prevKey, val)
    | none => it.stop
  | some (.front frontKey) =>
    let (backKey, val) ← VebTree.maxVal it.tree
    if frontKey = backKey then it.stop
    else it.emit (.both frontKey backKey) (backKey, val)
  | some (.both frontKey backKey) =>
    match (← VebTree.predecessor it.tree backKey) with
    | some (backKey, val) =>
      if frontKey = backKey then it.stop
      else it.emit (.both frontKey backKey) (backKey, val)
    | none =>
      debugAssert false
      it.stop

/-- `Iterator::size_hint`, src/iter.rs:109-122 -/
def sizeHint (it : Iter T K) : R (Nat × Option Nat) := do
  match it.data with
  | none => pure (0, some 0)
  | some _ =>
    let (min, max) ← VebTree.lenHint it.tree
    match max with
    | none => pure (min - it.emitted, none)
    | some max => pure (min - it.emitted, some (← subUsize max it.emitted))

end Iter
end Veb
