import Verif.SpecIter

/-!
The iterator of src/iter.rs as compiled without debug assertions and overflow checks (the release profile).

Two things differ from `Model/Iter.lean`: `debug_assert!(false)` is nothing, and `+`, `-` on `usize` wrap around.  The
tree methods that the iterator calls are those of the debug model: their assertions never fail (C25).
-/

namespace Veb.Iter
variable {T K V : Type} [VebTree T K V]

/-- `self.emitted += 1; Some(v)`, src/iter.rs:105-106, 192-193, wrapping -/
def emitRel (it : Iter T K) (d : IterData K) (kv : K × V) : R (Iter T K × Option (K × V)) :=
  pure (⟨it.tree, some d, (it.emitted + 1) % (usizeMax + 1)⟩, some kv)

variable [DecidableEq K]

/-- `Iterator::next`, src/iter.rs:42-107 -/
def nextRel (it : Iter T K) : R (Iter T K × Option (K × V)) := do
  match it.data with
  | none => it.stop
  | some .start =>
    let (prevKey, val) ← VebTree.minVal it.tree
    it.emitRel (.front prevKey) (prevKey, val)
  | some (.front prevKey) =>
    match (← VebTree.successor it.tree prevKey) with
    | some (prevKey, val) => it.emitRel (.front prevKey) (prevKey, val)
    | none => it.stop
  | some (.back backKey) =>
    let (frontKey, val) ← VebTree.minVal it.tree
    if frontKey = backKey then it.stop
    else it.emitRel (.both frontKey backKey) (frontKey, val)
  | some (.both frontKey backKey) =>
    match (← VebTree.successor it.tree frontKey) with
    | some (frontKey, val) =>
      if frontKey = backKey then it.stop
      else it.emitRel (.both frontKey backKey) (frontKey, val)
    | none => it.stop

/-- `DoubleEndedIterator::next_back`, src/iter.rs:129-194 -/
def nextBackRel (it : Iter T K) : R (Iter T K × Option (K × V)) := do
  match it.data with
  | none => it.stop
  | some .start =>
    let (prevKey, val) ← VebTree.maxVal it.tree
    it.emitRel (.back prevKey) (prevKey, val)
  | some (.back prevKey) =>
    match (← VebTree.predecessor it.tree prevKey) with
    | some (prevKey, val) => it.emitRel (.back prevKey) (prevKey, val)
    | none => it.stop
  | some (.front frontKey) =>
    let (backKey, val) ← VebTree.maxVal it.tree
    if frontKey = backKey then it.stop
    else it.emitRel (.both frontKey backKey) (backKey, val)
  | some (.both frontKey backKey) =>
    match (← VebTree.predecessor it.tree backKey) with
    | some (backKey, val) =>
      if frontKey = backKey then it.stop
      else it.emitRel (.both frontKey backKey) (backKey, val)
    | none => it.stop

/-- `Iterator::size_hint`, src/iter.rs:109-122; `max - self.emitted` wraps -/
def sizeHintRel (it : Iter T K) : R (Nat × Option Nat) := do
  match it.data with
  | none => pure (0, some 0)
  | some _ =>
    let (min, max) ← VebTree.lenHint it.tree
    pure (min - it.emitted, max.map fun max => (max + (usizeMax + 1) - it.emitted) % (usizeMax + 1))

end Veb.Iter
