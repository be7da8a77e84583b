import Verif.Model.Act
import Verif.Model.Iter

/-!
The iterator of src/iter.rs over code of the user that has a state, as in `Verif.Model.Act`.  Beside the code that the tree
calls it calls `PartialEq` and `Clone` of keys.
-/

set_option autoImplicit false

namespace Veb

/-- The code of a key type that `Iter` calls.  `clone` is `MaybeBorrowed::clone` (src/key.rs:27): nothing happens if the key
is borrowed, and `Clone` of the key is called if it is owned.  Keys do not say here which they are, so an action that can do
either stands for both. -/
class ActIterKey (σ K : Type) where
  eq : K → K → Act σ Bool
  clone : K → Act σ K

namespace Iter
variable {σ T K V : Type} [ActTree σ T K V] [ActIterKey σ K]

/-- The `match` of `next`, src/iter.rs:44-104: what `self.data` becomes and what is returned, or the early return. -/
def frontA (it : Iter T K) : Act σ (Option (IterData K × (K × V))) := do
  match it.data with
  | none => pure none
  | some .start =>
    let (prevKey, val) ← ActTree.minVal it.tree
    pure (some (.front (← ActIterKey.clone prevKey), (prevKey, val)))
  | some (.front prevKey) =>
    match (← ActTree.successor it.tree prevKey) with
    | some (prevKey, val) => pure (some (.front (← ActIterKey.clone prevKey), (prevKey, val)))
    | none => pure none
  | some (.back backKey) =>
    let (frontKey, val) ← ActTree.minVal it.tree
    if (← ActIterKey.eq frontKey backKey) then pure none
    else pure (some (.both (← ActIterKey.clone frontKey) backKey, (frontKey, val)))
  | some (.both frontKey backKey) =>
    match (← ActTree.successor it.tree frontKey) with
    | some (frontKey, val) =>
      if (← ActIterKey.eq frontKey backKey) then pure none
      else pure (some (.both (← ActIterKey.clone frontKey) backKey, (frontKey, val)))
    | none =>
      debugAssert false
      pure none

/-- The `match` of `next_back`, src/iter.rs:131-191. -/
def backA (it : Iter T K) : Act σ (Option (IterData K × (K × V))) := do
  match it.data with
  | none => pure none
  | some .start =>
    let (prevKey, val) ← ActTree.maxVal it.tree
    pure (some (.back (← ActIterKey.clone prevKey), (prevKey, val)))
  | some (.back prevKey) =>
    match (← ActTree.predecessor it.tree prevKey) with
    | some (prevKey, val) => pure (some (.back (← ActIterKey.clone prevKey), (prevKey, val)))
    | none => pure none
  | some (.front frontKey) =>
    let (backKey, val) ← ActTree.maxVal it.tree
    if (← ActIterKey.eq frontKey backKey) then pure none
    else pure (some (.both frontKey (← ActIterKey.clone backKey), (backKey, val)))
  | some (.both frontKey backKey) =>
    match (← ActTree.predecessor it.tree backKey) with
    | some (backKey, val) =>
      if (← ActIterKey.eq frontKey backKey) then pure none
      else pure (some (.both frontKey (← ActIterKey.clone backKey), (backKey, val)))
    | none =>
      debugAssert false
      pure none

/-- What follows the `match`, src/iter.rs:105-106 and 192-193. -/
def finishA (it : Iter T K) : Option (IterData K × (K × V)) → Act σ (Iter T K × Option (K × V))
  | none => pure (⟨it.tree, none, it.emitted⟩, none)
  | some (d, kv) => do pure (⟨it.tree, some d, ← addUsize it.emitted 1⟩, some kv)

/-- `Iterator::next`, src/iter.rs:42-107 -/
def nextA (it : Iter T K) : Act σ (Iter T K × Option (K × V)) := do it.finishA (← it.frontA)
/-- `DoubleEndedIterator::next_back`, src/iter.rs:129-194 -/
def nextBackA (it : Iter T K) : Act σ (Iter T K × Option (K × V)) := do it.finishA (← it.backA)

omit [ActIterKey σ K] in
/-- `Iterator::size_hint`, src/iter.rs:109-122 -/
def sizeHintA (it : Iter T K) : Act σ (Nat × Option Nat) := do
  match it.data with
  | none => pure (0, some 0)
  | some _ =>
    let (min, max) ← ActTree.lenHint (σ := σ) it.tree
    match max with
    | none => pure (min - it.emitted, none)
    | some max => pure (min - it.emitted, some (← subUsize max it.emitted))

/-- The iterator that a caller finds who catches a panic.  `self.data.take()` (src/iter.rs:44, 131) has emptied `self.data`
when the code of the `match` runs, which is where a tree or a key can panic; when `self.emitted += 1` overflows
(src/iter.rs:105, 192), `self.data` has been written. -/
def caughtA (it : Iter T K) (m : Act σ (Option (IterData K × (K × V)))) (s : σ) : Iter T K × R (Option (K × V) × σ) :=
  match m s with
  | .error p => (⟨it.tree, none, it.emitted⟩, .error p)
  | .ok (none, s') => (⟨it.tree, none, it.emitted⟩, .ok (none, s'))
  | .ok (some (d, kv), s') =>
    match addUsize it.emitted 1 with
    | .error p => (⟨it.tree, some d, it.emitted⟩, .error p)
    | .ok n => (⟨it.tree, some d, n⟩, .ok (some kv, s'))

end Iter
end Veb
