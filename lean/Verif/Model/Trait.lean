import Verif.Basic

/-!
The traits of the crate: `VebTree` (src/lib.rs), `VebKey`, `VebKeyRef`, `SizedVebKey` (src/key.rs) and
`TreeCollection` (src/collection/mod.rs), as type classes with the same methods.
-/

namespace Veb

/-- `trait VebTree`, src/lib.rs:32-161.

Simplifications: a returned `MaybeBorrowed<Key>` is the key itself; a returned `&V` is the value; a returned
`&mut V` is the value paired with the write-back function `V → T` giving the tree after writing a new value
through the reference; `Q: Borrow<Key>` arguments are keys.  `self`-consuming methods take the tree.
`from_monad` has no panic path in any implementation and is total. -/
class VebTree (T : Type) (K V : outParam Type) where
  /-- src/lib.rs:38-41 -/
  fromMonad : K → V → T
  /-- src/lib.rs:43-46 -/
  isMonad : T → R Bool
  /-- src/lib.rs:48-57; the provided default is `defaultLenHint` -/
  lenHint : T → R (Nat × Option Nat)
  /-- src/lib.rs:59-62 -/
  intoMonad : T → R (Result (K × V) T)
  /-- src/lib.rs:64-67 -/
  minVal : T → R (K × V)
  /-- src/lib.rs:69-72 -/
  minValMut : T → R (K × V × (V → T))
  /-- src/lib.rs:74-77 -/
  maxVal : T → R (K × V)
  /-- src/lib.rs:79-82 -/
  maxValMut : T → R (K × V × (V → T))
  /-- src/lib.rs:91-96 -/
  find : T → K → R (Option (K × V))
  /-- src/lib.rs:98-103 -/
  findMut : T → K → R (Option (K × V × (V → T)))
  /-- src/lib.rs:105-110 -/
  predecessor : T → K → R (Option (K × V))
  /-- src/lib.rs:112-120 -/
  predecessorMut : T → K → R (Option (K × V × (V → T)))
  /-- src/lib.rs:122-127 -/
  successor : T → K → R (Option (K × V))
  /-- src/lib.rs:129-137 -/
  successorMut : T → K → R (Option (K × V × (V → T)))
  /-- src/lib.rs:139-143 -/
  insert : T → K → V → R (T × Option (K × V))
  /-- src/lib.rs:145-150; `MaybeRemoveResult`, src/lib.rs:26-30 -/
  remove : T → K → R (Result (Option T × (K × V)) T)
  /-- src/lib.rs:152-155; `RemoveResult`, src/lib.rs:21-24 -/
  removeMin : T → R (Option T × (K × V))
  /-- src/lib.rs:157-160 -/
  removeMax : T → R (Option T × (K × V))

/-- The provided method `VebTree::len_hint`, src/lib.rs:51-57. -/
def defaultLenHint {T : Type} (isMonad : T → R Bool) (t : T) : R (Nat × Option Nat) := do
  if (← isMonad t) then pure (1, none) else pure (2, none)

/-- `trait VebKey`, src/key.rs:90-100. -/
class VebKey (K : Type) (Hi Lo : outParam Type) where
  splitVal : K → Hi × Lo
  join : Hi → Lo → K

/-- `trait VebKeyRef`, src/key.rs:102-106.  `splitRef k` is the pair passed to the closure. -/
class VebKeyRef (K : Type) (Hi Lo : outParam Type) where
  splitRef : K → Hi × Lo

/-- The blanket `impl VebKeyRef for T: CloneVebKeyRef`, src/key.rs:110-119: clone, then `split_val`. -/
def cloneSplitRef {K Hi Lo : Type} [VebKey K Hi Lo] (k : K) : Hi × Lo := VebKey.splitVal k

/-- `trait SizedVebKey`, src/key.rs:121-125.  `cardinalityConst` is the constant `CARDINALITY`,
`cardinality` the value of the type-level number `Cardinality`. -/
class SizedVebKey (K : Type) where
  cardinalityConst : Nat
  cardinality : Nat
  index : K → Nat

/-- `trait TreeCollection`, src/collection/mod.rs:58-106.  `T` is the stored tree type with keys `Lo` and
values `V`.  `get_mut` returns the tree and the write-back function.  `Ok`/`Err` of `insert_key`
(`TreeInsertResult`, :33-41), `remove_key` (`TreeRemoveResult`, :43-50) and `maybe_remove_key`
(`TreeMaybeRemoveResult`, :52-56) are kept. The closures may panic, hence their `R`. -/
class TreeCollection (C : Type) (Hi T Lo V : outParam Type) where
  create : Hi → T → R C
  get : C → Hi → R (Option T)
  getMut : C → Hi → R (Option (T × (T → C)))
  insertKey : C → Hi → Lo × V → R (C × Result Hi (Hi × Option (Lo × V)))
  removeKey : C → Hi → (T → R (Option T × (Lo × V))) → R (Option (C × Bool) × (Lo × V))
  maybeRemoveKey : C → Hi → (T → R (Result (Option T × (Lo × V)) T)) →
    R (Result (Option (C × Bool) × (Lo × V)) C)

end Veb
