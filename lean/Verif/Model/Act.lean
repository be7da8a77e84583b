import Verif.Model.Tree
import Verif.Model.Exec
import Verif.Model.ByteMap

/-!
# The crate over code of its user that has a state

`Tree`, `ArrayTreeCollection`, `HashMap`, `Box` and `SizedVebTree` call code written by the user of the crate: `Ord`,
`PartialOrd` and `PartialEq` of keys, `split_val`, `split_ref`, `join`, `SizedVebKey::index`, `Hash` and `Clone` of high
halves.  In `Verif.Model` these are functions.  In Rust they are code: they can answer differently each time they are
called, depend on each other's calls, and panic.  This file is the same code once more, with every such call spelled out
as an action on a state `σ` of the user's program, in the order and the number of the source.

Not modelled: `Drop` of keys and values, and `Clone` of values (the crate never clones values).  `Borrow` of a `Q` is
called once at the start of a method, so its answer is the argument; the calls `k.borrow()` further on are those of `&K`.
-/

set_option autoImplicit false

namespace Veb

/-- Code that can read and change a state of the user's program, and panic. -/
abbrev Act (σ α : Type) := StateT σ R α

/-- The comparisons and the splitting of a key type, as actions.  `VebKeyRef::split_ref` (src/key.rs:102-106) calls the
closure exactly once, or does not return, since only the closure can make an `R`; `splitRef` is what it does before that,
`splitDone` what it does afterwards. -/
class ActKey (σ K : Type) (Hi Lo : outParam Type) where
  /-- `a.cmp(&b)` -/
  cmp : K → K → Act σ Ordering
  /-- `a == b` -/
  eq : K → K → Act σ Bool
  /-- `a < b` -/
  lt : K → K → Act σ Bool
  /-- `a <= b` -/
  le : K → K → Act σ Bool
  /-- `a > b` -/
  gt : K → K → Act σ Bool
  /-- `a >= b` -/
  ge : K → K → Act σ Bool
  splitVal : K → Act σ (Hi × Lo)
  splitRef : K → Act σ (Hi × Lo)
  splitDone : K → Act σ Unit
  join : Hi → Lo → Act σ K

/-- `k.split_ref(f)` -/
def withSplit {σ K Hi Lo α : Type} [ActKey σ K Hi Lo] (k : K) (f : Hi → Lo → Act σ α) : Act σ α := do
  let (hi, lo) ← ActKey.splitRef (σ := σ) k
  let r ← f hi lo
  ActKey.splitDone k
  pure r

/-- `SizedVebKey::index` as an action; `Cardinality` is a type and cannot vary. -/
class ActIndex (σ Hi : Type) where
  cardinality : Nat
  index : Hi → Act σ Nat

/-- What a hash table does with the code of its user.  Hash and equality of the user decide which entry, if any, a lookup
finds; here they can decide for any entry.  `hashing` is the effect on the state of the hashing that an insertion does.
The table itself is trusted: whatever it is told, its entries change by insertions and removals only. -/
class ActHash (σ Hi : Type) where
  /-- the position of the entry found for the key among the present keys -/
  probe : List Hi → Hi → Act σ (Option Nat)
  hashing : Hi → Act σ Unit
  clone : Hi → Act σ Hi

/-- `VebTree` (src/lib.rs:32-161) with actions; see `VebTree` in Verif/Model/Trait.lean. -/
class ActTree (σ T : Type) (K V : outParam Type) where
  fromMonad : K → V → T
  isMonad : T → Act σ Bool
  lenHint : T → Act σ (Nat × Option Nat)
  intoMonad : T → Act σ (Result (K × V) T)
  minVal : T → Act σ (K × V)
  minValMut : T → Act σ (K × V × (V → T))
  maxVal : T → Act σ (K × V)
  maxValMut : T → Act σ (K × V × (V → T))
  find : T → K → Act σ (Option (K × V))
  findMut : T → K → Act σ (Option (K × V × (V → T)))
  predecessor : T → K → Act σ (Option (K × V))
  predecessorMut : T → K → Act σ (Option (K × V × (V → T)))
  successor : T → K → Act σ (Option (K × V))
  successorMut : T → K → Act σ (Option (K × V × (V → T)))
  insert : T → K → V → Act σ (T × Option (K × V))
  remove : T → K → Act σ (Result (Option T × (K × V)) T)
  removeMin : T → Act σ (Option T × (K × V))
  removeMax : T → Act σ (Option T × (K × V))

/-- `TreeCollection` (src/collection/mod.rs:58-106) with actions. -/
class ActColl (σ C : Type) (Hi T Lo V : outParam Type) where
  create : Hi → T → Act σ C
  get : C → Hi → Act σ (Option T)
  getMut : C → Hi → Act σ (Option (T × (T → C)))
  insertKey : C → Hi → Lo × V → Act σ (C × Result Hi (Hi × Option (Lo × V)))
  removeKey : C → Hi → (T → Act σ (Option T × (Lo × V))) → Act σ (Option (C × Bool) × (Lo × V))
  maybeRemoveKey : C → Hi → (T → Act σ (Result (Option T × (Lo × V)) T)) →
    Act σ (Result (Option (C × Bool) × (Lo × V)) C)

/-- A tree type that calls no code of the user, or only code that does not depend on the state: `ByteSet`, `ByteMap`,
`BTreeMap` over ordinary keys, and everything made of them. -/
@[reducible] def ActTree.plain (σ : Type) {T K V : Type} [VebTree T K V] : ActTree σ T K V where
  fromMonad := VebTree.fromMonad
  isMonad t := VebTree.isMonad t
  lenHint t := VebTree.lenHint t
  intoMonad t := VebTree.intoMonad t
  minVal t := VebTree.minVal t
  minValMut t := VebTree.minValMut t
  maxVal t := VebTree.maxVal t
  maxValMut t := VebTree.maxValMut t
  find t k := VebTree.find t k
  findMut t k := VebTree.findMut t k
  predecessor t k := VebTree.predecessor t k
  predecessorMut t k := VebTree.predecessorMut t k
  successor t k := VebTree.successor t k
  successorMut t k := VebTree.successorMut t k
  insert t k v := VebTree.insert t k v
  remove t k := VebTree.remove t k
  removeMin t := VebTree.removeMin t
  removeMax t := VebTree.removeMax t

/-! ## Boxes and counters -/

/-- `impl VebTree for Box<V>`, src/lib.rs:327-431 -/
instance {σ T K V : Type} [ActTree σ T K V] : ActTree σ (Box T) K V where
  fromMonad k v := ⟨ActTree.fromMonad σ k v⟩
  isMonad t := ActTree.isMonad t.val
  lenHint t := ActTree.lenHint t.val
  intoMonad t := do
    match (← ActTree.intoMonad t.val) with
    | .Ok kv => pure (.Ok kv)
    | .Err t => pure (.Err ⟨t⟩)
  minVal t := ActTree.minVal t.val
  minValMut t := do pure (mapPut Box.mk (← ActTree.minValMut t.val))
  maxVal t := ActTree.maxVal t.val
  maxValMut t := do pure (mapPut Box.mk (← ActTree.maxValMut t.val))
  find t k := ActTree.find t.val k
  findMut t k := do pure ((← ActTree.findMut t.val k).map (mapPut Box.mk))
  predecessor t k := ActTree.predecessor t.val k
  predecessorMut t k := do pure ((← ActTree.predecessorMut t.val k).map (mapPut Box.mk))
  successor t k := ActTree.successor t.val k
  successorMut t k := do pure ((← ActTree.successorMut t.val k).map (mapPut Box.mk))
  insert t k v := do
    let (t, o) ← ActTree.insert t.val k v
    pure (⟨t⟩, o)
  remove t k := do
    match (← ActTree.remove t.val k) with
    | .Ok (tree, r) => pure (.Ok (tree.map Box.mk, r))
    | .Err tree => pure (.Err ⟨tree⟩)
  removeMin t := do
    let (tree, v) ← ActTree.removeMin t.val
    pure (tree.map Box.mk, v)
  removeMax t := do
    let (tree, v) ← ActTree.removeMax t.val
    pure (tree.map Box.mk, v)

/-- `impl VebTree for SizedVebTree<V>`, src/lib.rs:183-325 -/
instance {σ T K V : Type} [ActTree σ T K V] : ActTree σ (SizedVebTree T) K V where
  fromMonad k v := ⟨ActTree.fromMonad σ k v, 1⟩
  isMonad t := do
    if (← ActTree.isMonad t.tree) then
      debugAssert (decide (t.size = 1))
      pure true
    else pure false
  lenHint t := pure (t.size, some t.size)
  intoMonad t := do
    match (← ActTree.intoMonad t.tree) with
    | .Ok kv => pure (.Ok kv)
    | .Err tree => pure (.Err ⟨tree, t.size⟩)
  minVal t := ActTree.minVal t.tree
  minValMut t := do pure (mapPut (fun u => ⟨u, t.size⟩) (← ActTree.minValMut t.tree))
  maxVal t := ActTree.maxVal t.tree
  maxValMut t := do pure (mapPut (fun u => ⟨u, t.size⟩) (← ActTree.maxValMut t.tree))
  find t k := ActTree.find t.tree k
  findMut t k := do pure ((← ActTree.findMut t.tree k).map (mapPut (fun u => ⟨u, t.size⟩)))
  predecessor t k := ActTree.predecessor t.tree k
  predecessorMut t k := do pure ((← ActTree.predecessorMut t.tree k).map (mapPut (fun u => ⟨u, t.size⟩)))
  successor t k := ActTree.successor t.tree k
  successorMut t k := do pure ((← ActTree.successorMut t.tree k).map (mapPut (fun u => ⟨u, t.size⟩)))
  insert t k v := do
    let (tree, o) ← ActTree.insert t.tree k v
    if o.isNone then
      let size ← expect "size overflowed" (if t.size + 1 ≤ usizeMax then some (t.size + 1) else none)
      pure (⟨tree, size⟩, o)
    else pure (⟨tree, t.size⟩, o)
  remove t k := do
    match (← ActTree.remove t.tree k) with
    | .Ok (some tree, r) =>
      let size ← expect "last item didn't remove tree" (SizedVebTree.nonZero (← subUsize t.size 1))
      pure (.Ok (some ⟨tree, size⟩, r))
    | .Ok (none, v) => pure (.Ok (none, v))
    | .Err tree => pure (.Err ⟨tree, t.size⟩)
  removeMin t := do
    let newSize := SizedVebTree.nonZero (← subUsize t.size 1)
    match (← ActTree.removeMin t.tree) with
    | (some tree, v) =>
      let size ← expect "last item didn't remove tree" newSize
      pure (some ⟨tree, size⟩, v)
    | (none, v) => pure (none, v)
  removeMax t := do
    let newSize := SizedVebTree.nonZero (← subUsize t.size 1)
    match (← ActTree.removeMax t.tree) with
    | (some tree, v) =>
      let size ← expect "last item didn't remove tree" newSize
      pure (some ⟨tree, size⟩, v)
    | (none, v) => pure (none, v)

/-! ## Arrays -/

namespace ArrayColl
variable {σ Hi T Lo V : Type} [ActIndex σ Hi]

/-- src/collection/array.rs:101-110 -/
def createA (h : Hi) (tree : T) : Act σ (ArrayColl Hi T) := do
  let array := OptionArray.create (ActIndex.cardinality σ Hi)
  let array ← array.put (← ActIndex.index (σ := σ) h) (some tree)
  pure ⟨array, 1⟩
/-- src/collection/array.rs:112-114 -/
def getA (c : ArrayColl Hi T) (h : Hi) : Act σ (Option T) := do
  c.array.get (← ActIndex.index (σ := σ) h)
/-- src/collection/array.rs:116-118 -/
def getMutA (c : ArrayColl Hi T) (h : Hi) : Act σ (Option (T × (T → ArrayColl Hi T))) := do
  let i ← ActIndex.index (σ := σ) h
  match (← c.array.get i) with
  | none => pure none
  | some t =>
    pure (some (t, fun u =>
      { c with array := { c.array with slot := fun j => if j = i then some u else c.array.slot j } }))
/-- src/collection/array.rs:120-132: `index` is called a second time if there is no tree -/
def insertKeyA [ActTree σ T Lo V] (c : ArrayColl Hi T) (h : Hi) (lv : Lo × V) :
    Act σ (ArrayColl Hi T × Result Hi (Hi × Option (Lo × V))) := do
  let i ← ActIndex.index (σ := σ) h
  match (← c.array.get i) with
  | none =>
    let array ← c.array.put (← ActIndex.index (σ := σ) h) (some (ActTree.fromMonad σ lv.1 lv.2))
    pure (⟨array, ← addUsize c.count 1⟩, .Ok h)
  | some t =>
    let (t, o) ← ActTree.insert t lv.1 lv.2
    pure (⟨← c.array.put i (some t), c.count⟩, .Err (h, o))
/-- src/collection/array.rs:139-162: `index` is called a second time to put the tree back -/
def removeKeyA (c : ArrayColl Hi T) (h : Hi) (r : T → Act σ (Option T × (Lo × V))) :
    Act σ (Option (ArrayColl Hi T × Bool) × (Lo × V)) := do
  let i ← ActIndex.index (σ := σ) h
  let t ← expect "array should contain tree at key index" (← c.array.get i)
  let array ← c.array.put i none
  let (t, val) ← r t
  let removed := t.isNone
  let count ← if removed then subUsize c.count 1 else pure c.count
  let array ← array.put (← ActIndex.index (σ := σ) h) t
  if count = 0 then pure (none, val) else pure (some (⟨array, count⟩, removed), val)
/-- src/collection/array.rs:169-197: `index` is called a second time to put the tree back -/
def maybeRemoveKeyA (c : ArrayColl Hi T) (h : Hi) (r : T → Act σ (Result (Option T × (Lo × V)) T)) :
    Act σ (Result (Option (ArrayColl Hi T × Bool) × (Lo × V)) (ArrayColl Hi T)) := do
  let i ← ActIndex.index (σ := σ) h
  match (← c.array.get i) with
  | none => pure (.Err c)
  | some t =>
    let array ← c.array.put i none
    match (← r t) with
    | .Err t => pure (.Err ⟨← array.put (← ActIndex.index (σ := σ) h) (some t), c.count⟩)
    | .Ok (t, val) =>
      let removed := t.isNone
      let count ← if removed then subUsize c.count 1 else pure c.count
      let array ← array.put (← ActIndex.index (σ := σ) h) t
      if count = 0 then pure (.Ok (none, val)) else pure (.Ok (some (⟨array, count⟩, removed), val))

/-- `impl TreeCollection for ArrayTreeCollection`, src/collection/array.rs:93-198 -/
instance [ActTree σ T Lo V] : ActColl σ (ArrayColl Hi T) Hi T Lo V where
  create := createA
  get := getA
  getMut := getMutA
  insertKey := insertKeyA
  removeKey := removeKeyA
  maybeRemoveKey := maybeRemoveKeyA

end ArrayColl

/-! ## Hash tables -/

namespace HashMap
variable {σ Hi T Lo V : Type} [ActHash σ Hi]

/-- the position found and the entry there -/
def probeA (c : HashMap Hi T) (h : Hi) : Act σ (Option (Nat × Hi × T)) := do
  match (← ActHash.probe (σ := σ) (c.entries.map Prod.fst) h) with
  | none => pure none
  | some i => pure (c.entries[i]?.map fun e => (i, e))
/-- overwrite the tree of the entry at position `i` -/
def assignAt (c : HashMap Hi T) (i : Nat) (h : Hi) (t : T) : HashMap Hi T := ⟨c.entries.set i (h, t)⟩
/-- the effect of `RawOccupiedEntryMut::replace_entry_with` returning `o` for the entry at position `i` with key `h` -/
def replaceAt (c : HashMap Hi T) (i : Nat) (h : Hi) : Option T → HashMap Hi T
  | some t => c.assignAt i h t
  | none => ⟨c.entries.eraseIdx i⟩

/-- src/collection/hash.rs:42-48 -/
def createA (h : Hi) (tree : T) : Act σ (HashMap Hi T) := do
  let h' ← ActHash.clone (σ := σ) h
  ActHash.hashing (σ := σ) h'
  let v : HashMap Hi T := ⟨[(h', tree)]⟩
  debugAssert (decide (v.entries.length = 1))
  debugAssert (← v.probeA (σ := σ) h).isSome
  pure v
/-- src/collection/hash.rs:50-52 -/
def getA (c : HashMap Hi T) (h : Hi) : Act σ (Option T) := do
  pure ((← c.probeA (σ := σ) h).map fun e => e.2.2)
/-- src/collection/hash.rs:53-55 -/
def getMutA (c : HashMap Hi T) (h : Hi) : Act σ (Option (T × (T → HashMap Hi T))) := do
  pure ((← c.probeA (σ := σ) h).map fun e => (e.2.2, fun u => c.assignAt e.1 e.2.1 u))
/-- src/collection/hash.rs:57-67 -/
def insertKeyA [ActTree σ T Lo V] (c : HashMap Hi T) (h : Hi) (lv : Lo × V) :
    Act σ (HashMap Hi T × Result Hi (Hi × Option (Lo × V))) := do
  match (← c.probeA (σ := σ) h) with
  | none =>
    ActHash.hashing (σ := σ) h
    pure (⟨(h, ActTree.fromMonad σ lv.1 lv.2) :: c.entries⟩, .Ok (← ActHash.clone (σ := σ) h))
  | some (i, h', t) =>
    let (t, o) ← ActTree.insert t lv.1 lv.2
    pure (c.assignAt i h' t, .Err (h, o))
/-- src/collection/hash.rs:69-95 -/
def removeKeyA (c : HashMap Hi T) (h : Hi) (r : T → Act σ (Option T × (Lo × V))) :
    Act σ (Option (HashMap Hi T × Bool) × (Lo × V)) := do
  match (← c.probeA (σ := σ) h) with
  | none => throw .unreachable
  | some (i, h', t) =>
    let (t, val) ← r t
    let c := c.replaceAt i h' t
    let removed := t.isNone
    if c.entries.isEmpty then pure (none, val) else pure (some (c, removed), val)
/-- src/collection/hash.rs:97-123 -/
def maybeRemoveKeyA (c : HashMap Hi T) (h : Hi) (r : T → Act σ (Result (Option T × (Lo × V)) T)) :
    Act σ (Result (Option (HashMap Hi T × Bool) × (Lo × V)) (HashMap Hi T)) := do
  match (← c.probeA (σ := σ) h) with
  | none => pure (.Err c)
  | some (i, h', t) =>
    let (o, val) : Option T × Option (Lo × V) ← do
      match (← r t) with
      | .Err t => pure (some t, none)
      | .Ok (t, rval) => pure (t, some rval)
    let c := c.replaceAt i h' o
    let removed := o.isNone
    match val, c.entries.isEmpty with
    | some val, true => pure (.Ok (none, val))
    | some val, false => pure (.Ok (some (c, removed), val))
    | none, false => pure (.Err c)
    | none, true => throw .unreachable

/-- `impl TreeCollection for HashMap`, src/collection/hash.rs:33-124 -/
instance [ActTree σ T Lo V] : ActColl σ (HashMap Hi T) Hi T Lo V where
  create := createA
  get := getA
  getMut := getMutA
  insertKey := insertKeyA
  removeKey := removeKeyA
  maybeRemoveKey := maybeRemoveKeyA

end HashMap

/-! ## `ByteMap` -/

namespace VecDeque
variable {σ A Lo V : Type}

/-- `TreeList::remove_key`, src/bitset/map/list.rs:55-78 -/
def removeKeyA (l : List A) (i : Nat) (f : A → Act σ (Option A × (Lo × V))) :
    Act σ (Option (List A × Bool) × (Lo × V)) := do
  match l[i]? with
  | none => throw .unreachable
  | some tree =>
    let (tree, val) ← f tree
    let removed := tree.isNone
    let l' := match tree with
      | some t => l.set i t
      | none => l.eraseIdx i
    if l'.isEmpty then
      debugAssert removed
      pure (none, val)
    else pure (some (l', removed), val)
/-- `TreeList::maybe_remove_key`, src/bitset/map/list.rs:79-106 -/
def maybeRemoveKeyA (l : List A) (i : Nat) (f : A → Act σ (Result (Option A × (Lo × V)) A)) :
    Act σ (Result (Option (List A × Bool) × (Lo × V)) (List A)) := do
  match l[i]? with
  | none => throw .unreachable
  | some tree =>
    match (← f tree) with
    | .Err tree => pure (.Err (l.set i tree))
    | .Ok (tree, val) =>
      let removed := tree.isNone
      let l' := match tree with
        | some t => l.set i t
        | none => l.eraseIdx i
      if l'.isEmpty then
        debugAssert removed
        pure (.Ok (none, val))
      else pure (.Ok (some (l', removed), val))

end VecDeque

namespace ByteMap.Coll
variable {σ T Lo V : Type}

/-- src/bitset/map/mod.rs:60-69 -/
def insertKeyA [ActTree σ T Lo V] (c : ByteMap T) (h : U 8) (lv : Lo × V) :
    Act σ (ByteMap T × Result (U 8) (U 8 × Option (Lo × V))) := do
  let i := c.set.countBelow h
  let (set, r) ← c.set.insert h ()
  if r.isSome then
    let (t, put) ← VecDeque.getMut c.list i
    let (t, o) ← ActTree.insert t lv.1 lv.2
    pure (⟨set, put t⟩, .Err (h, o))
  else
    pure (⟨set, ← VecDeque.insertAt c.list i (ActTree.fromMonad σ lv.1 lv.2)⟩, .Ok h)
/-- src/bitset/map/mod.rs:70-90 -/
def removeKeyA (c : ByteMap T) (h : U 8) (r : T → Act σ (Option T × (Lo × V))) :
    Act σ (Option (ByteMap T × Bool) × (Lo × V)) := do
  debugAssert (← c.set.find h).isSome
  let i := c.set.countBelow h
  match (← VecDeque.removeKeyA c.list i r) with
  | (none, v) => pure (none, v)
  | (some (list, removed), v) =>
    if removed then
      debugAssert (c.set.isPresent h)
      pure (some (⟨c.set.unsetBit h, list⟩, removed), v)
    else pure (some (⟨c.set, list⟩, removed), v)
/-- src/bitset/map/mod.rs:92-118 -/
def maybeRemoveKeyA (c : ByteMap T) (h : U 8) (r : T → Act σ (Result (Option T × (Lo × V)) T)) :
    Act σ (Result (Option (ByteMap T × Bool) × (Lo × V)) (ByteMap T)) := do
  if (← c.set.find h).isNone then pure (.Err c)
  else
    let i := c.set.countBelow h
    match (← VecDeque.maybeRemoveKeyA c.list i r) with
    | .Err list => pure (.Err { c with list := list })
    | .Ok (none, v) => pure (.Ok (none, v))
    | .Ok (some (list, removed), v) =>
      if removed then
        debugAssert (c.set.isPresent h)
        pure (.Ok (some (⟨c.set.unsetBit h, list⟩, removed), v))
      else pure (.Ok (some (⟨c.set, list⟩, removed), v))

/-- `impl TreeCollection for ByteMap<L>`, src/bitset/map/mod.rs:36-119.  Its own keys are bytes: code of the user runs
only inside the trees. -/
instance [ActTree σ T Lo V] : ActColl σ (ByteMap T) (U 8) T Lo V where
  create h t := create h t
  get c h := get c h
  getMut c h := getMut c h
  insertKey := insertKeyA
  removeKey := removeKeyA
  maybeRemoveKey := maybeRemoveKeyA

end ByteMap.Coll

/-- `impl TreeCollection for Box<T>`, src/collection/mod.rs:108-155 -/
instance {σ C Hi T Lo V : Type} [ActColl σ C Hi T Lo V] : ActColl σ (Box C) Hi T Lo V where
  create h t := do pure ⟨← ActColl.create h t⟩
  get c h := ActColl.get c.val h
  getMut c h := do
    match (← ActColl.getMut c.val h) with
    | none => pure none
    | some (t, put) => pure (some (t, fun u => ⟨put u⟩))
  insertKey c h lv := do
    let (c, r) ← ActColl.insertKey c.val h lv
    pure (⟨c⟩, r)
  removeKey c h r := do
    let (t, v) ← ActColl.removeKey c.val h r
    pure (t.map (fun (t, b) => (⟨t⟩, b)), v)
  maybeRemoveKey c h r := do
    match (← ActColl.maybeRemoveKey c.val h r) with
    | .Err c => pure (.Err ⟨c⟩)
    | .Ok (t, v) => pure (.Ok (t.map (fun (t, b) => (⟨t⟩, b)), v))

/-! ## `Tree` -/

namespace Tree
variable {σ K V S C Hi Lo T : Type} [ActKey σ K Hi Lo] [ActTree σ S Hi Unit] [ActTree σ T Lo V] [ActColl σ C Hi T Lo V]

/-- src/tree.rs:141-169 -/
def findA (t : Tree K V S C) (k : K) : Act σ (Option (K × V)) := do
  match (← ActKey.cmp (σ := σ) k t.min.1) with
  | .lt => pure none
  | .eq => pure (some t.min)
  | .gt =>
    match t.data with
    | none => pure none
    | some data =>
      if (← ActKey.eq (σ := σ) k data.max.1) then pure (some data.max)
      else
        match data.children with
        | none => pure none
        | some (_, children) =>
          withSplit k fun hi lo => do
            match (← ActColl.get children hi) with
            | none => pure none
            | some child =>
              match (← ActTree.find child lo) with
              | none => pure none
              | some (lo, val) => pure (some (← ActKey.join hi lo, val))

/-- src/tree.rs:171-199 -/
def findMutA (t : Tree K V S C) (k : K) : Act σ (Option (K × V × (V → Tree K V S C))) := do
  match (← ActKey.cmp (σ := σ) k t.min.1) with
  | .lt => pure none
  | .eq => pure (some (t.min.1, t.min.2, t.putMin))
  | .gt =>
    match t.data with
    | none => pure none
    | some data =>
      if (← ActKey.eq (σ := σ) k data.max.1) then pure (some (data.max.1, data.max.2, t.putMax data))
      else
        match data.children with
        | none => pure none
        | some (summary, children) =>
          withSplit k fun hi lo => do
            match (← ActColl.getMut children hi) with
            | none => pure none
            | some (child, putC) =>
              match (← ActTree.findMut child lo) with
              | none => pure none
              | some (lo, val, put) =>
                pure (some (← ActKey.join hi lo, val,
                  fun w => t.putChildren data summary (putC (put w))))

/-- src/tree.rs:201-255 -/
def predecessorA (t : Tree K V S C) (k : K) : Act σ (Option (K × V)) := do
  if (← ActKey.le (σ := σ) k t.min.1) then pure none
  else
    match t.data with
    | none => pure (some t.min)
    | some data =>
      match (← ActKey.cmp (σ := σ) k data.max.1), data.children with
      | .gt, _ => pure (some data.max)
      | _, none => pure (some t.min)
      | .eq, some (summary, children) =>
        let (hi, ()) ← ActTree.maxVal summary
        let child ← expect "child should exist for summary key" (← ActColl.get children hi)
        let (lo, val) ← ActTree.maxVal child
        pure (some (← ActKey.join hi lo, val))
      | .lt, some (summary, children) =>
        withSplit k fun hi lo => do
          let inChild ← (do
            match (← ActColl.get children hi) with
            | none => pure none
            | some child => ActTree.predecessor child lo : Act σ (Option (Lo × V)))
          match inChild with
          | some (lo, val) => pure (some (← ActKey.join hi lo, val))
          | none =>
            match (← ActTree.predecessor summary hi) with
            | some (hi, ()) =>
              let child ← expect "child should exist for summary key" (← ActColl.get children hi)
              let (lo, val) ← ActTree.maxVal child
              pure (some (← ActKey.join hi lo, val))
            | none => pure (some t.min)

/-- src/tree.rs:257-349. `get_mut_predecessor_mut` (:312-318) is inlined; the `polonius` wrapper only
satisfies the borrow checker. -/
def predecessorMutA (t : Tree K V S C) (k : K) : Act σ (Option (K × V × (V → Tree K V S C))) := do
  if (← ActKey.le (σ := σ) k t.min.1) then pure none
  else
    match t.data with
    | none => pure (some (t.min.1, t.min.2, t.putMin))
    | some data =>
      match (← ActKey.cmp (σ := σ) k data.max.1), data.children with
      | .gt, _ => pure (some (data.max.1, data.max.2, t.putMax data))
      | _, none => pure (some (t.min.1, t.min.2, t.putMin))
      | .eq, some (summary, children) =>
        debugAssert (← ActKey.gt (σ := σ) k t.min.1)
        let (hi, ()) ← ActTree.maxVal summary
        let (child, putC) ←
          expect "child should exist for summary key" (← ActColl.getMut children hi)
        let (lo, val, put) ← ActTree.maxValMut child
        pure (some (← ActKey.join hi lo, val, fun w => t.putChildren data summary (putC (put w))))
      | .lt, some (summary, children) =>
        withSplit k fun hi lo => do
          let inChild ← (do
            match (← ActColl.getMut children hi) with
            | none => pure none
            | some (child, putC) =>
              pure ((← ActTree.predecessorMut child lo).map (mapPut putC)) :
            Act σ (Option (Lo × V × (V → C))))
          match inChild with
          | some (lo, val, put) =>
            pure (some (← ActKey.join hi lo, val, fun w => t.putChildren data summary (put w)))
          | none =>
            match (← ActTree.predecessor summary hi) with
            | some (hi, ()) =>
              let (child, putC) ←
                expect "child should exist for summary key" (← ActColl.getMut children hi)
              let (lo, val, put) ← ActTree.maxValMut child
              pure (some (← ActKey.join hi lo, val, fun w => t.putChildren data summary (putC (put w))))
            | none => pure (some (t.min.1, t.min.2, t.putMin))

/-- src/tree.rs:351-400 -/
def successorA (t : Tree K V S C) (k : K) : Act σ (Option (K × V)) := do
  if (← ActKey.lt (σ := σ) k t.min.1) then pure (some t.min)
  else
    match t.data with
    | none => pure none
    | some data =>
      if (← ActKey.ge (σ := σ) k data.max.1) then pure none
      else
        match data.children with
        | none => pure (some data.max)
        | some (summary, children) =>
          if (← ActKey.eq (σ := σ) k t.min.1) then
            let (hi, ()) ← ActTree.minVal summary
            let child ← expect "child should exist for summary key" (← ActColl.get children hi)
            let (lo, val) ← ActTree.minVal child
            pure (some (← ActKey.join hi lo, val))
          else
            withSplit k fun hi lo => do
              let inChild ← (do
                match (← ActColl.get children hi) with
                | none => pure none
                | some child => ActTree.successor child lo : Act σ (Option (Lo × V)))
              match inChild with
              | some (lo, val) => pure (some (← ActKey.join hi lo, val))
              | none =>
                match (← ActTree.successor summary hi) with
                | some (hi, ()) =>
                  let child ← expect "child should exist for summary key" (← ActColl.get children hi)
                  let (lo, val) ← ActTree.minVal child
                  pure (some (← ActKey.join hi lo, val))
                | none => pure (some data.max)

/-- src/tree.rs:402-500. `get_mut_successor_mut` (:448-454) is inlined; the `polonius` wrapper only
satisfies the borrow checker. -/
def successorMutA (t : Tree K V S C) (k : K) : Act σ (Option (K × V × (V → Tree K V S C))) := do
  if (← ActKey.lt (σ := σ) k t.min.1) then pure (some (t.min.1, t.min.2, t.putMin))
  else
    match t.data with
    | none => pure none
    | some data =>
      if (← ActKey.ge (σ := σ) k data.max.1) then pure none
      else
        match data.children with
        | none => pure (some (data.max.1, data.max.2, t.putMax data))
        | some (summary, children) =>
          if (← ActKey.eq (σ := σ) k t.min.1) then
            let (hi, ()) ← ActTree.minVal summary
            let (child, putC) ←
              expect "child should exist for summary key" (← ActColl.getMut children hi)
            let (lo, val, put) ← ActTree.minValMut child
            pure (some (← ActKey.join hi lo, val, fun w => t.putChildren data summary (putC (put w))))
          else
            withSplit k fun hi lo => do
              let inChild ← (do
                match (← ActColl.getMut children hi) with
                | none => pure none
                | some (child, putC) =>
                  pure ((← ActTree.successorMut child lo).map (mapPut putC)) :
                Act σ (Option (Lo × V × (V → C))))
              match inChild with
              | some (lo, val, put) =>
                pure (some (← ActKey.join hi lo, val, fun w => t.putChildren data summary (put w)))
              | none =>
                match (← ActTree.successor summary hi) with
                | some (hi, ()) =>
                  let (child, putC) ←
                    expect "child should exist for summary key" (← ActColl.getMut children hi)
                  let (lo, val, put) ← ActTree.minValMut child
                  pure (some (← ActKey.join hi lo, val, fun w => t.putChildren data summary (putC (put w))))
                | none => pure (some (data.max.1, data.max.2, t.putMax data))

/-- The second half of `insert`, src/tree.rs:544-561: store `k`, `v` below the extremes; `min` and `data.max`
have already been dealt with. -/
def insertBelowA (min : K × V) (data : TreeData K V S C) (k : K) (v : V) :
    Act σ (Tree K V S C × Option (K × V)) := do
  let (hi, lo) ← ActKey.splitVal (σ := σ) k
  match data.children with
  | some (summary, children) =>
    let (children, r) ← ActColl.insertKey children hi (lo, v)
    match r with
    | .Ok hi =>
      let (summary, _) ← ActTree.insert summary hi ()
      pure (⟨min, some { data with children := some (summary, children) }⟩, none)
    | .Err (_, none) => pure (⟨min, some { data with children := some (summary, children) }⟩, none)
    | .Err (hi, some (lo, v)) =>
      pure (⟨min, some { data with children := some (summary, children) }⟩,
        some (← ActKey.join hi lo, v))
  | none =>
    let children ← ActColl.create hi (ActTree.fromMonad σ lo v)
    let summary := ActTree.fromMonad σ hi ()
    pure (⟨min, some { data with children := some (summary, children) }⟩, none)

/-- src/tree.rs:502-562 -/
def insertA (t : Tree K V S C) (k : K) (v : V) : Act σ (Tree K V S C × Option (K × V)) := do
  match (← ActKey.cmp (σ := σ) k t.min.1), t.data with
  | .eq, _ => pure ({ t with min := (k, v) }, some t.min)
  | .lt, none => pure (⟨(k, v), some ⟨t.min, none⟩⟩, none)
  | .gt, none => pure (⟨t.min, some ⟨(k, v), none⟩⟩, none)
  | .lt, some data =>
    -- the old minimum is compared with the maximum: src/tree.rs:524-533
    let old := t.min
    match (← ActKey.cmp (σ := σ) data.max.1 old.1) with
    | .eq => pure (⟨(k, v), some { data with max := old }⟩, some data.max)
    | .gt => insertBelowA (k, v) { data with max := old } data.max.1 data.max.2
    | .lt => insertBelowA (k, v) data old.1 old.2
  | .gt, some data =>
    match (← ActKey.cmp (σ := σ) k data.max.1) with
    | .eq => pure (⟨t.min, some { data with max := (k, v) }⟩, some data.max)
    | .gt => insertBelowA t.min { data with max := (k, v) } data.max.1 data.max.2
    | .lt => insertBelowA t.min data k v

/-- src/tree.rs:651-693 -/
def removeMinA (t : Tree K V S C) : Act σ (Option (Tree K V S C) × (K × V)) := do
  match t.data with
  | none => pure (none, t.min)
  | some data =>
    match data.children with
    | none => pure (some ⟨data.max, none⟩, t.min)
    | some (summary, children) =>
      let (hi, ()) ← ActTree.minVal summary
      let (children, (lo, val)) ← ActColl.removeKey children hi ActTree.removeMin
      let min := ← ActKey.join hi lo
      let children ← (match children with
        | none => pure none
        | some (children, false) => pure (some (summary, children))
        | some (children, true) => do
          let summary ← expect "summary should have remaining elements after removal"
            (← ActTree.removeMin summary).1
          pure (some (summary, children)) : Act σ (Option (S × C)))
      pure (some ⟨(min, val), some ⟨data.max, children⟩⟩, t.min)

/-- src/tree.rs:695-736 -/
def removeMaxA (t : Tree K V S C) : Act σ (Option (Tree K V S C) × (K × V)) := do
  match t.data with
  | none => pure (none, t.min)
  | some data =>
    match data.children with
    | none => pure (some ⟨t.min, none⟩, data.max)
    | some (summary, children) =>
      let (hi, ()) ← ActTree.maxVal summary
      let (children, (lo, val)) ← ActColl.removeKey children hi ActTree.removeMax
      let newMax := (← ActKey.join hi lo, val)
      let children ← (match children with
        | none => pure none
        | some (children, false) => pure (some (summary, children))
        | some (children, true) => do
          let summary ← expect "summary should have remaining elements after removal"
            (← ActTree.removeMax summary).1
          pure (some (summary, children)) : Act σ (Option (S × C)))
      pure (some ⟨t.min, some ⟨newMax, children⟩⟩, data.max)

/-- src/tree.rs:564-649 -/
def removeA (t : Tree K V S C) (k : K) :
    Act σ (Result (Option (Tree K V S C) × (K × V)) (Tree K V S C)) := do
  if (← ActKey.eq (σ := σ) k t.min.1) then pure (.Ok (← t.removeMinA (σ := σ)))
  else
    match t.data with
    | none => pure (.Err t)
    | some data =>
      match data.children with
      | none => if (← ActKey.eq (σ := σ) data.max.1 k) then pure (.Ok (some ⟨t.min, none⟩, data.max)) else pure (.Err t)
      | some (summary, children) =>
        if (← ActKey.eq (σ := σ) k data.max.1) then
          let (hi, ()) ← ActTree.maxVal summary
          let (children, (lo, val)) ← ActColl.removeKey children hi ActTree.removeMax
          let newMax := (← ActKey.join hi lo, val)
          let children ← (match children with
            | none => pure none
            | some (children, false) => pure (some (summary, children))
            | some (children, true) => do
              let summary ← expect "summary should have remaining elements after removal"
                (← ActTree.removeMax summary).1
              pure (some (summary, children)) : Act σ (Option (S × C)))
          pure (.Ok (some ⟨t.min, some ⟨newMax, children⟩⟩, data.max))
        else
          withSplit k fun hi lo => do
            match (← ActColl.maybeRemoveKey children hi (fun v => ActTree.remove v lo)) with
            | .Err children => pure (.Err ⟨t.min, some ⟨data.max, some (summary, children)⟩⟩)
            | .Ok (none, (lo, val)) =>
              pure (.Ok (some ⟨t.min, some ⟨data.max, none⟩⟩, (← ActKey.join hi lo, val)))
            | .Ok (some (children, false), (lo, val)) =>
              pure (.Ok (some ⟨t.min, some ⟨data.max, some (summary, children)⟩⟩,
                (← ActKey.join hi lo, val)))
            | .Ok (some (children, true), (lo, val)) =>
              let removed ← (match (← ActTree.remove summary hi) with
                | .Ok r => pure r
                | .Err _ => throw (.expect "summary should contain key") : Act σ (Option S × (Hi × Unit)))
              let summary ← expect "summary should have remaining elements after removal" removed.1
              pure (.Ok (some ⟨t.min, some ⟨data.max, some (summary, children)⟩⟩,
                (← ActKey.join hi lo, val)))

/-- `impl VebTree for Tree`, src/tree.rs:80-737; `len_hint` (src/lib.rs:51-57) is the provided one, and the methods not
listed above call no code of the user -/
instance : ActTree σ (Tree K V S C) K V where
  fromMonad := fromMonad
  isMonad t := t.isMonad
  lenHint t := defaultLenHint isMonad t
  intoMonad t := t.intoMonad
  minVal t := t.minVal
  minValMut t := t.minValMut
  maxVal t := t.maxVal
  maxValMut t := t.maxValMut
  find := findA
  findMut := findMutA
  predecessor := predecessorA
  predecessorMut := predecessorMutA
  successor := successorA
  successorMut := successorMutA
  insert := insertA
  remove := removeA
  removeMin := removeMinA
  removeMax := removeMaxA

end Tree

/-! ## Histories -/

namespace ActExec
variable {σ T K V : Type} [ActTree σ T K V]

/-- One call on a tree, as `Exec.stepTree`. -/
def stepTree (t : T) : Op K V → Act σ (Option T × Out K V)
  | .insert k v => do
    let (t, o) ← ActTree.insert t k v
    pure (some t, .kv o)
  | .remove k => do
    match (← ActTree.remove t k) with
    | .Ok r => pure (Exec.removed r)
    | .Err t => pure (some t, .kv none)
  | .removeMin => do pure (Exec.removed (← ActTree.removeMin t))
  | .removeMax => do pure (Exec.removed (← ActTree.removeMax t))
  | .find k => do pure (some t, .kv (← ActTree.find t k))
  | .predecessor k => do pure (some t, .kv (← ActTree.predecessor t k))
  | .successor k => do pure (some t, .kv (← ActTree.successor t k))
  | .minVal => do pure (some t, .kv (some (← ActTree.minVal t)))
  | .maxVal => do pure (some t, .kv (some (← ActTree.maxVal t)))
  | .isMonad => do pure (some t, .bool (← ActTree.isMonad t))
  | .intoMonad => do
    match (← ActTree.intoMonad t) with
    | .Ok kv => pure (none, .kv (some kv))
    | .Err t => pure (some t, .kv none)
  | .findSet k w => do pure (Exec.writeOpt t w (← ActTree.findMut t k))
  | .predecessorSet k w => do pure (Exec.writeOpt t w (← ActTree.predecessorMut t k))
  | .successorSet k w => do pure (Exec.writeOpt t w (← ActTree.successorMut t k))
  | .minSet w => do pure (Exec.writeOpt t w (some (← ActTree.minValMut t)))
  | .maxSet w => do pure (Exec.writeOpt t w (some (← ActTree.maxValMut t)))

/-- One call on an optional tree, as `Exec.step`. -/
def step (t : Option T) (op : Op K V) : Act σ (Option T × Out K V) :=
  match t with
  | some t => stepTree t op
  | none =>
    match op with
    | .insert k v => pure (some (ActTree.fromMonad σ k v), .kv none)
    | .isMonad => pure (none, .bool false)
    | _ => pure (none, .kv none)

/-- A whole history, as `Exec.run`. -/
def run (t : Option T) : List (Op K V) → Act σ (Option T × List (Out K V))
  | [] => pure (t, [])
  | op :: ops => do
    let (t, o) ← step t op
    let (t, os) ← run t ops
    pure (t, o :: os)

end ActExec
end Veb
