import Verif.Model.Act
import Verif.Model.ByteList
import Verif.Model.ArrayOf

/-!
# `ByteMap<L>` and `ArrayTreeCollection<H, A>` over list and array types of the user that have a state

`Verif.Model.ByteList` and `Verif.Model.ArrayOf` have the traits `List`, `TreeList` and `OptionArray` as functions, and
`Verif.Model.Act` has keys and trees of the user with a state, over the lists and arrays of the crate.  Here the lists and
arrays are actions too: they can answer differently each time they are called, and share a state with the trees.

A reference that `get_mut` returns is read and written without running code of the user; what `get_mut` itself changes is
seen when the reference is written, and in `insert_key` of an array also when it is not.  Not modelled: `Drop`, and changes
that `get_mut` makes when nothing is written (`TreeCollection::get_mut` answering `None`).
-/

set_option autoImplicit false

namespace Veb

/-- `trait List`, src/bitset/map/list.rs:113-124, with actions; see `ListT`. -/
class ActList (σ L : Type) (V : outParam Type) where
  /-- :115 -/
  fromMonad : V → L
  /-- :116 -/
  len : L → Act σ Nat
  /-- :120 -/
  get : L → Nat → Act σ V
  /-- :121 -/
  getMut : L → Nat → Act σ (V × (V → L))
  /-- :122 -/
  insertValue : L → Nat → V → Act σ L
  /-- :123 -/
  removeValue : L → Nat → Act σ (Option L × V)

/-- `trait TreeList`, src/bitset/map/list.rs:16-30, with actions; see `TreeListT`. -/
class ActTreeList (σ L : Type) (T Lo V : outParam Type) where
  /-- :18 -/
  fromMonad : T → L
  /-- :21 -/
  get : L → Nat → Act σ T
  /-- :22 -/
  getMut : L → Nat → Act σ (T × (T → L))
  /-- :23 -/
  insertTree : L → Nat → T → Act σ L
  /-- :24-26 -/
  removeKey : L → Nat → (T → Act σ (Option T × (Lo × V))) → Act σ (Option (L × Bool) × (Lo × V))
  /-- :27-29 -/
  maybeRemoveKey : L → Nat → (T → Act σ (Result (Option T × (Lo × V)) T)) →
    Act σ (Result (Option (L × Bool) × (Lo × V)) L)

/-- `trait OptionArray<Cardinality>`, src/collection/array.rs:40-45, with actions; see `ArrayT`. -/
class ActArray (σ A : Type) (n : Nat) (T : outParam Type) where
  /-- :42 -/
  create : Act σ A
  /-- :43 -/
  get : A → Nat → Act σ (Option T)
  /-- :44 -/
  getMut : A → Nat → Act σ (Option T × (Option T → A))

namespace ByteMapOf

/-! ## `ByteMap<L>` as a tree, src/bitset/map/mod.rs:131-300 -/

section tree
variable {σ L V : Type} [ActList σ L V]

/-- src/bitset/map/mod.rs:135-140 -/
def fromMonadA (σ : Type) {L V : Type} [ActList σ L V] (k : U 8) (v : V) : ByteMapOf L :=
  ⟨ByteSet.fromMonad k (), ActList.fromMonad σ v⟩
/-- src/bitset/map/mod.rs:142-144 -/
def isMonadA (m : ByteMapOf L) : Act σ Bool := do pure (decide ((← ActList.len m.list) = 1))
/-- src/lib.rs:51-57, the provided `len_hint` -/
def lenHintA (m : ByteMapOf L) : Act σ (Nat × Option Nat) := do
  if (← m.isMonadA) then pure (1, none) else pure (2, none)
/-- src/bitset/map/mod.rs:146-158 -/
def intoMonadA (m : ByteMapOf L) : Act σ (Result (U 8 × V) (ByteMapOf L)) := do
  match (← m.set.intoMonad) with
  | .Ok (k, ()) =>
    let (l, v) ← ActList.removeValue m.list 0
    debugAssert l.isNone
    pure (.Ok (k, v))
  | .Err set => pure (.Err { m with set := set })
/-- src/bitset/map/mod.rs:160-162 -/
def minValA (m : ByteMapOf L) : Act σ (U 8 × V) := do
  let k := (← m.set.minVal).1
  pure (k, ← ActList.get m.list 0)
/-- src/bitset/map/mod.rs:164-166 -/
def minValMutA (m : ByteMapOf L) : Act σ (U 8 × V × (V → ByteMapOf L)) := do
  let k := (← m.set.minVal).1
  let (v, put) ← ActList.getMut m.list 0
  pure (k, v, fun w => { m with list := put w })
/-- src/bitset/map/mod.rs:168-170 -/
def maxValA (m : ByteMapOf L) : Act σ (U 8 × V) := do
  let k := (← m.set.maxVal).1
  pure (k, ← ActList.get m.list (← subUsize (← ActList.len m.list) 1))
/-- src/bitset/map/mod.rs:172-174 -/
def maxValMutA (m : ByteMapOf L) : Act σ (U 8 × V × (V → ByteMapOf L)) := do
  let k := (← m.set.maxVal).1
  let (v, put) ← ActList.getMut m.list (← subUsize (← ActList.len m.list) 1)
  pure (k, v, fun w => { m with list := put w })
/-- src/bitset/map/mod.rs:182-183 and elsewhere: the value of a key that is there -/
def itemA (m : ByteMapOf L) : Option (U 8 × Unit) → Act σ (Option (U 8 × V))
  | none => pure none
  | some (k, ()) => do pure (some (k, ← ActList.get m.list (m.set.countBelow k)))
/-- src/bitset/map/mod.rs:192-193 and elsewhere: a reference to it -/
def itemMutA (m : ByteMapOf L) : Option (U 8 × Unit) → Act σ (Option (U 8 × V × (V → ByteMapOf L)))
  | none => pure none
  | some (k, ()) => do
    let (v, put) ← ActList.getMut m.list (m.set.countBelow k)
    pure (some (k, v, fun w => { m with list := put w }))
/-- src/bitset/map/mod.rs:176-184 -/
def findA (m : ByteMapOf L) (k : U 8) : Act σ (Option (U 8 × V)) := do m.itemA (← m.set.find k)
/-- src/bitset/map/mod.rs:186-194 -/
def findMutA (m : ByteMapOf L) (k : U 8) : Act σ (Option (U 8 × V × (V → ByteMapOf L))) := do m.itemMutA (← m.set.find k)
/-- src/bitset/map/mod.rs:196-204 -/
def predecessorA (m : ByteMapOf L) (k : U 8) : Act σ (Option (U 8 × V)) := do m.itemA (← m.set.predecessor k)
/-- src/bitset/map/mod.rs:206-217 -/
def predecessorMutA (m : ByteMapOf L) (k : U 8) : Act σ (Option (U 8 × V × (V → ByteMapOf L))) := do
  m.itemMutA (← m.set.predecessor k)
/-- src/bitset/map/mod.rs:219-227 -/
def successorA (m : ByteMapOf L) (k : U 8) : Act σ (Option (U 8 × V)) := do m.itemA (← m.set.successor k)
/-- src/bitset/map/mod.rs:229-237 -/
def successorMutA (m : ByteMapOf L) (k : U 8) : Act σ (Option (U 8 × V × (V → ByteMapOf L))) := do
  m.itemMutA (← m.set.successor k)
/-- src/bitset/map/mod.rs:239-252 -/
def insertA (m : ByteMapOf L) (k : U 8) (v : V) : Act σ (ByteMapOf L × Option (U 8 × V)) := do
  let (set, r) ← m.set.insert k ()
  match r with
  | some (k, ()) =>
    let (old, put) ← ActList.getMut m.list (set.countBelow k)
    pure (⟨set, put v⟩, some (k, old))
  | none => pure (⟨set, ← ActList.insertValue m.list (set.countBelow k) v⟩, none)
/-- src/bitset/map/mod.rs:254-277 -/
def removeA (m : ByteMapOf L) (k : U 8) :
    Act σ (Result (Option (ByteMapOf L) × (U 8 × V)) (ByteMapOf L)) := do
  let i := m.set.countBelow k
  match (← m.set.remove k) with
  | .Err set => pure (.Err { m with set := set })
  | .Ok (some set, (k, ())) =>
    let (list, v) ← ActList.removeValue m.list i
    let list ← expect "set is non-empty so list should be non-empty" list
    pure (.Ok (some ⟨set, list⟩, (k, v)))
  | .Ok (none, (k, ())) =>
    let (list, v) ← ActList.removeValue m.list i
    debugAssert list.isNone
    pure (.Ok (none, (k, v)))
/-- src/bitset/map/mod.rs:283-287, 294-298: the end of `remove_min` and `remove_max` -/
def popA (m : ByteMapOf L) (i : Nat) (set : Option ByteSet) (k : U 8) : Act σ (Option (ByteMapOf L) × (U 8 × V)) := do
  let (list, v) ← ActList.removeValue m.list i
  match set, list with
  | some set, some list => pure (some ⟨set, list⟩, (k, v))
  | none, none => pure (none, (k, v))
  | _, _ => throw .unreachable
/-- src/bitset/map/mod.rs:279-288 -/
def removeMinA (m : ByteMapOf L) : Act σ (Option (ByteMapOf L) × (U 8 × V)) := do
  let i := m.set.countBelow (← m.set.minVal).1
  let (set, (k, ())) ← m.set.removeMin
  m.popA i set k
/-- src/bitset/map/mod.rs:290-299 -/
def removeMaxA (m : ByteMapOf L) : Act σ (Option (ByteMapOf L) × (U 8 × V)) := do
  let i := m.set.countBelow (← m.set.maxVal).1
  let (set, (k, ())) ← m.set.removeMax
  m.popA i set k

/-- `impl VebTree for ByteMap<L>`, src/bitset/map/mod.rs:131-300 -/
instance : ActTree σ (ByteMapOf L) (U 8) V where
  fromMonad := fromMonadA σ
  isMonad := isMonadA
  lenHint := lenHintA
  intoMonad := intoMonadA
  minVal := minValA
  minValMut := minValMutA
  maxVal := maxValA
  maxValMut := maxValMutA
  find := findA
  findMut := findMutA
  predecessor := predecessorA
  predecessorMut := predecessorMutA
  successor := successorA
  successorMut := successorMutA
  insert := insertA
  remove := removeA
  removeMin := removeMinA
  removeMax := removeMaxA

end tree

/-! ## `ByteMap<L>` as a collection of trees, src/bitset/map/mod.rs:36-119 -/

namespace Coll
variable {σ L T Lo V : Type} [ActTreeList σ L T Lo V]

/-- src/bitset/map/mod.rs:40-45 -/
def createA (h : U 8) (tree : T) : Act σ (ByteMapOf L) := pure ⟨ByteSet.fromMonad h (), ActTreeList.fromMonad σ tree⟩
/-- src/bitset/map/mod.rs:47-52 -/
def getA (c : ByteMapOf L) (h : U 8) : Act σ (Option T) := do
  if !c.set.isPresent h then pure none
  else pure (some (← ActTreeList.get c.list (c.set.countBelow h)))
/-- src/bitset/map/mod.rs:53-58 -/
def getMutA (c : ByteMapOf L) (h : U 8) : Act σ (Option (T × (T → ByteMapOf L))) := do
  if !c.set.isPresent h then pure none
  else
    let (t, put) ← ActTreeList.getMut c.list (c.set.countBelow h)
    pure (some (t, fun u => { c with list := put u }))
/-- src/bitset/map/mod.rs:60-69 -/
def insertKeyA [ActTree σ T Lo V] (c : ByteMapOf L) (h : U 8) (lv : Lo × V) :
    Act σ (ByteMapOf L × Result (U 8) (U 8 × Option (Lo × V))) := do
  let i := c.set.countBelow h
  let (set, r) ← c.set.insert h ()
  if r.isSome then
    let (t, put) ← ActTreeList.getMut c.list i
    let (t, o) ← ActTree.insert t lv.1 lv.2
    pure (⟨set, put t⟩, .Err (h, o))
  else
    pure (⟨set, ← ActTreeList.insertTree c.list i (ActTree.fromMonad σ lv.1 lv.2)⟩, .Ok h)
/-- src/bitset/map/mod.rs:70-90 -/
def removeKeyA (c : ByteMapOf L) (h : U 8) (r : T → Act σ (Option T × (Lo × V))) :
    Act σ (Option (ByteMapOf L × Bool) × (Lo × V)) := do
  debugAssert (← c.set.find h).isSome
  let i := c.set.countBelow h
  match (← ActTreeList.removeKey c.list i r) with
  | (none, v) => pure (none, v)
  | (some (list, removed), v) =>
    if removed then
      debugAssert (c.set.isPresent h)
      pure (some (⟨c.set.unsetBit h, list⟩, removed), v)
    else pure (some (⟨c.set, list⟩, removed), v)
/-- src/bitset/map/mod.rs:92-118 -/
def maybeRemoveKeyA (c : ByteMapOf L) (h : U 8) (r : T → Act σ (Result (Option T × (Lo × V)) T)) :
    Act σ (Result (Option (ByteMapOf L × Bool) × (Lo × V)) (ByteMapOf L)) := do
  if (← c.set.find h).isNone then pure (.Err c)
  else
    let i := c.set.countBelow h
    match (← ActTreeList.maybeRemoveKey c.list i r) with
    | .Err list => pure (.Err { c with list := list })
    | .Ok (none, v) => pure (.Ok (none, v))
    | .Ok (some (list, removed), v) =>
      if removed then
        debugAssert (c.set.isPresent h)
        pure (.Ok (some (⟨c.set.unsetBit h, list⟩, removed), v))
      else pure (.Ok (some (⟨c.set, list⟩, removed), v))

/-- `impl TreeCollection for ByteMap<L>`, src/bitset/map/mod.rs:36-119 -/
instance [ActTree σ T Lo V] : ActColl σ (ByteMapOf L) (U 8) T Lo V where
  create := createA
  get := getA
  getMut := getMutA
  insertKey := insertKeyA
  removeKey := removeKeyA
  maybeRemoveKey := maybeRemoveKeyA

end Coll
end ByteMapOf

/-! ## `ArrayTreeCollection<H, A>`, src/collection/array.rs:93-198 -/

namespace ArrayOf
variable {σ Hi A T Lo V : Type} [SizedVebKey Hi] [ActIndex σ Hi] [ActArray σ A (SizedVebKey.cardinality Hi) T]

/-- `self.array.get_mut(h.index())` -/
def slotMutA (a : A) (h : Hi) : Act σ (Option T × (Option T → A)) := do
  ActArray.getMut (SizedVebKey.cardinality Hi) a (← ActIndex.index (σ := σ) h)
/-- src/collection/array.rs:101-110 -/
def createA (h : Hi) (tree : T) : Act σ (ArrayOf Hi A) := do
  let array : A ← ActArray.create (SizedVebKey.cardinality Hi)
  let (_, put) ← slotMutA (σ := σ) array h
  pure ⟨put (some tree), 1⟩
/-- src/collection/array.rs:112-114 -/
def getA (c : ArrayOf Hi A) (h : Hi) : Act σ (Option T) := do
  ActArray.get (SizedVebKey.cardinality Hi) c.array (← ActIndex.index (σ := σ) h)
/-- src/collection/array.rs:116-118 -/
def getMutA (c : ArrayOf Hi A) (h : Hi) : Act σ (Option (T × (T → ArrayOf Hi A))) := do
  match (← slotMutA (σ := σ) c.array h) with
  | (none, _) => pure none
  | (some t, put) => pure (some (t, fun u => { c with array := put (some u) }))
/-- src/collection/array.rs:120-132 -/
def insertKeyA [ActTree σ T Lo V] (c : ArrayOf Hi A) (h : Hi) (lv : Lo × V) :
    Act σ (ArrayOf Hi A × Result Hi (Hi × Option (Lo × V))) := do
  match (← slotMutA (σ := σ) c.array h) with
  | (none, put) =>
    let (_, put) ← slotMutA (σ := σ) (put none) h
    pure (⟨put (some (ActTree.fromMonad σ lv.1 lv.2)), ← addUsize c.count 1⟩, .Ok h)
  | (some t, put) =>
    let (t, o) ← ActTree.insert t lv.1 lv.2
    pure (⟨put (some t), c.count⟩, .Err (h, o))
/-- src/collection/array.rs:139-162 -/
def removeKeyA (c : ArrayOf Hi A) (h : Hi) (r : T → Act σ (Option T × (Lo × V))) :
    Act σ (Option (ArrayOf Hi A × Bool) × (Lo × V)) := do
  let (o, put) ← slotMutA (σ := σ) c.array h
  let array := put none
  let t ← expect "array should contain tree at key index" o
  let (t, val) ← r t
  let removed := t.isNone
  let count ← if removed then subUsize c.count 1 else pure c.count
  let (_, put) ← slotMutA (σ := σ) array h
  if count = 0 then pure (none, val) else pure (some (⟨put t, count⟩, removed), val)
/-- src/collection/array.rs:169-197 -/
def maybeRemoveKeyA (c : ArrayOf Hi A) (h : Hi) (r : T → Act σ (Result (Option T × (Lo × V)) T)) :
    Act σ (Result (Option (ArrayOf Hi A × Bool) × (Lo × V)) (ArrayOf Hi A)) := do
  let (o, put) ← slotMutA (σ := σ) c.array h
  let array := put none
  match o with
  | none => pure (.Err { c with array := array })
  | some t =>
    match (← r t) with
    | .Err t =>
      let (_, put) ← slotMutA (σ := σ) array h
      pure (.Err { c with array := put (some t) })
    | .Ok (t, val) =>
      let removed := t.isNone
      let count ← if removed then subUsize c.count 1 else pure c.count
      let (_, put) ← slotMutA (σ := σ) array h
      if count = 0 then pure (.Ok (none, val)) else pure (.Ok (some (⟨put t, count⟩, removed), val))

/-- `impl TreeCollection for ArrayTreeCollection`, src/collection/array.rs:93-198 -/
instance [ActTree σ T Lo V] : ActColl σ (ArrayOf Hi A) Hi T Lo V where
  create := createA
  get := getA
  getMut := getMutA
  insertKey := insertKeyA
  removeKey := removeKeyA
  maybeRemoveKey := maybeRemoveKeyA

end ArrayOf

end Veb
