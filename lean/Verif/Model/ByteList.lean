import Verif.Model.ByteMap

/-!
`ByteMap<L>` for any list type `L`: src/bitset/map/mod.rs, with the traits `List` and `TreeList` of
src/bitset/map/list.rs, which the crate exports (src/bitset/mod.rs:7), so that a user can implement them.
`Verif.Model.ByteMap` is the same code with `L = VecDeque`.
-/

set_option autoImplicit false

namespace Veb

/-- `trait List`, src/bitset/map/list.rs:113-124.  Its code may panic; `from_monad` does not, as everywhere in the model. -/
class ListT (L : Type) (V : outParam Type) where
  /-- :115 -/
  fromMonad : V → L
  /-- :116 -/
  len : L → R Nat
  /-- :117-119, the provided method -/
  isEmpty : L → R Bool := fun l => do pure (decide ((← len l) = 0))
  /-- :120 -/
  get : L → Nat → R V
  /-- :121 -/
  getMut : L → Nat → R (V × (V → L))
  /-- :122 -/
  insertValue : L → Nat → V → R L
  /-- :123 -/
  removeValue : L → Nat → R (Option L × V)

/-- `trait TreeList`, src/bitset/map/list.rs:16-30; `len` answers a `NonZeroUsize`. -/
class TreeListT (L : Type) (T Lo V : outParam Type) where
  /-- :18 -/
  fromMonad : T → L
  /-- :20 -/
  len : L → R Nat
  /-- :21 -/
  get : L → Nat → R T
  /-- :22 -/
  getMut : L → Nat → R (T × (T → L))
  /-- :23 -/
  insertTree : L → Nat → T → R L
  /-- :24-26 -/
  removeKey : L → Nat → (T → R (Option T × (Lo × V))) → R (Option (L × Bool) × (Lo × V))
  /-- :27-29 -/
  maybeRemoveKey : L → Nat → (T → R (Result (Option T × (Lo × V)) T)) →
    R (Result (Option (L × Bool) × (Lo × V)) L)

/-- `VecDeque<A>` as a list type; `VecDeque` itself is trusted to be a sequence. -/
structure Deque (A : Type) where
  items : List A

namespace Deque
variable {A Lo V : Type}

/-- `impl List for VecDeque<V>`, src/bitset/map/list.rs:130-152 -/
instance : ListT (Deque A) A where
  fromMonad v := ⟨[v]⟩
  len l := pure l.items.length
  get l i := VecDeque.get l.items i
  getMut l i := do
    let (a, put) ← VecDeque.getMut l.items i
    pure (a, fun b => ⟨put b⟩)
  insertValue l i v := do pure ⟨← VecDeque.insertAt l.items i v⟩
  removeValue l i := do
    let (l, v) ← VecDeque.removeValue l.items i
    pure (l.map Deque.mk, v)

/-- `impl TreeList for VecDeque<V>`, src/bitset/map/list.rs:36-107; `len`, :42-44, expects the list not to be empty. -/
instance [VebTree A Lo V] : TreeListT (Deque A) A Lo V where
  fromMonad v := ⟨[v]⟩
  len l := if l.items.length = 0 then .error (.expect "VecDeque should never be empty") else .ok l.items.length
  get l i := VecDeque.get l.items i
  getMut l i := do
    let (a, put) ← VecDeque.getMut l.items i
    pure (a, fun b => ⟨put b⟩)
  insertTree l i v := do pure ⟨← VecDeque.insertAt l.items i v⟩
  removeKey l i f := do
    let (o, val) ← VecDeque.removeKey l.items i f
    pure (o.map fun p => (⟨p.1⟩, p.2), val)
  maybeRemoveKey l i f := do
    match (← VecDeque.maybeRemoveKey l.items i f) with
    | .Err l => pure (.Err ⟨l⟩)
    | .Ok (o, val) => pure (.Ok (o.map fun p => (⟨p.1⟩, p.2), val))

end Deque

/-- `struct ByteMap<L>`, src/bitset/map/mod.rs:30-33. -/
structure ByteMapOf (L : Type) where
  set : ByteSet
  list : L

namespace ByteMapOf

/-! ## As a tree, src/bitset/map/mod.rs:131-300 -/

section tree
variable {L V : Type} [ListT L V]

/-- src/bitset/map/mod.rs:135-140 -/
def fromMonad (k : U 8) (v : V) : ByteMapOf L := ⟨ByteSet.fromMonad k (), ListT.fromMonad v⟩
/-- src/bitset/map/mod.rs:142-144 -/
def isMonad (m : ByteMapOf L) : R Bool := do pure (decide ((← ListT.len m.list) = 1))
/-- src/bitset/map/mod.rs:146-158 -/
def intoMonad (m : ByteMapOf L) : R (Result (U 8 × V) (ByteMapOf L)) := do
  match (← m.set.intoMonad) with
  | .Ok (k, ()) =>
    let (l, v) ← ListT.removeValue m.list 0
    debugAssert l.isNone
    pure (.Ok (k, v))
  | .Err set => pure (.Err { m with set := set })
/-- src/bitset/map/mod.rs:160-162 -/
def minVal (m : ByteMapOf L) : R (U 8 × V) := do
  pure ((← m.set.minVal).1, ← ListT.get m.list 0)
/-- src/bitset/map/mod.rs:164-166 -/
def minValMut (m : ByteMapOf L) : R (U 8 × V × (V → ByteMapOf L)) := do
  let k := (← m.set.minVal).1
  let (v, put) ← ListT.getMut m.list 0
  pure (k, v, fun w => { m with list := put w })
/-- src/bitset/map/mod.rs:168-170 -/
def maxVal (m : ByteMapOf L) : R (U 8 × V) := do
  pure ((← m.set.maxVal).1, ← ListT.get m.list (← subUsize (← ListT.len m.list) 1))
/-- src/bitset/map/mod.rs:172-174 -/
def maxValMut (m : ByteMapOf L) : R (U 8 × V × (V → ByteMapOf L)) := do
  let k := (← m.set.maxVal).1
  let (v, put) ← ListT.getMut m.list (← subUsize (← ListT.len m.list) 1)
  pure (k, v, fun w => { m with list := put w })
/-- src/bitset/map/mod.rs:176-184 -/
def find (m : ByteMapOf L) (k : U 8) : R (Option (U 8 × V)) := do
  match (← m.set.find k) with
  | none => pure none
  | some (k, ()) => pure (some (k, ← ListT.get m.list (m.set.countBelow k)))
/-- src/bitset/map/mod.rs:186-194 -/
def findMut (m : ByteMapOf L) (k : U 8) : R (Option (U 8 × V × (V → ByteMapOf L))) := do
  match (← m.set.find k) with
  | none => pure none
  | some (k, ()) =>
    let (v, put) ← ListT.getMut m.list (m.set.countBelow k)
    pure (some (k, v, fun w => { m with list := put w }))
/-- src/bitset/map/mod.rs:196-204 -/
def predecessor (m : ByteMapOf L) (k : U 8) : R (Option (U 8 × V)) := do
  match (← m.set.predecessor k) with
  | none => pure none
  | some (k, ()) => pure (some (k, ← ListT.get m.list (m.set.countBelow k)))
/-- src/bitset/map/mod.rs:206-217 -/
def predecessorMut (m : ByteMapOf L) (k : U 8) : R (Option (U 8 × V × (V → ByteMapOf L))) := do
  match (← m.set.predecessor k) with
  | none => pure none
  | some (k, ()) =>
    let (v, put) ← ListT.getMut m.list (m.set.countBelow k)
    pure (some (k, v, fun w => { m with list := put w }))
/-- src/bitset/map/mod.rs:219-227 -/
def successor (m : ByteMapOf L) (k : U 8) : R (Option (U 8 × V)) := do
  match (← m.set.successor k) with
  | none => pure none
  | some (k, ()) => pure (some (k, ← ListT.get m.list (m.set.countBelow k)))
/-- src/bitset/map/mod.rs:229-237 -/
def successorMut (m : ByteMapOf L) (k : U 8) : R (Option (U 8 × V × (V → ByteMapOf L))) := do
  match (← m.set.successor k) with
  | none => pure none
  | some (k, ()) =>
    let (v, put) ← ListT.getMut m.list (m.set.countBelow k)
    pure (some (k, v, fun w => { m with list := put w }))
/-- src/bitset/map/mod.rs:239-252 -/
def insert (m : ByteMapOf L) (k : U 8) (v : V) : R (ByteMapOf L × Option (U 8 × V)) := do
  let (set, r) ← m.set.insert k ()
  match r with
  | some (k, ()) =>
    let (old, put) ← ListT.getMut m.list (set.countBelow k)
    pure (⟨set, put v⟩, some (k, old))
  | none => pure (⟨set, ← ListT.insertValue m.list (set.countBelow k) v⟩, none)
/-- src/bitset/map/mod.rs:254-277 -/
def remove (m : ByteMapOf L) (k : U 8) :
    R (Result (Option (ByteMapOf L) × (U 8 × V)) (ByteMapOf L)) := do
  let i := m.set.countBelow k
  match (← m.set.remove k) with
  | .Err set => pure (.Err { m with set := set })
  | .Ok (some set, (k, ())) =>
    let (list, v) ← ListT.removeValue m.list i
    let list ← expect "set is non-empty so list should be non-empty" list
    pure (.Ok (some ⟨set, list⟩, (k, v)))
  | .Ok (none, (k, ())) =>
    let (list, v) ← ListT.removeValue m.list i
    debugAssert list.isNone
    pure (.Ok (none, (k, v)))
/-- src/bitset/map/mod.rs:279-288 -/
def removeMin (m : ByteMapOf L) : R (Option (ByteMapOf L) × (U 8 × V)) := do
  let i := m.set.countBelow (← m.set.minVal).1
  let (set, (k, ())) ← m.set.removeMin
  let (list, v) ← ListT.removeValue m.list i
  match set, list with
  | some set, some list => pure (some ⟨set, list⟩, (k, v))
  | none, none => pure (none, (k, v))
  | _, _ => .error .unreachable
/-- src/bitset/map/mod.rs:290-299 -/
def removeMax (m : ByteMapOf L) : R (Option (ByteMapOf L) × (U 8 × V)) := do
  let i := m.set.countBelow (← m.set.maxVal).1
  let (set, (k, ())) ← m.set.removeMax
  let (list, v) ← ListT.removeValue m.list i
  match set, list with
  | some set, some list => pure (some ⟨set, list⟩, (k, v))
  | none, none => pure (none, (k, v))
  | _, _ => .error .unreachable

/-- `impl VebTree for ByteMap<L>`, src/bitset/map/mod.rs:131-300; `len_hint` is the provided one -/
instance : VebTree (ByteMapOf L) (U 8) V where
  fromMonad := fromMonad
  isMonad := isMonad
  lenHint := defaultLenHint isMonad
  intoMonad := intoMonad
  minVal := minVal
  minValMut := minValMut
  maxVal := maxVal
  maxValMut := maxValMut
  find := find
  findMut := findMut
  predecessor := predecessor
  predecessorMut := predecessorMut
  successor := successor
  successorMut := successorMut
  insert := insert
  remove := remove
  removeMin := removeMin
  removeMax := removeMax

end tree

/-! ## As a collection of trees, src/bitset/map/mod.rs:36-119 -/

namespace Coll
variable {L T Lo V : Type} [VebTree T Lo V] [TreeListT L T Lo V]

/-- src/bitset/map/mod.rs:40-45 -/
def create (h : U 8) (tree : T) : R (ByteMapOf L) := pure ⟨ByteSet.fromMonad h (), TreeListT.fromMonad tree⟩
/-- src/bitset/map/mod.rs:47-52 -/
def get (c : ByteMapOf L) (h : U 8) : R (Option T) := do
  if !c.set.isPresent h then pure none
  else pure (some (← TreeListT.get c.list (c.set.countBelow h)))
/-- src/bitset/map/mod.rs:53-58 -/
def getMut (c : ByteMapOf L) (h : U 8) : R (Option (T × (T → ByteMapOf L))) := do
  if !c.set.isPresent h then pure none
  else
    let (t, put) ← TreeListT.getMut c.list (c.set.countBelow h)
    pure (some (t, fun u => { c with list := put u }))
/-- src/bitset/map/mod.rs:60-69 -/
def insertKey (c : ByteMapOf L) (h : U 8) (lv : Lo × V) :
    R (ByteMapOf L × Result (U 8) (U 8 × Option (Lo × V))) := do
  let i := c.set.countBelow h
  let (set, r) ← c.set.insert h ()
  if r.isSome then
    let (t, put) ← TreeListT.getMut c.list i
    let (t, o) ← VebTree.insert t lv.1 lv.2
    pure (⟨set, put t⟩, .Err (h, o))
  else
    pure (⟨set, ← TreeListT.insertTree c.list i (VebTree.fromMonad lv.1 lv.2)⟩, .Ok h)
/-- src/bitset/map/mod.rs:70-90 -/
def removeKey (c : ByteMapOf L) (h : U 8) (r : T → R (Option T × (Lo × V))) :
    R (Option (ByteMapOf L × Bool) × (Lo × V)) := do
  debugAssert (← c.set.find h).isSome
  let i := c.set.countBelow h
  match (← TreeListT.removeKey c.list i r) with
  | (none, v) => pure (none, v)
  | (some (list, removed), v) =>
    if removed then
      debugAssert (c.set.isPresent h)
      pure (some (⟨c.set.unsetBit h, list⟩, removed), v)
    else pure (some (⟨c.set, list⟩, removed), v)
/-- src/bitset/map/mod.rs:92-118 -/
def maybeRemoveKey (c : ByteMapOf L) (h : U 8) (r : T → R (Result (Option T × (Lo × V)) T)) :
    R (Result (Option (ByteMapOf L × Bool) × (Lo × V)) (ByteMapOf L)) := do
  if (← c.set.find h).isNone then pure (.Err c)
  else
    let i := c.set.countBelow h
    match (← TreeListT.maybeRemoveKey c.list i r) with
    | .Err list => pure (.Err { c with list := list })
    | .Ok (none, v) => pure (.Ok (none, v))
    | .Ok (some (list, removed), v) =>
      if removed then
        debugAssert (c.set.isPresent h)
        pure (.Ok (some (⟨c.set.unsetBit h, list⟩, removed), v))
      else pure (.Ok (some (⟨c.set, list⟩, removed), v))

end Coll

/-- `impl TreeCollection for ByteMap<L>`, src/bitset/map/mod.rs:36-119 -/
instance {L T Lo V : Type} [VebTree T Lo V] [TreeListT L T Lo V] : TreeCollection (ByteMapOf L) (U 8) T Lo V where
  create := Coll.create
  get := Coll.get
  getMut := Coll.getMut
  insertKey := Coll.insertKey
  removeKey := Coll.removeKey
  maybeRemoveKey := Coll.maybeRemoveKey

end ByteMapOf
end Veb
