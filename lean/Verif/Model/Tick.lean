import Verif.Model.Markers

/-!
# Counting the work

The methods of the crate once more, with a log of what they do: every call of a `VebTree` method on a tree (of whatever
type) is a visit, and `Tree` logs its comparisons of keys, its splits and joins of keys and its calls of collection
methods; a new collection logs how many array slots it fills.  The inside of hash table, array access, `VecDeque`,
`BTreeMap` and bit set is not logged.  The code is the one of the model; `Verif.Proof.Tick` proves that forgetting the log
gives back the model.
-/

set_option autoImplicit false

namespace Veb

/-- What is logged. -/
inductive Ev
  /-- a call of a `VebTree` method -/
  | visit
  /-- a comparison of two keys by `Tree` -/
  | cmp
  /-- `split_val` or `split_ref` -/
  | split
  /-- `join` -/
  | join
  /-- a call of a `TreeCollection` method by `Tree` -/
  | call
  /-- a new collection, with an array of this many slots (none: 0) -/
  | make (slots : Nat)
  deriving DecidableEq, Repr

/-- A computation that logs, also up to a panic. -/
structure Tk (α : Type) where
  run : R α
  log : List Ev

namespace Tk

/-- the number of visits -/
def cost {α : Type} (x : Tk α) : Nat := x.log.count .visit
/-- a computation that logs nothing -/
def lift {α : Type} (x : R α) : Tk α := ⟨x, []⟩
/-- log `e` -/
def ev (e : Ev) : Tk Unit := ⟨.ok (), [e]⟩
/-- one visit -/
def tick : Tk Unit := ev .visit

instance : Monad Tk where
  pure a := ⟨.ok a, []⟩
  bind x f :=
    match x.run with
    | .error e => ⟨.error e, x.log⟩
    | .ok a => ⟨(f a).run, x.log ++ (f a).log⟩

instance : MonadLift R Tk := ⟨lift⟩

end Tk
open Tk (tick ev lift)

/-- The methods of `VebTree` with a log.  `…_mut` methods, `len_hint`: as in `VebTree`. -/
class TickTree (T : Type) (K V : outParam Type) where
  fromMonad : K → V → Tk T
  isMonad : T → Tk Bool
  lenHint : T → Tk (Nat × Option Nat)
  intoMonad : T → Tk (Result (K × V) T)
  minVal : T → Tk (K × V)
  minValMut : T → Tk (K × V × (V → T))
  maxVal : T → Tk (K × V)
  maxValMut : T → Tk (K × V × (V → T))
  find : T → K → Tk (Option (K × V))
  findMut : T → K → Tk (Option (K × V × (V → T)))
  predecessor : T → K → Tk (Option (K × V))
  predecessorMut : T → K → Tk (Option (K × V × (V → T)))
  successor : T → K → Tk (Option (K × V))
  successorMut : T → K → Tk (Option (K × V × (V → T)))
  insert : T → K → V → Tk (T × Option (K × V))
  remove : T → K → Tk (Result (Option T × (K × V)) T)
  removeMin : T → Tk (Option T × (K × V))
  removeMax : T → Tk (Option T × (K × V))

/-- The methods of `TreeCollection` that make a collection or call methods of the stored trees, with a log. -/
class TickColl (C : Type) (Hi T Lo V : outParam Type) where
  create : Hi → T → Tk C
  insertKey : C → Hi → Lo × V → Tk (C × Result Hi (Hi × Option (Lo × V)))
  removeKey : C → Hi → (T → Tk (Option T × (Lo × V))) → Tk (Option (C × Bool) × (Lo × V))
  maybeRemoveKey : C → Hi → (T → Tk (Result (Option T × (Lo × V)) T)) →
    Tk (Result (Option (C × Bool) × (Lo × V)) C)

/-! ## Leaves: a call is one visit -/

/-- Counting for a tree type whose methods call no methods of other trees. -/
@[reducible] def TickTree.leaf (T : Type) {K V : Type} [VebTree T K V] : TickTree T K V where
  fromMonad k v := do tick; pure (VebTree.fromMonad k v)
  isMonad t := do tick; VebTree.isMonad t
  lenHint t := do tick; VebTree.lenHint t
  intoMonad t := do tick; VebTree.intoMonad t
  minVal t := do tick; VebTree.minVal t
  minValMut t := do tick; VebTree.minValMut t
  maxVal t := do tick; VebTree.maxVal t
  maxValMut t := do tick; VebTree.maxValMut t
  find t k := do tick; VebTree.find t k
  findMut t k := do tick; VebTree.findMut t k
  predecessor t k := do tick; VebTree.predecessor t k
  predecessorMut t k := do tick; VebTree.predecessorMut t k
  successor t k := do tick; VebTree.successor t k
  successorMut t k := do tick; VebTree.successorMut t k
  insert t k v := do tick; VebTree.insert t k v
  remove t k := do tick; VebTree.remove t k
  removeMin t := do tick; VebTree.removeMin t
  removeMax t := do tick; VebTree.removeMax t

instance : TickTree ByteSet (U 8) Unit := .leaf ByteSet
instance {V : Type} : TickTree (ByteMap V) (U 8) V := .leaf (ByteMap V)
instance {K V : Type} [LinearOrder K] : TickTree (BTreeMap K V) K V := .leaf (BTreeMap K V)

/-! ## Wrappers: one visit of their own and those of what they wrap -/

/-- src/lib.rs:327-431 -/
instance {T K V : Type} [TickTree T K V] : TickTree (Box T) K V where
  fromMonad k v := do
    tick
    pure ⟨← TickTree.fromMonad k v⟩
  isMonad t := do
    tick
    TickTree.isMonad t.val
  lenHint t := do
    tick
    TickTree.lenHint t.val
  intoMonad t := do
    tick
    match (← TickTree.intoMonad t.val) with
    | .Ok kv => pure (.Ok kv)
    | .Err t => pure (.Err ⟨t⟩)
  minVal t := do
    tick
    TickTree.minVal t.val
  minValMut t := do
    tick
    pure (mapPut Box.mk (← TickTree.minValMut t.val))
  maxVal t := do
    tick
    TickTree.maxVal t.val
  maxValMut t := do
    tick
    pure (mapPut Box.mk (← TickTree.maxValMut t.val))
  find t k := do
    tick
    TickTree.find t.val k
  findMut t k := do
    tick
    pure ((← TickTree.findMut t.val k).map (mapPut Box.mk))
  predecessor t k := do
    tick
    TickTree.predecessor t.val k
  predecessorMut t k := do
    tick
    pure ((← TickTree.predecessorMut t.val k).map (mapPut Box.mk))
  successor t k := do
    tick
    TickTree.successor t.val k
  successorMut t k := do
    tick
    pure ((← TickTree.successorMut t.val k).map (mapPut Box.mk))
  insert t k v := do
    tick
    let (t, o) ← TickTree.insert t.val k v
    pure (⟨t⟩, o)
  remove t k := do
    tick
    match (← TickTree.remove t.val k) with
    | .Ok (tree, r) => pure (.Ok (tree.map Box.mk, r))
    | .Err tree => pure (.Err ⟨tree⟩)
  removeMin t := do
    tick
    let (tree, v) ← TickTree.removeMin t.val
    pure (tree.map Box.mk, v)
  removeMax t := do
    tick
    let (tree, v) ← TickTree.removeMax t.val
    pure (tree.map Box.mk, v)

/-- src/lib.rs:183-325 -/
instance {T K V : Type} [TickTree T K V] : TickTree (SizedVebTree T) K V where
  fromMonad k v := do
    tick
    pure ⟨← TickTree.fromMonad k v, 1⟩
  isMonad t := do
    tick
    if (← TickTree.isMonad t.tree) then
      debugAssert (decide (t.size = 1))
      pure true
    else pure false
  lenHint t := do
    tick
    pure (t.size, some t.size)
  intoMonad t := do
    tick
    match (← TickTree.intoMonad t.tree) with
    | .Ok kv => pure (.Ok kv)
    | .Err tree => pure (.Err ⟨tree, t.size⟩)
  minVal t := do
    tick
    TickTree.minVal t.tree
  minValMut t := do
    tick
    pure (mapPut (fun u => ⟨u, t.size⟩) (← TickTree.minValMut t.tree))
  maxVal t := do
    tick
    TickTree.maxVal t.tree
  maxValMut t := do
    tick
    pure (mapPut (fun u => ⟨u, t.size⟩) (← TickTree.maxValMut t.tree))
  find t k := do
    tick
    TickTree.find t.tree k
  findMut t k := do
    tick
    pure ((← TickTree.findMut t.tree k).map (mapPut (fun u => ⟨u, t.size⟩)))
  predecessor t k := do
    tick
    TickTree.predecessor t.tree k
  predecessorMut t k := do
    tick
    pure ((← TickTree.predecessorMut t.tree k).map (mapPut (fun u => ⟨u, t.size⟩)))
  successor t k := do
    tick
    TickTree.successor t.tree k
  successorMut t k := do
    tick
    pure ((← TickTree.successorMut t.tree k).map (mapPut (fun u => ⟨u, t.size⟩)))
  insert t k v := do
    tick
    let (tree, o) ← TickTree.insert t.tree k v
    if o.isNone then
      let size ← expect "size overflowed" (if t.size + 1 ≤ usizeMax then some (t.size + 1) else none)
      pure (⟨tree, size⟩, o)
    else pure (⟨tree, t.size⟩, o)
  remove t k := do
    tick
    match (← TickTree.remove t.tree k) with
    | .Ok (some tree, r) =>
      let size ← expect "last item didn't remove tree" (SizedVebTree.nonZero (← subUsize t.size 1))
      pure (.Ok (some ⟨tree, size⟩, r))
    | .Ok (none, v) => pure (.Ok (none, v))
    | .Err tree => pure (.Err ⟨tree, t.size⟩)
  removeMin t := do
    tick
    let newSize := SizedVebTree.nonZero (← subUsize t.size 1)
    match (← TickTree.removeMin t.tree) with
    | (some tree, v) =>
      let size ← expect "last item didn't remove tree" newSize
      pure (some ⟨tree, size⟩, v)
    | (none, v) => pure (none, v)
  removeMax t := do
    tick
    let newSize := SizedVebTree.nonZero (← subUsize t.size 1)
    match (← TickTree.removeMax t.tree) with
    | (some tree, v) =>
      let size ← expect "last item didn't remove tree" newSize
      pure (some ⟨tree, size⟩, v)
    | (none, v) => pure (none, v)

/-! ## Collections: no visits of their own -/

namespace ArrayColl
variable {Hi T Lo V : Type} [SizedVebKey Hi]

/-- src/collection/array.rs:49-53, 76-78, 102-110: `A::create` fills the array with `None` -/
def createT (h : Hi) (t : T) : Tk (ArrayColl Hi T) := do
  ev (.make (OptionArray.typenumUsize (SizedVebKey.cardinality Hi)))
  create h t
/-- src/collection/array.rs:120-132 -/
def insertKeyT [TickTree T Lo V] (c : ArrayColl Hi T) (h : Hi) (lv : Lo × V) :
    Tk (ArrayColl Hi T × Result Hi (Hi × Option (Lo × V))) := do
  match (← c.array.get (SizedVebKey.index h)) with
  | none =>
    let array ← c.array.put (SizedVebKey.index h) (some (← TickTree.fromMonad lv.1 lv.2))
    pure (⟨array, ← addUsize c.count 1⟩, .Ok h)
  | some t =>
    let (t, o) ← TickTree.insert t lv.1 lv.2
    pure (⟨← c.array.put (SizedVebKey.index h) (some t), c.count⟩, .Err (h, o))
/-- src/collection/array.rs:139-162 -/
def removeKeyT (c : ArrayColl Hi T) (h : Hi) (r : T → Tk (Option T × (Lo × V))) :
    Tk (Option (ArrayColl Hi T × Bool) × (Lo × V)) := do
  let t ← expect "array should contain tree at key index" (← c.array.get (SizedVebKey.index h))
  let array ← c.array.put (SizedVebKey.index h) none
  let (t, val) ← r t
  let removed := t.isNone
  let count ← if removed then subUsize c.count 1 else pure c.count
  let array ← array.put (SizedVebKey.index h) t
  if count = 0 then pure (none, val) else pure (some (⟨array, count⟩, removed), val)
/-- src/collection/array.rs:169-197 -/
def maybeRemoveKeyT (c : ArrayColl Hi T) (h : Hi) (r : T → Tk (Result (Option T × (Lo × V)) T)) :
    Tk (Result (Option (ArrayColl Hi T × Bool) × (Lo × V)) (ArrayColl Hi T)) := do
  match (← c.array.get (SizedVebKey.index h)) with
  | none => pure (.Err c)
  | some t =>
    let array ← c.array.put (SizedVebKey.index h) none
    match (← r t) with
    | .Err t => pure (.Err ⟨← array.put (SizedVebKey.index h) (some t), c.count⟩)
    | .Ok (t, val) =>
      let removed := t.isNone
      let count ← if removed then subUsize c.count 1 else pure c.count
      let array ← array.put (SizedVebKey.index h) t
      if count = 0 then pure (.Ok (none, val)) else pure (.Ok (some (⟨array, count⟩, removed), val))

instance [TickTree T Lo V] : TickColl (ArrayColl Hi T) Hi T Lo V := ⟨createT, insertKeyT, removeKeyT, maybeRemoveKeyT⟩

end ArrayColl

namespace HashMap
variable {Hi T Lo V : Type} [DecidableEq Hi]

/-- src/collection/hash.rs:42-48 -/
def createT (h : Hi) (t : T) : Tk (HashMap Hi T) := do
  ev (.make 0)
  create h t
/-- src/collection/hash.rs:57-67 -/
def insertKeyT [TickTree T Lo V] (c : HashMap Hi T) (h : Hi) (lv : Lo × V) :
    Tk (HashMap Hi T × Result Hi (Hi × Option (Lo × V))) := do
  match c.lookup h with
  | none => pure (c.add h (← TickTree.fromMonad lv.1 lv.2), .Ok h)
  | some t =>
    let (t, o) ← TickTree.insert t lv.1 lv.2
    pure (c.assign h t, .Err (h, o))
/-- src/collection/hash.rs:69-95 -/
def removeKeyT (c : HashMap Hi T) (h : Hi) (r : T → Tk (Option T × (Lo × V))) :
    Tk (Option (HashMap Hi T × Bool) × (Lo × V)) := do
  match c.lookup h with
  | none => lift (.error .unreachable)
  | some t =>
    let (t, val) ← r t
    let c := c.replaceEntry h t
    let removed := t.isNone
    if c.entries.isEmpty then pure (none, val) else pure (some (c, removed), val)
/-- src/collection/hash.rs:97-123 -/
def maybeRemoveKeyT (c : HashMap Hi T) (h : Hi) (r : T → Tk (Result (Option T × (Lo × V)) T)) :
    Tk (Result (Option (HashMap Hi T × Bool) × (Lo × V)) (HashMap Hi T)) := do
  match c.lookup h with
  | none => pure (.Err c)
  | some t =>
    let (o, val) : Option T × Option (Lo × V) ← do
      match (← r t) with
      | .Err t => pure (some t, none)
      | .Ok (t, rval) => pure (t, some rval)
    let c := c.replaceEntry h o
    let removed := o.isNone
    match val, c.entries.isEmpty with
    | some val, true => pure (.Ok (none, val))
    | some val, false => pure (.Ok (some (c, removed), val))
    | none, false => pure (.Err c)
    | none, true => lift (.error .unreachable)

instance [TickTree T Lo V] : TickColl (HashMap Hi T) Hi T Lo V := ⟨createT, insertKeyT, removeKeyT, maybeRemoveKeyT⟩

end HashMap

namespace VecDeque
variable {A Lo V : Type}

/-- `TreeList::remove_key`, src/bitset/map/list.rs:55-78. `vec_entry`'s `replace_entry_with` puts the
returned element back, or removes the slot (keeping the order) when `None` is returned. -/
def removeKeyT (l : List A) (i : Nat) (f : A → Tk (Option A × (Lo × V))) :
    Tk (Option (List A × Bool) × (Lo × V)) := do
  match l[i]? with
  | none => lift (.error .unreachable)
  | some tree =>
    let (tree, val) ← f tree
    let removed := tree.isNone
    let l' := match tree with
      | some t => l.set i t
      | none => l.eraseIdx i
    if l'.isEmpty then
      debugAssert removed
      pure (none, val)
    else pure (some (l', removed), val)
/-- `TreeList::maybe_remove_key`, src/bitset/map/list.rs:79-106. -/
def maybeRemoveKeyT (l : List A) (i : Nat) (f : A → Tk (Result (Option A × (Lo × V)) A)) :
    Tk (Result (Option (List A × Bool) × (Lo × V)) (List A)) := do
  match l[i]? with
  | none => lift (.error .unreachable)
  | some tree =>
    match (← f tree) with
    | .Err tree => pure (.Err (l.set i tree))
    | .Ok (tree, val) =>
      let removed := tree.isNone
      let l' := match tree with
        | some t => l.set i t
        | none => l.eraseIdx i
      if l'.isEmpty then
        debugAssert removed
        pure (.Ok (none, val))
      else pure (.Ok (some (l', removed), val))

end VecDeque

namespace ByteMap.Coll
variable {T Lo V : Type}

/-- src/bitset/map/mod.rs:40-45 -/
def createT (h : U 8) (t : T) : Tk (ByteMap T) := do
  ev (.make 0)
  create h t
/-- src/bitset/map/mod.rs:60-69 -/
def insertKeyT [TickTree T Lo V] (c : ByteMap T) (h : U 8) (lv : Lo × V) :
    Tk (ByteMap T × Result (U 8) (U 8 × Option (Lo × V))) := do
  let i := c.set.countBelow h
  let (set, r) ← c.set.insert h ()
  if r.isSome then
    let (t, put) ← VecDeque.getMut c.list i
    let (t, o) ← TickTree.insert t lv.1 lv.2
    pure (⟨set, put t⟩, .Err (h, o))
  else
    pure (⟨set, ← VecDeque.insertAt c.list i (← TickTree.fromMonad lv.1 lv.2)⟩, .Ok h)
/-- src/bitset/map/mod.rs:70-90 -/
def removeKeyT (c : ByteMap T) (h : U 8) (r : T → Tk (Option T × (Lo × V))) :
    Tk (Option (ByteMap T × Bool) × (Lo × V)) := do
  debugAssert (← c.set.find h).isSome
  let i := c.set.countBelow h
  match (← VecDeque.removeKeyT c.list i r) with
  | (none, v) => pure (none, v)
  | (some (list, removed), v) =>
    if removed then
      debugAssert (c.set.isPresent h)
      pure (some (⟨c.set.unsetBit h, list⟩, removed), v)
    else pure (some (⟨c.set, list⟩, removed), v)
/-- src/bitset/map/mod.rs:92-118 -/
def maybeRemoveKeyT (c : ByteMap T) (h : U 8) (r : T → Tk (Result (Option T × (Lo × V)) T)) :
    Tk (Result (Option (ByteMap T × Bool) × (Lo × V)) (ByteMap T)) := do
  if (← c.set.find h).isNone then pure (.Err c)
  else
    let i := c.set.countBelow h
    match (← VecDeque.maybeRemoveKeyT c.list i r) with
    | .Err list => pure (.Err { c with list := list })
    | .Ok (none, v) => pure (.Ok (none, v))
    | .Ok (some (list, removed), v) =>
      if removed then
        debugAssert (c.set.isPresent h)
        pure (.Ok (some (⟨c.set.unsetBit h, list⟩, removed), v))
      else pure (.Ok (some (⟨c.set, list⟩, removed), v))

instance [TickTree T Lo V] : TickColl (ByteMap T) (U 8) T Lo V := ⟨createT, insertKeyT, removeKeyT, maybeRemoveKeyT⟩

end ByteMap.Coll

/-- src/collection/mod.rs:108-155 -/
instance {C Hi T Lo V : Type} [TickColl C Hi T Lo V] : TickColl (Box C) Hi T Lo V where
  create h t := do pure ⟨← TickColl.create h t⟩
  insertKey c h lv := do
    let (c, r) ← TickColl.insertKey c.val h lv
    pure (⟨c⟩, r)
  removeKey c h r := do
    let (t, v) ← TickColl.removeKey c.val h r
    pure (t.map (fun (t, b) => (⟨t⟩, b)), v)
  maybeRemoveKey c h r := do
    match (← TickColl.maybeRemoveKey c.val h r) with
    | .Err c => pure (.Err ⟨c⟩)
    | .Ok (t, v) => pure (.Ok (t.map (fun (t, b) => (⟨t⟩, b)), v))

/-! ## Tree -/

namespace Tree
variable {K V S C Hi Lo T : Type} [LinearOrder K] [VebKey K Hi Lo] [VebKeyRef K Hi Lo] [TickTree S Hi Unit]
  [TickTree T Lo V] [TreeCollection C Hi T Lo V] [TickColl C Hi T Lo V]

/-- src/tree.rs:89-95 -/
def fromMonadT (k : K) (v : V) : Tk (Tree K V S C) := do
  tick
  pure ⟨(k, v), none⟩
/-- src/tree.rs:106-109 -/
def isMonadT (t : Tree K V S C) : Tk Bool := do
  tick
  pure t.data.isNone
/-- src/tree.rs:97-104 -/
def intoMonadT (t : Tree K V S C) : Tk (Result (K × V) (Tree K V S C)) := do
  tick
  if (← t.isMonadT) then pure (.Ok t.min) else pure (.Err t)
/-- src/tree.rs:111-114 -/
def minValT (t : Tree K V S C) : Tk (K × V) := do
  tick
  pure t.min
/-- src/tree.rs:116-119 -/
def minValMutT (t : Tree K V S C) : Tk (K × V × (V → Tree K V S C)) := do
  tick
  pure (t.min.1, t.min.2, t.putMin)
/-- src/tree.rs:121-129 -/
def maxValT (t : Tree K V S C) : Tk (K × V) := do
  tick
  match t.data with
  | some data => pure data.max
  | none => pure t.min
/-- src/tree.rs:131-139 -/
def maxValMutT (t : Tree K V S C) : Tk (K × V × (V → Tree K V S C)) := do
  tick
  match t.data with
  | some data => pure (data.max.1, data.max.2, t.putMax data)
  | none => pure (t.min.1, t.min.2, t.putMin)
/-- src/tree.rs:141-169 -/
def findT (t : Tree K V S C) (k : K) : Tk (Option (K × V)) := do
  tick
  ev .cmp
  match cmp k t.min.1 with
  | .lt => pure none
  | .eq => pure (some t.min)
  | .gt =>
    match t.data with
    | none => pure none
    | some data =>
      ev .cmp
      if k = data.max.1 then pure (some data.max)
      else
        match data.children with
        | none => pure none
        | some (_, children) =>
          ev .split
          let (hi, lo) := VebKeyRef.splitRef k
          ev .call
          match (← TreeCollection.get children hi) with
          | none => pure none
          | some child =>
            match (← TickTree.find child lo) with
            | none => pure none
            | some (lo, val) =>
              ev .join
              pure (some (VebKey.join hi lo, val))
/-- src/tree.rs:171-199 -/
def findMutT (t : Tree K V S C) (k : K) : Tk (Option (K × V × (V → Tree K V S C))) := do
  tick
  ev .cmp
  match cmp k t.min.1 with
  | .lt => pure none
  | .eq => pure (some (t.min.1, t.min.2, t.putMin))
  | .gt =>
    match t.data with
    | none => pure none
    | some data =>
      ev .cmp
      if k = data.max.1 then pure (some (data.max.1, data.max.2, t.putMax data))
      else
        match data.children with
        | none => pure none
        | some (summary, children) =>
          ev .split
          let (hi, lo) := VebKeyRef.splitRef k
          ev .call
          match (← TreeCollection.getMut children hi) with
          | none => pure none
          | some (child, putC) =>
            match (← TickTree.findMut child lo) with
            | none => pure none
            | some (lo, val, put) =>
              ev .join
              pure (some (VebKey.join hi lo, val,
                fun w => t.putChildren data summary (putC (put w))))
/-- src/tree.rs:201-255 -/
def predecessorT (t : Tree K V S C) (k : K) : Tk (Option (K × V)) := do
  tick
  ev .cmp
  if k ≤ t.min.1 then pure none
  else
    match t.data with
    | none => pure (some t.min)
    | some data =>
      ev .cmp
      match cmp k data.max.1, data.children with
      | .gt, _ => pure (some data.max)
      | _, none => pure (some t.min)
      | .eq, some (summary, children) =>
        let (hi, ()) ← TickTree.maxVal summary
        ev .call
        let child ← expect "child should exist for summary key" (← TreeCollection.get children hi)
        let (lo, val) ← TickTree.maxVal child
        ev .join
        pure (some (VebKey.join hi lo, val))
      | .lt, some (summary, children) =>
        ev .split
        let (hi, lo) := VebKeyRef.splitRef k
        let inChild ← (do
          ev .call
          match (← TreeCollection.get children hi) with
          | none => pure none
          | some child => TickTree.predecessor child lo : Tk (Option (Lo × V)))
        match inChild with
        | some (lo, val) =>
          ev .join
          pure (some (VebKey.join hi lo, val))
        | none =>
          match (← TickTree.predecessor summary hi) with
          | some (hi, ()) =>
            ev .call
            let child ← expect "child should exist for summary key" (← TreeCollection.get children hi)
            let (lo, val) ← TickTree.maxVal child
            ev .join
            pure (some (VebKey.join hi lo, val))
          | none => pure (some t.min)
/-- src/tree.rs:257-349. `get_mut_predecessor_mut` (:312-318) is inlined; the `polonius` wrapper only
satisfies the borrow checker. -/
def predecessorMutT (t : Tree K V S C) (k : K) : Tk (Option (K × V × (V → Tree K V S C))) := do
  tick
  ev .cmp
  if k ≤ t.min.1 then pure none
  else
    match t.data with
    | none => pure (some (t.min.1, t.min.2, t.putMin))
    | some data =>
      ev .cmp
      match cmp k data.max.1, data.children with
      | .gt, _ => pure (some (data.max.1, data.max.2, t.putMax data))
      | _, none => pure (some (t.min.1, t.min.2, t.putMin))
      | .eq, some (summary, children) =>
        ev .cmp
        debugAssert (decide (t.min.1 < k))
        let (hi, ()) ← TickTree.maxVal summary
        ev .call
        let (child, putC) ←
          expect "child should exist for summary key" (← TreeCollection.getMut children hi)
        let (lo, val, put) ← TickTree.maxValMut child
        ev .join
        pure (some (VebKey.join hi lo, val, fun w => t.putChildren data summary (putC (put w))))
      | .lt, some (summary, children) =>
        ev .split
        let (hi, lo) := VebKeyRef.splitRef k
        let inChild ← (do
          ev .call
          match (← TreeCollection.getMut children hi) with
          | none => pure none
          | some (child, putC) =>
            pure ((← TickTree.predecessorMut child lo).map (mapPut putC)) :
          Tk (Option (Lo × V × (V → C))))
        match inChild with
        | some (lo, val, put) =>
          ev .join
          pure (some (VebKey.join hi lo, val, fun w => t.putChildren data summary (put w)))
        | none =>
          match (← TickTree.predecessor summary hi) with
          | some (hi, ()) =>
            ev .call
            let (child, putC) ←
              expect "child should exist for summary key" (← TreeCollection.getMut children hi)
            let (lo, val, put) ← TickTree.maxValMut child
            ev .join
            pure (some (VebKey.join hi lo, val, fun w => t.putChildren data summary (putC (put w))))
          | none => pure (some (t.min.1, t.min.2, t.putMin))
/-- src/tree.rs:351-400 -/
def successorT (t : Tree K V S C) (k : K) : Tk (Option (K × V)) := do
  tick
  ev .cmp
  if k < t.min.1 then pure (some t.min)
  else
    match t.data with
    | none => pure none
    | some data =>
      ev .cmp
      if data.max.1 ≤ k then pure none
      else
        match data.children with
        | none => pure (some data.max)
        | some (summary, children) =>
          ev .cmp
          if k = t.min.1 then
            let (hi, ()) ← TickTree.minVal summary
            ev .call
            let child ← expect "child should exist for summary key" (← TreeCollection.get children hi)
            let (lo, val) ← TickTree.minVal child
            ev .join
            pure (some (VebKey.join hi lo, val))
          else
            ev .split
            let (hi, lo) := VebKeyRef.splitRef k
            let inChild ← (do
              ev .call
              match (← TreeCollection.get children hi) with
              | none => pure none
              | some child => TickTree.successor child lo : Tk (Option (Lo × V)))
            match inChild with
            | some (lo, val) =>
              ev .join
              pure (some (VebKey.join hi lo, val))
            | none =>
              match (← TickTree.successor summary hi) with
              | some (hi, ()) =>
                ev .call
                let child ← expect "child should exist for summary key" (← TreeCollection.get children hi)
                let (lo, val) ← TickTree.minVal child
                ev .join
                pure (some (VebKey.join hi lo, val))
              | none => pure (some data.max)
/-- src/tree.rs:402-500. `get_mut_successor_mut` (:448-454) is inlined; the `polonius` wrapper only
satisfies the borrow checker. -/
def successorMutT (t : Tree K V S C) (k : K) : Tk (Option (K × V × (V → Tree K V S C))) := do
  tick
  ev .cmp
  if k < t.min.1 then pure (some (t.min.1, t.min.2, t.putMin))
  else
    match t.data with
    | none => pure none
    | some data =>
      ev .cmp
      if data.max.1 ≤ k then pure none
      else
        match data.children with
        | none => pure (some (data.max.1, data.max.2, t.putMax data))
        | some (summary, children) =>
          ev .cmp
          if k = t.min.1 then
            let (hi, ()) ← TickTree.minVal summary
            ev .call
            let (child, putC) ←
              expect "child should exist for summary key" (← TreeCollection.getMut children hi)
            let (lo, val, put) ← TickTree.minValMut child
            ev .join
            pure (some (VebKey.join hi lo, val, fun w => t.putChildren data summary (putC (put w))))
          else
            ev .split
            let (hi, lo) := VebKeyRef.splitRef k
            let inChild ← (do
              ev .call
              match (← TreeCollection.getMut children hi) with
              | none => pure none
              | some (child, putC) =>
                pure ((← TickTree.successorMut child lo).map (mapPut putC)) :
              Tk (Option (Lo × V × (V → C))))
            match inChild with
            | some (lo, val, put) =>
              ev .join
              pure (some (VebKey.join hi lo, val, fun w => t.putChildren data summary (put w)))
            | none =>
              match (← TickTree.successor summary hi) with
              | some (hi, ()) =>
                ev .call
                let (child, putC) ←
                  expect "child should exist for summary key" (← TreeCollection.getMut children hi)
                let (lo, val, put) ← TickTree.minValMut child
                ev .join
                pure (some (VebKey.join hi lo, val, fun w => t.putChildren data summary (putC (put w))))
              | none => pure (some (data.max.1, data.max.2, t.putMax data))
/-- The second half of `insert`, src/tree.rs:544-561: store `k`, `v` below the extremes; `min` and `data.max`
have already been dealt with. -/
def insertBelowT (min : K × V) (data : TreeData K V S C) (k : K) (v : V) :
    Tk (Tree K V S C × Option (K × V)) := do
  ev .split
  let (hi, lo) := VebKey.splitVal k
  match data.children with
  | some (summary, children) =>
    ev .call
    let (children, r) ← TickColl.insertKey children hi (lo, v)
    match r with
    | .Ok hi =>
      let (summary, _) ← TickTree.insert summary hi ()
      pure (⟨min, some { data with children := some (summary, children) }⟩, none)
    | .Err (_, none) => pure (⟨min, some { data with children := some (summary, children) }⟩, none)
    | .Err (hi, some (lo, v)) =>
      ev .join
      pure (⟨min, some { data with children := some (summary, children) }⟩,
        some (VebKey.join hi lo, v))
  | none =>
    let child ← TickTree.fromMonad lo v
    ev .call
    let children ← TickColl.create hi child
    let summary ← TickTree.fromMonad hi ()
    pure (⟨min, some { data with children := some (summary, children) }⟩, none)
/-- src/tree.rs:502-562 -/
def insertT (t : Tree K V S C) (k : K) (v : V) : Tk (Tree K V S C × Option (K × V)) := do
  tick
  ev .cmp
  match cmp k t.min.1, t.data with
  | .eq, _ => pure ({ t with min := (k, v) }, some t.min)
  | .lt, none => pure (⟨(k, v), some ⟨t.min, none⟩⟩, none)
  | .gt, none => pure (⟨t.min, some ⟨(k, v), none⟩⟩, none)
  | .lt, some data =>
    -- the old minimum is compared with the maximum: src/tree.rs:524-533
    let old := t.min
    ev .cmp
    match cmp data.max.1 old.1 with
    | .eq => pure (⟨(k, v), some { data with max := old }⟩, some data.max)
    | .gt => insertBelowT (k, v) { data with max := old } data.max.1 data.max.2
    | .lt => insertBelowT (k, v) data old.1 old.2
  | .gt, some data =>
    ev .cmp
    match cmp k data.max.1 with
    | .eq => pure (⟨t.min, some { data with max := (k, v) }⟩, some data.max)
    | .gt => insertBelowT t.min { data with max := (k, v) } data.max.1 data.max.2
    | .lt => insertBelowT t.min data k v
/-- src/tree.rs:651-693 -/
def removeMinT (t : Tree K V S C) : Tk (Option (Tree K V S C) × (K × V)) := do
  tick
  match t.data with
  | none => pure (none, t.min)
  | some data =>
    match data.children with
    | none => pure (some ⟨data.max, none⟩, t.min)
    | some (summary, children) =>
      let (hi, ()) ← TickTree.minVal summary
      ev .call
      let (children, (lo, val)) ← TickColl.removeKey children hi TickTree.removeMin
      ev .join
      let min := VebKey.join hi lo
      let children ← (match children with
        | none => pure none
        | some (children, false) => pure (some (summary, children))
        | some (children, true) => do
          let summary ← expect "summary should have remaining elements after removal"
            (← TickTree.removeMin summary).1
          pure (some (summary, children)) : Tk (Option (S × C)))
      pure (some ⟨(min, val), some ⟨data.max, children⟩⟩, t.min)
/-- src/tree.rs:695-736 -/
def removeMaxT (t : Tree K V S C) : Tk (Option (Tree K V S C) × (K × V)) := do
  tick
  match t.data with
  | none => pure (none, t.min)
  | some data =>
    match data.children with
    | none => pure (some ⟨t.min, none⟩, data.max)
    | some (summary, children) =>
      let (hi, ()) ← TickTree.maxVal summary
      ev .call
      let (children, (lo, val)) ← TickColl.removeKey children hi TickTree.removeMax
      ev .join
      let newMax := (VebKey.join hi lo, val)
      let children ← (match children with
        | none => pure none
        | some (children, false) => pure (some (summary, children))
        | some (children, true) => do
          let summary ← expect "summary should have remaining elements after removal"
            (← TickTree.removeMax summary).1
          pure (some (summary, children)) : Tk (Option (S × C)))
      pure (some ⟨t.min, some ⟨newMax, children⟩⟩, data.max)
/-- src/tree.rs:564-649 -/
def removeT (t : Tree K V S C) (k : K) :
    Tk (Result (Option (Tree K V S C) × (K × V)) (Tree K V S C)) := do
  tick
  ev .cmp
  if k = t.min.1 then pure (.Ok (← t.removeMinT))
  else
    match t.data with
    | none => pure (.Err t)
    | some data =>
      match data.children with
      | none =>
        ev .cmp
        if data.max.1 = k then pure (.Ok (some ⟨t.min, none⟩, data.max)) else pure (.Err t)
      | some (summary, children) =>
        ev .cmp
        if k = data.max.1 then
          let (hi, ()) ← TickTree.maxVal summary
          ev .call
          let (children, (lo, val)) ← TickColl.removeKey children hi TickTree.removeMax
          ev .join
          let newMax := (VebKey.join hi lo, val)
          let children ← (match children with
            | none => pure none
            | some (children, false) => pure (some (summary, children))
            | some (children, true) => do
              let summary ← expect "summary should have remaining elements after removal"
                (← TickTree.removeMax summary).1
              pure (some (summary, children)) : Tk (Option (S × C)))
          pure (.Ok (some ⟨t.min, some ⟨newMax, children⟩⟩, data.max))
        else
          ev .split
          let (hi, lo) := VebKeyRef.splitRef k
          ev .call
          match (← TickColl.maybeRemoveKey children hi (fun v => TickTree.remove v lo)) with
          | .Err children => pure (.Err ⟨t.min, some ⟨data.max, some (summary, children)⟩⟩)
          | .Ok (none, (lo, val)) =>
            ev .join
            pure (.Ok (some ⟨t.min, some ⟨data.max, none⟩⟩, (VebKey.join hi lo, val)))
          | .Ok (some (children, false), (lo, val)) =>
            ev .join
            pure (.Ok (some ⟨t.min, some ⟨data.max, some (summary, children)⟩⟩,
              (VebKey.join hi lo, val)))
          | .Ok (some (children, true), (lo, val)) =>
            let removed ← (match (← TickTree.remove summary hi) with
              | .Ok r => pure r
              | .Err _ => lift (.error (.expect "summary should contain key")) : Tk (Option S × (Hi × Unit)))
            let summary ← expect "summary should have remaining elements after removal" removed.1
            ev .join
            pure (.Ok (some ⟨t.min, some ⟨data.max, some (summary, children)⟩⟩,
              (VebKey.join hi lo, val)))

/-- src/tree.rs:80-737; `len_hint` is the provided one, src/lib.rs:51-57 -/
instance : TickTree (Tree K V S C) K V where
  fromMonad := fromMonadT
  isMonad := isMonadT
  lenHint t := do
    tick
    if (← t.isMonadT) then pure (1, none) else pure (2, none)
  intoMonad := intoMonadT
  minVal := minValT
  minValMut := minValMutT
  maxVal := maxValT
  maxValMut := maxValMutT
  find := findT
  findMut := findMutT
  predecessor := predecessorT
  predecessorMut := predecessorMutT
  successor := successorT
  successorMut := successorMutT
  insert := insertT
  remove := removeT
  removeMin := removeMinT
  removeMax := removeMaxT

end Tree
end Veb
