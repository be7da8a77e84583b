import Verif.Model.ByteSet

/-!
`ByteMap`, src/bitset/map/mod.rs and src/bitset/map/list.rs: a `ByteSet` of keys and a list of payloads in
key order.  `ByteMap<L>` is generic in the list type; the only list type in the crate is `VecDeque`
(list.rs:36, :130), which is modelled by a Lean list.
-/

namespace Veb

/-! ## `VecDeque` as a list (`VecDeque` itself and the `vec_entry` crate are trusted) -/

namespace VecDeque
variable {A : Type}

/-- `&self[i]` (`List::get`, `TreeList::get`), src/bitset/map/list.rs:138-140, 46-48 -/
def get (l : List A) (i : Nat) : R A := index l i
/-- `&mut self[i]` (`get_mut`), src/bitset/map/list.rs:141-143, 49-51 -/
def getMut (l : List A) (i : Nat) : R (A × (A → List A)) := do
  let a ← index l i
  pure (a, fun b => l.set i b)
/-- `insert(i, v)` (`insert_value`, `insert_tree`), src/bitset/map/list.rs:144-146, 52-54;
`VecDeque::insert` panics when `i > len` -/
def insertAt (l : List A) (i : Nat) (v : A) : R (List A) :=
  if i ≤ l.length then .ok (l.insertIdx i v) else .error .index
/-- `remove_value`, src/bitset/map/list.rs:147-151 -/
def removeValue (l : List A) (i : Nat) : R (Option (List A) × A) := do
  let v ← expect "list should not be empty" l[i]?
  let l' := l.eraseIdx i
  pure (if l'.isEmpty then none else some l', v)

variable {Lo V : Type}

/-- `TreeList::remove_key`, src/bitset/map/list.rs:55-78. `vec_entry`'s `replace_entry_with` puts the
returned element back, or removes the slot (keeping the order) when `None` is returned. -/
def removeKey (l : List A) (i : Nat) (f : A → R (Option A × (Lo × V))) :
    R (Option (List A × Bool) × (Lo × V)) := do
  match l[i]? with
  | none => .error .unreachable
  | some tree =>
    let (tree, val) ← f tree
    let removed := tree.isNone
    let l' := match tree with
      | some t => l.set i t
      | none => l.eraseIdx i
    if l'.isEmpty then
      debugAssert removed
      pure (none, val)
    else pure (some (l', removed), val)

/-- `TreeList::maybe_remove_key`, src/bitset/map/list.rs:79-106. -/
def maybeRemoveKey (l : List A) (i : Nat) (f : A → R (Result (Option A × (Lo × V)) A)) :
    R (Result (Option (List A × Bool) × (Lo × V)) (List A)) := do
  match l[i]? with
  | none => .error .unreachable
  | some tree =>
    match (← f tree) with
    | .Err tree => pure (.Err (l.set i tree))
    | .Ok (tree, val) =>
      let removed := tree.isNone
      let l' := match tree with
        | some t => l.set i t
        | none => l.eraseIdx i
      if l'.isEmpty then
        debugAssert removed
        pure (.Ok (none, val))
      else pure (.Ok (some (l', removed), val))

end VecDeque

/-- `struct ByteMap<L>`, src/bitset/map/mod.rs:30-33, with `L = VecDeque<A>`. -/
structure ByteMap (A : Type) where
  set : ByteSet
  list : List A
  deriving Repr

namespace ByteMap

/-! ## As a tree, src/bitset/map/mod.rs:131-300 -/

variable {V : Type}

/-- src/bitset/map/mod.rs:135-140, list.rs:132-134 -/
def fromMonad (k : U 8) (v : V) : ByteMap V := ⟨ByteSet.fromMonad k (), [v]⟩
/-- src/bitset/map/mod.rs:142-144 -/
def isMonad (m : ByteMap V) : R Bool := pure (decide (m.list.length = 1))
/-- src/bitset/map/mod.rs:146-158 -/
def intoMonad (m : ByteMap V) : R (Result (U 8 × V) (ByteMap V)) := do
  match (← m.set.intoMonad) with
  | .Ok (k, ()) =>
    let (l, v) ← VecDeque.removeValue m.list 0
    debugAssert l.isNone
    pure (.Ok (k, v))
  | .Err set => pure (.Err { m with set := set })
/-- src/bitset/map/mod.rs:160-162 -/
def minVal (m : ByteMap V) : R (U 8 × V) := do
  pure ((← m.set.minVal).1, ← VecDeque.get m.list 0)
/-- src/bitset/map/mod.rs:164-166 -/
def minValMut (m : ByteMap V) : R (U 8 × V × (V → ByteMap V)) := do
  let k := (← m.set.minVal).1
  let (v, put) ← VecDeque.getMut m.list 0
  pure (k, v, fun w => { m with list := put w })
/-- src/bitset/map/mod.rs:168-170 -/
def maxVal (m : ByteMap V) : R (U 8 × V) := do
  pure ((← m.set.maxVal).1, ← VecDeque.get m.list (← subUsize m.list.length 1))
/-- src/bitset/map/mod.rs:172-174 -/
def maxValMut (m : ByteMap V) : R (U 8 × V × (V → ByteMap V)) := do
  let k := (← m.set.maxVal).1
  let (v, put) ← VecDeque.getMut m.list (← subUsize m.list.length 1)
  pure (k, v, fun w => { m with list := put w })
/-- src/bitset/map/mod.rs:176-184 -/
def find (m : ByteMap V) (k : U 8) : R (Option (U 8 × V)) := do
  match (← m.set.find k) with
  | none => pure none
  | some (k, ()) => pure (some (k, ← VecDeque.get m.list (m.set.countBelow k)))
/-- src/bitset/map/mod.rs:186-194 -/
def findMut (m : ByteMap V) (k : U 8) : R (Option (U 8 × V × (V → ByteMap V))) := do
  match (← m.set.find k) with
  | none => pure none
  | some (k, ()) =>
    let (v, put) ← VecDeque.getMut m.list (m.set.countBelow k)
    pure (some (k, v, fun w => { m with list := put w }))
/-- src/bitset/map/mod.rs:196-204 -/
def predecessor (m : ByteMap V) (k : U 8) : R (Option (U 8 × V)) := do
  match (← m.set.predecessor k) with
  | none => pure none
  | some (k, ()) => pure (some (k, ← VecDeque.get m.list (m.set.countBelow k)))
/-- src/bitset/map/mod.rs:206-217 -/
def predecessorMut (m : ByteMap V) (k : U 8) : R (Option (U 8 × V × (V → ByteMap V))) := do
  match (← m.set.predecessor k) with
  | none => pure none
  | some (k, ()) =>
    let (v, put) ← VecDeque.getMut m.list (m.set.countBelow k)
    pure (some (k, v, fun w => { m with list := put w }))
/-- src/bitset/map/mod.rs:219-227 -/
def successor (m : ByteMap V) (k : U 8) : R (Option (U 8 × V)) := do
  match (← m.set.successor k) with
  | none => pure none
  | some (k, ()) => pure (some (k, ← VecDeque.get m.list (m.set.countBelow k)))
/-- src/bitset/map/mod.rs:229-237 -/
def successorMut (m : ByteMap V) (k : U 8) : R (Option (U 8 × V × (V → ByteMap V))) := do
  match (← m.set.successor k) with
  | none => pure none
  | some (k, ()) =>
    let (v, put) ← VecDeque.getMut m.list (m.set.countBelow k)
    pure (some (k, v, fun w => { m with list := put w }))
/-- src/bitset/map/mod.rs:239-252 -/
def insert (m : ByteMap V) (k : U 8) (v : V) : R (ByteMap V × Option (U 8 × V)) := do
  let (set, r) ← m.set.insert k ()
  match r with
  | some (k, ()) =>
    let (old, put) ← VecDeque.getMut m.list (set.countBelow k)
    pure (⟨set, put v⟩, some (k, old))
  | none => pure (⟨set, ← VecDeque.insertAt m.list (set.countBelow k) v⟩, none)
/-- src/bitset/map/mod.rs:254-277 -/
def remove (m : ByteMap V) (k : U 8) :
    R (Result (Option (ByteMap V) × (U 8 × V)) (ByteMap V)) := do
  let i := m.set.countBelow k
  match (← m.set.remove k) with
  | .Err set => pure (.Err { m with set := set })
  | .Ok (some set, (k, ())) =>
    let (list, v) ← VecDeque.removeValue m.list i
    let list ← expect "set is non-empty so list should be non-empty" list
    pure (.Ok (some ⟨set, list⟩, (k, v)))
  | .Ok (none, (k, ())) =>
    let (list, v) ← VecDeque.removeValue m.list i
    debugAssert list.isNone
    pure (.Ok (none, (k, v)))
/-- src/bitset/map/mod.rs:279-288 -/
def removeMin (m : ByteMap V) : R (Option (ByteMap V) × (U 8 × V)) := do
  let i := m.set.countBelow (← m.set.minVal).1
  let (set, (k, ())) ← m.set.removeMin
  let (list, v) ← VecDeque.removeValue m.list i
  match set, list with
  | some set, some list => pure (some ⟨set, list⟩, (k, v))
  | none, none => pure (none, (k, v))
  | _, _ => .error .unreachable
/-- src/bitset/map/mod.rs:290-299 -/
def removeMax (m : ByteMap V) : R (Option (ByteMap V) × (U 8 × V)) := do
  let i := m.set.countBelow (← m.set.maxVal).1
  let (set, (k, ())) ← m.set.removeMax
  let (list, v) ← VecDeque.removeValue m.list i
  match set, list with
  | some set, some list => pure (some ⟨set, list⟩, (k, v))
  | none, none => pure (none, (k, v))
  | _, _ => .error .unreachable

/-- `impl VebTree for ByteMap<L>`, src/bitset/map/mod.rs:131-300; `len_hint` is the provided one -/
instance : VebTree (ByteMap V) (U 8) V where
  fromMonad := fromMonad
  isMonad := isMonad
  lenHint := defaultLenHint isMonad
  intoMonad := intoMonad
  minVal := minVal
  minValMut := minValMut
  maxVal := maxVal
  maxValMut := maxValMut
  find := find
  findMut := findMut
  predecessor := predecessor
  predecessorMut := predecessorMut
  successor := successor
  successorMut := successorMut
  insert := insert
  remove := remove
  removeMin := removeMin
  removeMax := removeMax

/-! ## As a collection of trees, src/bitset/map/mod.rs:36-119 -/

namespace Coll
variable {T Lo : Type}

/-- src/bitset/map/mod.rs:40-45 -/
def create (h : U 8) (tree : T) : R (ByteMap T) := pure ⟨ByteSet.fromMonad h (), [tree]⟩
/-- src/bitset/map/mod.rs:47-52 -/
def get (c : ByteMap T) (h : U 8) : R (Option T) := do
  if !c.set.isPresent h then pure none
  else pure (some (← VecDeque.get c.list (c.set.countBelow h)))
/-- src/bitset/map/mod.rs:53-58 -/
def getMut (c : ByteMap T) (h : U 8) : R (Option (T × (T → ByteMap T))) := do
  if !c.set.isPresent h then pure none
  else
    let (t, put) ← VecDeque.getMut c.list (c.set.countBelow h)
    pure (some (t, fun u => { c with list := put u }))
/-- src/bitset/map/mod.rs:60-69 -/
def insertKey [VebTree T Lo V] (c : ByteMap T) (h : U 8) (lv : Lo × V) :
    R (ByteMap T × Result (U 8) (U 8 × Option (Lo × V))) := do
  let i := c.set.countBelow h
  let (set, r) ← c.set.insert h ()
  if r.isSome then
    let (t, put) ← VecDeque.getMut c.list i
    let (t, o) ← VebTree.insert t lv.1 lv.2
    pure (⟨set, put t⟩, .Err (h, o))
  else
    pure (⟨set, ← VecDeque.insertAt c.list i (VebTree.fromMonad lv.1 lv.2)⟩, .Ok h)
/-- src/bitset/map/mod.rs:70-90 -/
def removeKey (c : ByteMap T) (h : U 8) (r : T → R (Option T × (Lo × V))) :
    R (Option (ByteMap T × Bool) × (Lo × V)) := do
  debugAssert (← c.set.find h).isSome
  let i := c.set.countBelow h
  match (← VecDeque.removeKey c.list i r) with
  | (none, v) => pure (none, v)
  | (some (list, removed), v) =>
    if removed then
      debugAssert (c.set.isPresent h)
      pure (some (⟨c.set.unsetBit h, list⟩, removed), v)
    else pure (some (⟨c.set, list⟩, removed), v)
/-- src/bitset/map/mod.rs:92-118 -/
def maybeRemoveKey (c : ByteMap T) (h : U 8) (r : T → R (Result (Option T × (Lo × V)) T)) :
    R (Result (Option (ByteMap T × Bool) × (Lo × V)) (ByteMap T)) := do
  if (← c.set.find h).isNone then pure (.Err c)
  else
    let i := c.set.countBelow h
    match (← VecDeque.maybeRemoveKey c.list i r) with
    | .Err list => pure (.Err { c with list := list })
    | .Ok (none, v) => pure (.Ok (none, v))
    | .Ok (some (list, removed), v) =>
      if removed then
        debugAssert (c.set.isPresent h)
        pure (.Ok (some (⟨c.set.unsetBit h, list⟩, removed), v))
      else pure (.Ok (some (⟨c.set, list⟩, removed), v))

end Coll

/-- `impl TreeCollection for ByteMap<L>`, src/bitset/map/mod.rs:36-119 -/
instance {T Lo : Type} [VebTree T Lo V] : TreeCollection (ByteMap T) (U 8) T Lo V where
  create := Coll.create
  get := Coll.get
  getMut := Coll.getMut
  insertKey := Coll.insertKey
  removeKey := Coll.removeKey
  maybeRemoveKey := Coll.maybeRemoveKey

end ByteMap
end Veb
