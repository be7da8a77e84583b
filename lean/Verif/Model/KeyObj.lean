import Verif.Model.Tree
import Verif.Model.ByteMap

/-!
# Key objects

`BTreeMap`, `HashMap` and `Tree` once more, for keys whose `Ord` may identify distinguishable values (a string compared
without case, say).  The code is the one of `Verif.Model`, with `Ord::cmp` and the operators `==`, `<`, `<=` spelled
out; `Verif.Props.KeyObj` proves that on linearly ordered keys the two copies behave alike.  `Tree` is even written for
comparisons without any contract, each with the arguments in the order of the source (`Verif.Props.AnyOrd`).
-/

set_option autoImplicit false

namespace Veb

/-- `Ord::cmp` of a key type.  `PartialOrd` and `PartialEq` are assumed to agree with it, as Rust demands. -/
class OrdKey (K : Type) where
  cmp : K → K → Ordering

namespace OrdKey
variable {K : Type} [OrdKey K]
/-- `a == b` -/
def eq (a b : K) : Bool := cmp a b == .eq
/-- `a < b` -/
def lt (a b : K) : Bool := cmp a b == .lt
/-- `a <= b` -/
def le (a b : K) : Bool := cmp a b != .gt
end OrdKey

/-- The comparisons of a key type as the code of `Tree` calls them: `Ord::cmp`, `PartialEq::eq` and the four operators of
`PartialOrd`.  A program can implement the three traits without any regard to each other or to their contracts. -/
class AnyOrd (K : Type) where
  /-- `a.cmp(&b)` -/
  cmp : K → K → Ordering
  /-- `a == b` -/
  eq : K → K → Bool
  /-- `a < b` -/
  lt : K → K → Bool
  /-- `a <= b` -/
  le : K → K → Bool
  /-- `a > b` -/
  gt : K → K → Bool
  /-- `a >= b` -/
  ge : K → K → Bool

/-- the traits when they agree with `cmp` -/
instance (priority := low) {K : Type} [OrdKey K] : AnyOrd K where
  cmp := OrdKey.cmp
  eq := OrdKey.eq
  lt := OrdKey.lt
  le := OrdKey.le
  gt a b := OrdKey.cmp a b == .gt
  ge a b := OrdKey.cmp a b != .lt

/-- the order of a linearly ordered key type -/
instance (priority := low) {K : Type} [LinearOrder K] : OrdKey K := ⟨Veb.cmp⟩

/-- `alloc::collections::BTreeMap<K, V>`: its entries in ascending key order.  The B-tree itself is trusted:
only the documented ordered-map behaviour of the methods used is modelled. -/
structure OBTreeMap (K V : Type) where
  entries : List (K × V)
  deriving Repr

namespace OBTreeMap
variable {K V : Type} [OrdKey K]

/-- std `BTreeMap::insert` on the entry list: keys keep their order; an existing key's value is replaced
(and the old key kept). -/
def stdInsert (k : K) (v : V) : List (K × V) → List (K × V)
  | [] => [(k, v)]
  | (k', v') :: l =>
    match OrdKey.cmp k k' with
    | .lt => (k, v) :: (k', v') :: l
    | .eq => (k', v) :: l
    | .gt => (k', v') :: stdInsert k v l
/-- std `get_key_value` -/
def stdGet (l : List (K × V)) (k : K) : Option (K × V) := l.find? (fun p => OrdKey.eq p.1 k)
/-- write a value through a `&mut V` obtained for the stored key `k` -/
def stdPut (l : List (K × V)) (k : K) (v : V) : List (K × V) :=
  l.map (fun p => if OrdKey.eq p.1 k then (p.1, v) else p)
/-- std `remove_entry`: the map afterwards -/
def stdErase (l : List (K × V)) (k : K) : List (K × V) := l.filter (fun p => !OrdKey.eq p.1 k)

/-- A `&mut` result on an entry of `t`. -/
def mutAt (t : OBTreeMap K V) (p : K × V) : K × V × (V → OBTreeMap K V) :=
  (p.1, p.2, fun w => ⟨stdPut t.entries p.1 w⟩)

/-- src/lib.rs:437-441 -/
def fromMonad (k : K) (v : V) : OBTreeMap K V := ⟨stdInsert k v []⟩
/-- src/lib.rs:442-444 -/
def isMonad (t : OBTreeMap K V) : R Bool := pure (decide (t.entries.length = 1))
/-- src/lib.rs:445-447 -/
def lenHint (t : OBTreeMap K V) : R (Nat × Option Nat) := pure (t.entries.length, some t.entries.length)
/-- src/lib.rs:448-458 -/
def intoMonad (t : OBTreeMap K V) : R (Result (K × V) (OBTreeMap K V)) := do
  if (← t.isMonad) then
    pure (.Ok (← expect "monad BTreeMap should have one element" t.entries.head?))
  else pure (.Err t)
/-- src/lib.rs:459-463 -/
def minVal (t : OBTreeMap K V) : R (K × V) := expect "tree should not be empty" t.entries.head?
/-- src/lib.rs:464-468 -/
def minValMut (t : OBTreeMap K V) : R (K × V × (V → OBTreeMap K V)) := do
  pure (t.mutAt (← expect "tree should not be empty" t.entries.head?))
/-- src/lib.rs:469-473 -/
def maxVal (t : OBTreeMap K V) : R (K × V) := expect "tree should not be empty" t.entries.getLast?
/-- src/lib.rs:474-481 -/
def maxValMut (t : OBTreeMap K V) : R (K × V × (V → OBTreeMap K V)) := do
  pure (t.mutAt (← expect "tree should not be empty" t.entries.getLast?))
/-- src/lib.rs:482-488 -/
def find (t : OBTreeMap K V) (k : K) : R (Option (K × V)) := pure (stdGet t.entries k)
/-- src/lib.rs:489-498: first entry of the range `k..=k` -/
def findMut (t : OBTreeMap K V) (k : K) : R (Option (K × V × (V → OBTreeMap K V))) :=
  pure ((t.entries.filter (fun p => OrdKey.le k p.1 && OrdKey.le p.1 k)).head?.map t.mutAt)
/-- src/lib.rs:499-507: last entry of the range `..k` -/
def predecessor (t : OBTreeMap K V) (k : K) : R (Option (K × V)) :=
  pure (t.entries.filter (fun p => OrdKey.lt p.1 k)).getLast?
/-- src/lib.rs:511-522 -/
def predecessorMut (t : OBTreeMap K V) (k : K) : R (Option (K × V × (V → OBTreeMap K V))) :=
  pure ((t.entries.filter (fun p => OrdKey.lt p.1 k)).getLast?.map t.mutAt)
/-- src/lib.rs:523-531: first entry of the range above `k`, `k` excluded -/
def successor (t : OBTreeMap K V) (k : K) : R (Option (K × V)) :=
  pure (t.entries.filter (fun p => OrdKey.lt k p.1)).head?
/-- src/lib.rs:532-540 -/
def successorMut (t : OBTreeMap K V) (k : K) : R (Option (K × V × (V → OBTreeMap K V))) :=
  pure ((t.entries.filter (fun p => OrdKey.lt k p.1)).head?.map t.mutAt)
/-- src/lib.rs:541-550: an existing entry gets the new value; the *argument* key is returned -/
def insert (t : OBTreeMap K V) (k : K) (v : V) : R (OBTreeMap K V × Option (K × V)) :=
  match stdGet t.entries k with
  | none => pure (⟨stdInsert k v t.entries⟩, none)
  | some (_, old) => pure (⟨stdPut t.entries k v⟩, some (k, old))
/-- src/lib.rs:551-564 -/
def remove (t : OBTreeMap K V) (k : K) :
    R (Result (Option (OBTreeMap K V) × (K × V)) (OBTreeMap K V)) := do
  let monad ← t.isMonad
  match monad, stdGet t.entries k with
  | _, none => pure (.Err t)
  | true, some (k, v) => pure (.Ok (none, (k, v)))
  | false, some (k, v) => pure (.Ok (some ⟨stdErase t.entries k⟩, (k, v)))
/-- src/lib.rs:565-571 -/
def removeMin (t : OBTreeMap K V) : R (Option (OBTreeMap K V) × (K × V)) := do
  let v ← expect "tree should not be empty" t.entries.head?
  let t' : OBTreeMap K V := ⟨t.entries.tail⟩
  pure (if t'.entries.isEmpty then none else some t', v)
/-- src/lib.rs:573-579 -/
def removeMax (t : OBTreeMap K V) : R (Option (OBTreeMap K V) × (K × V)) := do
  let v ← expect "tree should not be empty" t.entries.getLast?
  let t' : OBTreeMap K V := ⟨t.entries.dropLast⟩
  pure (if t'.entries.isEmpty then none else some t', v)

/-- `impl VebTree for BTreeMap<K, V>`, src/lib.rs:433-580 -/
instance : VebTree (OBTreeMap K V) K V where
  fromMonad := fromMonad
  isMonad := isMonad
  lenHint := lenHint
  intoMonad := intoMonad
  minVal := minVal
  minValMut := minValMut
  maxVal := maxVal
  maxValMut := maxValMut
  find := find
  findMut := findMut
  predecessor := predecessor
  predecessorMut := predecessorMut
  successor := successor
  successorMut := successorMut
  insert := insert
  remove := remove
  removeMin := removeMin
  removeMax := removeMax

end OBTreeMap

/-- `hashbrown::HashMap<Hi, T, S>`: an association list without repeated keys, in no particular order.
The hash table itself (hashing, probing, growth) is trusted: only its map behaviour is modelled. -/
structure OHashMap (Hi T : Type) where
  entries : List (Hi × T)

namespace OHashMap
variable {Hi T Lo V : Type} [OrdKey Hi]

/-- `HashMap::get` -/
def lookup (c : OHashMap Hi T) (h : Hi) : Option T :=
  (c.entries.find? (fun p => OrdKey.eq p.1 h)).map Prod.snd
/-- overwrite the value stored under `h` -/
def assign (c : OHashMap Hi T) (h : Hi) (t : T) : OHashMap Hi T :=
  ⟨c.entries.map (fun p => if OrdKey.eq p.1 h then (p.1, t) else p)⟩
/-- insert under a key that is not present -/
def add (c : OHashMap Hi T) (h : Hi) (t : T) : OHashMap Hi T := ⟨(h, t) :: c.entries⟩
/-- erase the entry under `h` -/
def erase (c : OHashMap Hi T) (h : Hi) : OHashMap Hi T := ⟨c.entries.filter (fun p => !OrdKey.eq p.1 h)⟩
/-- the effect of `RawOccupiedEntryMut::replace_entry_with` returning `o` -/
def replaceEntry (c : OHashMap Hi T) (h : Hi) : Option T → OHashMap Hi T
  | some t => c.assign h t
  | none => c.erase h

/-- src/collection/hash.rs:42-48 -/
def create (h : Hi) (tree : T) : R (OHashMap Hi T) := do
  let v : OHashMap Hi T := ⟨[(h, tree)]⟩
  debugAssert (decide (v.entries.length = 1))
  debugAssert (v.lookup h).isSome
  pure v
/-- src/collection/hash.rs:50-52 -/
def get (c : OHashMap Hi T) (h : Hi) : R (Option T) := pure (c.lookup h)
/-- src/collection/hash.rs:53-55 -/
def getMut (c : OHashMap Hi T) (h : Hi) : R (Option (T × (T → OHashMap Hi T))) :=
  match c.lookup h with
  | none => pure none
  | some t => pure (some (t, fun u => c.assign h u))
/-- src/collection/hash.rs:57-67 -/
def insertKey [VebTree T Lo V] (c : OHashMap Hi T) (h : Hi) (lv : Lo × V) :
    R (OHashMap Hi T × Result Hi (Hi × Option (Lo × V))) := do
  match c.lookup h with
  | none => pure (c.add h (VebTree.fromMonad lv.1 lv.2), .Ok h)
  | some t =>
    let (t, o) ← VebTree.insert t lv.1 lv.2
    pure (c.assign h t, .Err (h, o))
/-- src/collection/hash.rs:69-95 -/
def removeKey (c : OHashMap Hi T) (h : Hi) (r : T → R (Option T × (Lo × V))) :
    R (Option (OHashMap Hi T × Bool) × (Lo × V)) := do
  match c.lookup h with
  | none => .error .unreachable
  | some t =>
    let (t, val) ← r t
    let c := c.replaceEntry h t
    let removed := t.isNone
    if c.entries.isEmpty then pure (none, val) else pure (some (c, removed), val)
/-- src/collection/hash.rs:97-123 -/
def maybeRemoveKey (c : OHashMap Hi T) (h : Hi) (r : T → R (Result (Option T × (Lo × V)) T)) :
    R (Result (Option (OHashMap Hi T × Bool) × (Lo × V)) (OHashMap Hi T)) := do
  match c.lookup h with
  | none => pure (.Err c)
  | some t =>
    let (o, val) : Option T × Option (Lo × V) ← do
      match (← r t) with
      | .Err t => pure (some t, none)
      | .Ok (t, rval) => pure (t, some rval)
    let c := c.replaceEntry h o
    let removed := o.isNone
    match val, c.entries.isEmpty with
    | some val, true => pure (.Ok (none, val))
    | some val, false => pure (.Ok (some (c, removed), val))
    | none, false => pure (.Err c)
    | none, true => .error .unreachable

/-- `impl TreeCollection for HashMap`, src/collection/hash.rs:33-124 -/
instance [VebTree T Lo V] : TreeCollection (OHashMap Hi T) Hi T Lo V where
  create := create
  get := get
  getMut := getMut
  insertKey := insertKey
  removeKey := removeKey
  maybeRemoveKey := maybeRemoveKey

end OHashMap

/-- `struct TreeData`, src/tree.rs:39-47. `S` is the summary tree, `C` the collection of children. -/
structure OTreeData (K V S C : Type) where
  max : K × V
  children : Option (S × C)

/-- `struct Tree`, src/tree.rs:29-37. -/
structure OTree (K V S C : Type) where
  min : K × V
  data : Option (OTreeData K V S C)

namespace OTree

variable {K V S C Hi Lo T : Type}

section basic

/-- src/tree.rs:89-95 -/
def fromMonad (k : K) (v : V) : OTree K V S C := ⟨(k, v), none⟩
/-- src/tree.rs:106-109 -/
def isMonad (t : OTree K V S C) : R Bool := pure t.data.isNone
/-- src/tree.rs:97-104 -/
def intoMonad (t : OTree K V S C) : R (Result (K × V) (OTree K V S C)) := do
  if (← t.isMonad) then pure (.Ok t.min) else pure (.Err t)
/-- src/tree.rs:111-114 -/
def minVal (t : OTree K V S C) : R (K × V) := pure t.min
/-- writing through `&mut self.min.1` -/
def putMin (t : OTree K V S C) (w : V) : OTree K V S C := { t with min := (t.min.1, w) }
/-- writing through `&mut data.max.1`, where `data` is the present data of `t` -/
def putMax (t : OTree K V S C) (data : OTreeData K V S C) (w : V) : OTree K V S C :=
  { t with data := some { data with max := (data.max.1, w) } }
/-- writing through a reference into the children, where `data` is the present data of `t`, `s` its summary -/
def putChildren (t : OTree K V S C) (data : OTreeData K V S C) (s : S) (c : C) : OTree K V S C :=
  { t with data := some { data with children := some (s, c) } }
/-- src/tree.rs:116-119 -/
def minValMut (t : OTree K V S C) : R (K × V × (V → OTree K V S C)) :=
  pure (t.min.1, t.min.2, t.putMin)
/-- src/tree.rs:121-129 -/
def maxVal (t : OTree K V S C) : R (K × V) :=
  match t.data with
  | some data => pure data.max
  | none => pure t.min
/-- src/tree.rs:131-139 -/
def maxValMut (t : OTree K V S C) : R (K × V × (V → OTree K V S C)) :=
  match t.data with
  | some data => pure (data.max.1, data.max.2, t.putMax data)
  | none => pure (t.min.1, t.min.2, t.putMin)

end basic

variable [AnyOrd K] [VebKey K Hi Lo] [VebKeyRef K Hi Lo] [VebTree S Hi Unit]
  [VebTree T Lo V] [TreeCollection C Hi T Lo V]

/-- src/tree.rs:141-169 -/
def find (t : OTree K V S C) (k : K) : R (Option (K × V)) := do
  match AnyOrd.cmp k t.min.1 with
  | .lt => pure none
  | .eq => pure (some t.min)
  | .gt =>
    match t.data with
    | none => pure none
    | some data =>
      if AnyOrd.eq k data.max.1 then pure (some data.max)
      else
        match data.children with
        | none => pure none
        | some (_, children) =>
          let (hi, lo) := VebKeyRef.splitRef k
          match (← TreeCollection.get children hi) with
          | none => pure none
          | some child =>
            match (← VebTree.find child lo) with
            | none => pure none
            | some (lo, val) => pure (some (VebKey.join hi lo, val))

/-- src/tree.rs:171-199 -/
def findMut (t : OTree K V S C) (k : K) : R (Option (K × V × (V → OTree K V S C))) := do
  match AnyOrd.cmp k t.min.1 with
  | .lt => pure none
  | .eq => pure (some (t.min.1, t.min.2, t.putMin))
  | .gt =>
    match t.data with
    | none => pure none
    | some data =>
      if AnyOrd.eq k data.max.1 then pure (some (data.max.1, data.max.2, t.putMax data))
      else
        match data.children with
        | none => pure none
        | some (summary, children) =>
          let (hi, lo) := VebKeyRef.splitRef k
          match (← TreeCollection.getMut children hi) with
          | none => pure none
          | some (child, putC) =>
            match (← VebTree.findMut child lo) with
            | none => pure none
            | some (lo, val, put) =>
              pure (some (VebKey.join hi lo, val,
                fun w => t.putChildren data summary (putC (put w))))

/-- src/tree.rs:201-255 -/
def predecessor (t : OTree K V S C) (k : K) : R (Option (K × V)) := do
  if AnyOrd.le k t.min.1 then pure none
  else
    match t.data with
    | none => pure (some t.min)
    | some data =>
      match AnyOrd.cmp k data.max.1, data.children with
      | .gt, _ => pure (some data.max)
      | _, none => pure (some t.min)
      | .eq, some (summary, children) =>
        let (hi, ()) ← VebTree.maxVal summary
        let child ← expect "child should exist for summary key" (← TreeCollection.get children hi)
        let (lo, val) ← VebTree.maxVal child
        pure (some (VebKey.join hi lo, val))
      | .lt, some (summary, children) =>
        let (hi, lo) := VebKeyRef.splitRef k
        let inChild ← (do
          match (← TreeCollection.get children hi) with
          | none => pure none
          | some child => VebTree.predecessor child lo : R (Option (Lo × V)))
        match inChild with
        | some (lo, val) => pure (some (VebKey.join hi lo, val))
        | none =>
          match (← VebTree.predecessor summary hi) with
          | some (hi, ()) =>
            let child ← expect "child should exist for summary key" (← TreeCollection.get children hi)
            let (lo, val) ← VebTree.maxVal child
            pure (some (VebKey.join hi lo, val))
          | none => pure (some t.min)

/-- src/tree.rs:257-349. `get_mut_predecessor_mut` (:312-318) is inlined; the `polonius` wrapper only
satisfies the borrow checker. -/
def predecessorMut (t : OTree K V S C) (k : K) : R (Option (K × V × (V → OTree K V S C))) := do
  if AnyOrd.le k t.min.1 then pure none
  else
    match t.data with
    | none => pure (some (t.min.1, t.min.2, t.putMin))
    | some data =>
      match AnyOrd.cmp k data.max.1, data.children with
      | .gt, _ => pure (some (data.max.1, data.max.2, t.putMax data))
      | _, none => pure (some (t.min.1, t.min.2, t.putMin))
      | .eq, some (summary, children) =>
        debugAssert (AnyOrd.gt k t.min.1)
        let (hi, ()) ← VebTree.maxVal summary
        let (child, putC) ←
          expect "child should exist for summary key" (← TreeCollection.getMut children hi)
        let (lo, val, put) ← VebTree.maxValMut child
        pure (some (VebKey.join hi lo, val, fun w => t.putChildren data summary (putC (put w))))
      | .lt, some (summary, children) =>
        let (hi, lo) := VebKeyRef.splitRef k
        let inChild ← (do
          match (← TreeCollection.getMut children hi) with
          | none => pure none
          | some (child, putC) =>
            pure ((← VebTree.predecessorMut child lo).map (mapPut putC)) :
          R (Option (Lo × V × (V → C))))
        match inChild with
        | some (lo, val, put) =>
          pure (some (VebKey.join hi lo, val, fun w => t.putChildren data summary (put w)))
        | none =>
          match (← VebTree.predecessor summary hi) with
          | some (hi, ()) =>
            let (child, putC) ←
              expect "child should exist for summary key" (← TreeCollection.getMut children hi)
            let (lo, val, put) ← VebTree.maxValMut child
            pure (some (VebKey.join hi lo, val, fun w => t.putChildren data summary (putC (put w))))
          | none => pure (some (t.min.1, t.min.2, t.putMin))

/-- src/tree.rs:351-400 -/
def successor (t : OTree K V S C) (k : K) : R (Option (K × V)) := do
  if AnyOrd.lt k t.min.1 then pure (some t.min)
  else
    match t.data with
    | none => pure none
    | some data =>
      if AnyOrd.ge k data.max.1 then pure none
      else
        match data.children with
        | none => pure (some data.max)
        | some (summary, children) =>
          if AnyOrd.eq k t.min.1 then
            let (hi, ()) ← VebTree.minVal summary
            let child ← expect "child should exist for summary key" (← TreeCollection.get children hi)
            let (lo, val) ← VebTree.minVal child
            pure (some (VebKey.join hi lo, val))
          else
            let (hi, lo) := VebKeyRef.splitRef k
            let inChild ← (do
              match (← TreeCollection.get children hi) with
              | none => pure none
              | some child => VebTree.successor child lo : R (Option (Lo × V)))
            match inChild with
            | some (lo, val) => pure (some (VebKey.join hi lo, val))
            | none =>
              match (← VebTree.successor summary hi) with
              | some (hi, ()) =>
                let child ← expect "child should exist for summary key" (← TreeCollection.get children hi)
                let (lo, val) ← VebTree.minVal child
                pure (some (VebKey.join hi lo, val))
              | none => pure (some data.max)

/-- src/tree.rs:402-500. `get_mut_successor_mut` (:448-454) is inlined; the `polonius` wrapper only
satisfies the borrow checker. -/
def successorMut (t : OTree K V S C) (k : K) : R (Option (K × V × (V → OTree K V S C))) := do
  if AnyOrd.lt k t.min.1 then pure (some (t.min.1, t.min.2, t.putMin))
  else
    match t.data with
    | none => pure none
    | some data =>
      if AnyOrd.ge k data.max.1 then pure none
      else
        match data.children with
        | none => pure (some (data.max.1, data.max.2, t.putMax data))
        | some (summary, children) =>
          if AnyOrd.eq k t.min.1 then
            let (hi, ()) ← VebTree.minVal summary
            let (child, putC) ←
              expect "child should exist for summary key" (← TreeCollection.getMut children hi)
            let (lo, val, put) ← VebTree.minValMut child
            pure (some (VebKey.join hi lo, val, fun w => t.putChildren data summary (putC (put w))))
          else
            let (hi, lo) := VebKeyRef.splitRef k
            let inChild ← (do
              match (← TreeCollection.getMut children hi) with
              | none => pure none
              | some (child, putC) =>
                pure ((← VebTree.successorMut child lo).map (mapPut putC)) :
              R (Option (Lo × V × (V → C))))
            match inChild with
            | some (lo, val, put) =>
              pure (some (VebKey.join hi lo, val, fun w => t.putChildren data summary (put w)))
            | none =>
              match (← VebTree.successor summary hi) with
              | some (hi, ()) =>
                let (child, putC) ←
                  expect "child should exist for summary key" (← TreeCollection.getMut children hi)
                let (lo, val, put) ← VebTree.minValMut child
                pure (some (VebKey.join hi lo, val, fun w => t.putChildren data summary (putC (put w))))
              | none => pure (some (data.max.1, data.max.2, t.putMax data))

/-- The second half of `insert`, src/tree.rs:544-561: store `k`, `v` below the extremes; `min` and `data.max`
have already been dealt with. -/
def insertBelow (min : K × V) (data : OTreeData K V S C) (k : K) (v : V) :
    R (OTree K V S C × Option (K × V)) := do
  let (hi, lo) := VebKey.splitVal k
  match data.children with
  | some (summary, children) =>
    let (children, r) ← TreeCollection.insertKey children hi (lo, v)
    match r with
    | .Ok hi =>
      let (summary, _) ← VebTree.insert summary hi ()
      pure (⟨min, some { data with children := some (summary, children) }⟩, none)
    | .Err (_, none) => pure (⟨min, some { data with children := some (summary, children) }⟩, none)
    | .Err (hi, some (lo, v)) =>
      pure (⟨min, some { data with children := some (summary, children) }⟩,
        some (VebKey.join hi lo, v))
  | none =>
    let children ← TreeCollection.create hi (VebTree.fromMonad lo v)
    let summary := VebTree.fromMonad hi ()
    pure (⟨min, some { data with children := some (summary, children) }⟩, none)

/-- src/tree.rs:502-562 -/
def insert (t : OTree K V S C) (k : K) (v : V) : R (OTree K V S C × Option (K × V)) :=
  match AnyOrd.cmp k t.min.1, t.data with
  | .eq, _ => pure ({ t with min := (k, v) }, some t.min)
  | .lt, none => pure (⟨(k, v), some ⟨t.min, none⟩⟩, none)
  | .gt, none => pure (⟨t.min, some ⟨(k, v), none⟩⟩, none)
  | .lt, some data =>
    -- the old minimum is compared with the maximum: src/tree.rs:524-533
    let old := t.min
    match AnyOrd.cmp data.max.1 old.1 with
    | .eq => pure (⟨(k, v), some { data with max := old }⟩, some data.max)
    | .gt => insertBelow (k, v) { data with max := old } data.max.1 data.max.2
    | .lt => insertBelow (k, v) data old.1 old.2
  | .gt, some data =>
    match AnyOrd.cmp k data.max.1 with
    | .eq => pure (⟨t.min, some { data with max := (k, v) }⟩, some data.max)
    | .gt => insertBelow t.min { data with max := (k, v) } data.max.1 data.max.2
    | .lt => insertBelow t.min data k v

/-- src/tree.rs:651-693 -/
def removeMin (t : OTree K V S C) : R (Option (OTree K V S C) × (K × V)) := do
  match t.data with
  | none => pure (none, t.min)
  | some data =>
    match data.children with
    | none => pure (some ⟨data.max, none⟩, t.min)
    | some (summary, children) =>
      let (hi, ()) ← VebTree.minVal summary
      let (children, (lo, val)) ← TreeCollection.removeKey children hi VebTree.removeMin
      let min := VebKey.join hi lo
      let children ← (match children with
        | none => pure none
        | some (children, false) => pure (some (summary, children))
        | some (children, true) => do
          let summary ← expect "summary should have remaining elements after removal"
            (← VebTree.removeMin summary).1
          pure (some (summary, children)) : R (Option (S × C)))
      pure (some ⟨(min, val), some ⟨data.max, children⟩⟩, t.min)

/-- src/tree.rs:695-736 -/
def removeMax (t : OTree K V S C) : R (Option (OTree K V S C) × (K × V)) := do
  match t.data with
  | none => pure (none, t.min)
  | some data =>
    match data.children with
    | none => pure (some ⟨t.min, none⟩, data.max)
    | some (summary, children) =>
      let (hi, ()) ← VebTree.maxVal summary
      let (children, (lo, val)) ← TreeCollection.removeKey children hi VebTree.removeMax
      let newMax := (VebKey.join hi lo, val)
      let children ← (match children with
        | none => pure none
        | some (children, false) => pure (some (summary, children))
        | some (children, true) => do
          let summary ← expect "summary should have remaining elements after removal"
            (← VebTree.removeMax summary).1
          pure (some (summary, children)) : R (Option (S × C)))
      pure (some ⟨t.min, some ⟨newMax, children⟩⟩, data.max)

/-- src/tree.rs:564-649 -/
def remove (t : OTree K V S C) (k : K) :
    R (Result (Option (OTree K V S C) × (K × V)) (OTree K V S C)) := do
  if AnyOrd.eq k t.min.1 then pure (.Ok (← t.removeMin))
  else
    match t.data with
    | none => pure (.Err t)
    | some data =>
      match data.children with
      | none => if AnyOrd.eq data.max.1 k then pure (.Ok (some ⟨t.min, none⟩, data.max)) else pure (.Err t)
      | some (summary, children) =>
        if AnyOrd.eq k data.max.1 then
          let (hi, ()) ← VebTree.maxVal summary
          let (children, (lo, val)) ← TreeCollection.removeKey children hi VebTree.removeMax
          let newMax := (VebKey.join hi lo, val)
          let children ← (match children with
            | none => pure none
            | some (children, false) => pure (some (summary, children))
            | some (children, true) => do
              let summary ← expect "summary should have remaining elements after removal"
                (← VebTree.removeMax summary).1
              pure (some (summary, children)) : R (Option (S × C)))
          pure (.Ok (some ⟨t.min, some ⟨newMax, children⟩⟩, data.max))
        else
          let (hi, lo) := VebKeyRef.splitRef k
          match (← TreeCollection.maybeRemoveKey children hi (fun v => VebTree.remove v lo)) with
          | .Err children => pure (.Err ⟨t.min, some ⟨data.max, some (summary, children)⟩⟩)
          | .Ok (none, (lo, val)) =>
            pure (.Ok (some ⟨t.min, some ⟨data.max, none⟩⟩, (VebKey.join hi lo, val)))
          | .Ok (some (children, false), (lo, val)) =>
            pure (.Ok (some ⟨t.min, some ⟨data.max, some (summary, children)⟩⟩,
              (VebKey.join hi lo, val)))
          | .Ok (some (children, true), (lo, val)) =>
            let removed ← (match (← VebTree.remove summary hi) with
              | .Ok r => pure r
              | .Err _ => .error (.expect "summary should contain key") : R (Option S × (Hi × Unit)))
            let summary ← expect "summary should have remaining elements after removal" removed.1
            pure (.Ok (some ⟨t.min, some ⟨data.max, some (summary, children)⟩⟩,
              (VebKey.join hi lo, val)))

/-- `impl VebTree for Tree`, src/tree.rs:80-737; `len_hint` is the provided one -/
instance : VebTree (OTree K V S C) K V where
  fromMonad := fromMonad
  isMonad := isMonad
  lenHint := defaultLenHint isMonad
  intoMonad := intoMonad
  minVal := minVal
  minValMut := minValMut
  maxVal := maxVal
  maxValMut := maxValMut
  find := find
  findMut := findMut
  predecessor := predecessor
  predecessorMut := predecessorMut
  successor := successor
  successorMut := successorMut
  insert := insert
  remove := remove
  removeMin := removeMin
  removeMax := removeMax

end OTree

end Veb
