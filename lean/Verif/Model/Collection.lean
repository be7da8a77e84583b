import Verif.Model.Key

/-!
Tree collections: arrays (src/collection/array.rs), hash maps (src/collection/hash.rs), boxes
(src/collection/mod.rs:108-155).  `ByteMap` as a collection is in `Verif.Model.ByteMap`.
-/

namespace Veb

/-! ## Arrays -/

/-- `Box<[Option<T>]>` (array.rs:47-60) and `GenericArray<Option<T>, _>` (array.rs:72-85): a fixed number of
optional slots.  Both have the same code, hence one model.  Slots at or beyond `len` are unreachable.  Memory is taken to be
unlimited; a `GenericArray` larger than the address space (index type `u64`) does not compile, so for that index type this
is the boxed slice only. -/
structure OptionArray (T : Type) where
  len : Nat
  slot : Nat → Option T

namespace OptionArray
variable {T : Type}

/-- `Cardinality::USIZE`, the value of a type-level number as a `usize`.  `typenum` computes it bit by bit with `<<`,
so numbers that do not fit (`op!(U1 << U64)`) wrap. -/
def typenumUsize (cardinality : Nat) : Nat := cardinality % (usizeMax + 1)
/-- `create`, src/collection/array.rs:49-53, 76-78 -/
def create (cardinality : Nat) : OptionArray T := ⟨typenumUsize cardinality, fun _ => none⟩
/-- `get` (and reading through `get_mut`), src/collection/array.rs:54-59, 79-84 -/
def get (a : OptionArray T) (i : Nat) : R (Option T) :=
  if i < a.len then .ok (a.slot i) else .error .index
/-- `*self.get_mut(i) = o` -/
def put (a : OptionArray T) (i : Nat) (o : Option T) : R (OptionArray T) :=
  if i < a.len then .ok { a with slot := fun j => if j = i then o else a.slot j } else .error .index

end OptionArray

/-- `struct ArrayTreeCollection<H, A>`, src/collection/array.rs:87-91 -/
structure ArrayColl (Hi T : Type) where
  array : OptionArray T
  count : Nat

namespace ArrayColl
variable {Hi T Lo V : Type} [SizedVebKey Hi]

/-- src/collection/array.rs:101-110 -/
def create (h : Hi) (tree : T) : R (ArrayColl Hi T) := do
  let array := OptionArray.create (SizedVebKey.cardinality Hi)
  let array ← array.put (SizedVebKey.index h) (some tree)
  pure ⟨array, 1⟩
/-- src/collection/array.rs:112-114 -/
def get (c : ArrayColl Hi T) (h : Hi) : R (Option T) := c.array.get (SizedVebKey.index h)
/-- src/collection/array.rs:116-118 -/
def getMut (c : ArrayColl Hi T) (h : Hi) : R (Option (T × (T → ArrayColl Hi T))) := do
  let i := SizedVebKey.index h
  match (← c.array.get i) with
  | none => pure none
  | some t =>
    pure (some (t, fun u =>
      { c with array := { c.array with slot := fun j => if j = i then some u else c.array.slot j } }))
/-- src/collection/array.rs:120-132 -/
def insertKey [VebTree T Lo V] (c : ArrayColl Hi T) (h : Hi) (lv : Lo × V) :
    R (ArrayColl Hi T × Result Hi (Hi × Option (Lo × V))) := do
  match (← c.array.get (SizedVebKey.index h)) with
  | none =>
    let array ← c.array.put (SizedVebKey.index h) (some (VebTree.fromMonad lv.1 lv.2))
    pure (⟨array, ← addUsize c.count 1⟩, .Ok h)
  | some t =>
    let (t, o) ← VebTree.insert t lv.1 lv.2
    pure (⟨← c.array.put (SizedVebKey.index h) (some t), c.count⟩, .Err (h, o))
/-- src/collection/array.rs:139-162 -/
def removeKey (c : ArrayColl Hi T) (h : Hi) (r : T → R (Option T × (Lo × V))) :
    R (Option (ArrayColl Hi T × Bool) × (Lo × V)) := do
  let t ← expect "array should contain tree at key index" (← c.array.get (SizedVebKey.index h))
  let array ← c.array.put (SizedVebKey.index h) none
  let (t, val) ← r t
  let removed := t.isNone
  let count ← if removed then subUsize c.count 1 else pure c.count
  let array ← array.put (SizedVebKey.index h) t
  if count = 0 then pure (none, val) else pure (some (⟨array, count⟩, removed), val)
/-- src/collection/array.rs:169-197 -/
def maybeRemoveKey (c : ArrayColl Hi T) (h : Hi) (r : T → R (Result (Option T × (Lo × V)) T)) :
    R (Result (Option (ArrayColl Hi T × Bool) × (Lo × V)) (ArrayColl Hi T)) := do
  match (← c.array.get (SizedVebKey.index h)) with
  | none => pure (.Err c)
  | some t =>
    let array ← c.array.put (SizedVebKey.index h) none
    match (← r t) with
    | .Err t => pure (.Err ⟨← array.put (SizedVebKey.index h) (some t), c.count⟩)
    | .Ok (t, val) =>
      let removed := t.isNone
      let count ← if removed then subUsize c.count 1 else pure c.count
      let array ← array.put (SizedVebKey.index h) t
      if count = 0 then pure (.Ok (none, val)) else pure (.Ok (some (⟨array, count⟩, removed), val))

/-- `impl TreeCollection for ArrayTreeCollection`, src/collection/array.rs:93-198 -/
instance [VebTree T Lo V] : TreeCollection (ArrayColl Hi T) Hi T Lo V where
  create := create
  get := get
  getMut := getMut
  insertKey := insertKey
  removeKey := removeKey
  maybeRemoveKey := maybeRemoveKey

end ArrayColl

/-! ## Hash maps -/

/-- `hashbrown::HashMap<Hi, T, S>`: an association list without repeated keys, in no particular order.
The hash table itself (hashing, probing, growth) is trusted: only its map behaviour is modelled. -/
structure HashMap (Hi T : Type) where
  entries : List (Hi × T)

namespace HashMap
variable {Hi T Lo V : Type} [DecidableEq Hi]

/-- `HashMap::get` -/
def lookup (c : HashMap Hi T) (h : Hi) : Option T :=
  (c.entries.find? (fun p => decide (p.1 = h))).map Prod.snd
/-- overwrite the value stored under `h` -/
def assign (c : HashMap Hi T) (h : Hi) (t : T) : HashMap Hi T :=
  ⟨c.entries.map (fun p => if p.1 = h then (p.1, t) else p)⟩
/-- insert under a key that is not present -/
def add (c : HashMap Hi T) (h : Hi) (t : T) : HashMap Hi T := ⟨(h, t) :: c.entries⟩
/-- erase the entry under `h` -/
def erase (c : HashMap Hi T) (h : Hi) : HashMap Hi T := ⟨c.entries.filter (fun p => decide (p.1 ≠ h))⟩
/-- the effect of `RawOccupiedEntryMut::replace_entry_with` returning `o` -/
def replaceEntry (c : HashMap Hi T) (h : Hi) : Option T → HashMap Hi T
  | some t => c.assign h t
  | none => c.erase h

/-- src/collection/hash.rs:42-48 -/
def create (h : Hi) (tree : T) : R (HashMap Hi T) := do
  let v : HashMap Hi T := ⟨[(h, tree)]⟩
  debugAssert (decide (v.entries.length = 1))
  debugAssert (v.lookup h).isSome
  pure v
/-- src/collection/hash.rs:50-52 -/
def get (c : HashMap Hi T) (h : Hi) : R (Option T) := pure (c.lookup h)
/-- src/collection/hash.rs:53-55 -/
def getMut (c : HashMap Hi T) (h : Hi) : R (Option (T × (T → HashMap Hi T))) :=
  match c.lookup h with
  | none => pure none
  | some t => pure (some (t, fun u => c.assign h u))
/-- src/collection/hash.rs:57-67 -/
def insertKey [VebTree T Lo V] (c : HashMap Hi T) (h : Hi) (lv : Lo × V) :
    R (HashMap Hi T × Result Hi (Hi × Option (Lo × V))) := do
  match c.lookup h with
  | none => pure (c.add h (VebTree.fromMonad lv.1 lv.2), .Ok h)
  | some t =>
    let (t, o) ← VebTree.insert t lv.1 lv.2
    pure (c.assign h t, .Err (h, o))
/-- src/collection/hash.rs:69-95 -/
def removeKey (c : HashMap Hi T) (h : Hi) (r : T → R (Option T × (Lo × V))) :
    R (Option (HashMap Hi T × Bool) × (Lo × V)) := do
  match c.lookup h with
  | none => .error .unreachable
  | some t =>
    let (t, val) ← r t
    let c := c.replaceEntry h t
    let removed := t.isNone
    if c.entries.isEmpty then pure (none, val) else pure (some (c, removed), val)
/-- src/collection/hash.rs:97-123 -/
def maybeRemoveKey (c : HashMap Hi T) (h : Hi) (r : T → R (Result (Option T × (Lo × V)) T)) :
    R (Result (Option (HashMap Hi T × Bool) × (Lo × V)) (HashMap Hi T)) := do
  match c.lookup h with
  | none => pure (.Err c)
  | some t =>
    let (o, val) : Option T × Option (Lo × V) ← do
      match (← r t) with
      | .Err t => pure (some t, none)
      | .Ok (t, rval) => pure (t, some rval)
    let c := c.replaceEntry h o
    let removed := o.isNone
    match val, c.entries.isEmpty with
    | some val, true => pure (.Ok (none, val))
    | some val, false => pure (.Ok (some (c, removed), val))
    | none, false => pure (.Err c)
    | none, true => .error .unreachable

/-- `impl TreeCollection for HashMap`, src/collection/hash.rs:33-124 -/
instance [VebTree T Lo V] : TreeCollection (HashMap Hi T) Hi T Lo V where
  create := create
  get := get
  getMut := getMut
  insertKey := insertKey
  removeKey := removeKey
  maybeRemoveKey := maybeRemoveKey

end HashMap

/-! ## Boxes -/

/-- `Box<T>`: one owned value on the heap. -/
structure Box (T : Type) where
  val : T
  deriving DecidableEq, Repr

/-- `impl TreeCollection for Box<T>`, src/collection/mod.rs:108-155 -/
instance {C Hi T Lo V : Type} [TreeCollection C Hi T Lo V] : TreeCollection (Box C) Hi T Lo V where
  create h t := do pure ⟨← TreeCollection.create h t⟩
  get c h := TreeCollection.get c.val h
  getMut c h := do
    match (← TreeCollection.getMut c.val h) with
    | none => pure none
    | some (t, put) => pure (some (t, fun u => ⟨put u⟩))
  insertKey c h lv := do
    let (c, r) ← TreeCollection.insertKey c.val h lv
    pure (⟨c⟩, r)
  removeKey c h r := do
    let (t, v) ← TreeCollection.removeKey c.val h r
    pure (t.map (fun (t, b) => (⟨t⟩, b)), v)
  maybeRemoveKey c h r := do
    match (← TreeCollection.maybeRemoveKey c.val h r) with
    | .Err c => pure (.Err ⟨c⟩)
    | .Ok (t, v) => pure (.Ok (t.map (fun (t, b) => (⟨t⟩, b)), v))

end Veb
