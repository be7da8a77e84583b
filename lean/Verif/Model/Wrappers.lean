import Verif.Model.Collection

/-!
`VebTree` for `Box`, `SizedVebTree` and `BTreeMap`: src/lib.rs:166-580.
-/

namespace Veb

variable {T K V : Type}

/-- A `&mut` result, seen through a wrapper: the write-back function is composed with `f`. -/
def mapPut {T T' K V : Type} (f : T → T') : K × V × (V → T) → K × V × (V → T')
  | (k, v, put) => (k, v, fun w => f (put w))

/-- `impl VebTree for Box<V>`, src/lib.rs:327-431 -/
instance [VebTree T K V] : VebTree (Box T) K V where
  /- :331-333 -/
  fromMonad k v := ⟨VebTree.fromMonad k v⟩
  /- :335-337 -/
  isMonad t := VebTree.isMonad t.val
  /- :339-341 -/
  lenHint t := VebTree.lenHint t.val
  /- :343-345 -/
  intoMonad t := do
    match (← VebTree.intoMonad t.val) with
    | .Ok kv => pure (.Ok kv)
    | .Err t => pure (.Err ⟨t⟩)
  /- :347-349 -/
  minVal t := VebTree.minVal t.val
  /- :351-353 -/
  minValMut t := do pure (mapPut Box.mk (← VebTree.minValMut t.val))
  /- :355-357 -/
  maxVal t := VebTree.maxVal t.val
  /- :359-361 -/
  maxValMut t := do pure (mapPut Box.mk (← VebTree.maxValMut t.val))
  /- :363-368 -/
  find t k := VebTree.find t.val k
  /- :370-375 -/
  findMut t k := do pure ((← VebTree.findMut t.val k).map (mapPut Box.mk))
  /- :377-382 -/
  predecessor t k := VebTree.predecessor t.val k
  /- :384-392 -/
  predecessorMut t k := do pure ((← VebTree.predecessorMut t.val k).map (mapPut Box.mk))
  /- :394-399 -/
  successor t k := VebTree.successor t.val k
  /- :401-406 -/
  successorMut t k := do pure ((← VebTree.successorMut t.val k).map (mapPut Box.mk))
  /- :408-410 -/
  insert t k v := do
    let (t, o) ← VebTree.insert t.val k v
    pure (⟨t⟩, o)
  /- :412-420 -/
  remove t k := do
    match (← VebTree.remove t.val k) with
    | .Ok (tree, r) => pure (.Ok (tree.map Box.mk, r))
    | .Err tree => pure (.Err ⟨tree⟩)
  /- :422-425 -/
  removeMin t := do
    let (tree, v) ← VebTree.removeMin t.val
    pure (tree.map Box.mk, v)
  /- :427-430 -/
  removeMax t := do
    let (tree, v) ← VebTree.removeMax t.val
    pure (tree.map Box.mk, v)

/-- `struct SizedVebTree<V>`, src/lib.rs:168-172. `size : NonZeroUsize` is a `Nat`; the constructors below
keep it nonzero exactly where the code does (`NonZeroUsize::new(..).expect(..)`). -/
structure SizedVebTree (T : Type) where
  tree : T
  size : Nat
  deriving Repr

namespace SizedVebTree

/-- `len`, src/lib.rs:174-180 -/
def len (t : SizedVebTree T) : Nat := t.size

/-- `NonZeroUsize::new` -/
def nonZero (n : Nat) : Option Nat := if n = 0 then none else some n

/-- `impl VebTree for SizedVebTree<V>`, src/lib.rs:183-325 -/
instance [VebTree T K V] : VebTree (SizedVebTree T) K V where
  /- :187-192 -/
  fromMonad k v := ⟨VebTree.fromMonad k v, 1⟩
  /- :194-201 -/
  isMonad t := do
    if (← VebTree.isMonad t.tree) then
      debugAssert (decide (t.size = 1))
      pure true
    else pure false
  /- :203-205 -/
  lenHint t := pure (t.size, some t.size)
  /- :207-212 -/
  intoMonad t := do
    match (← VebTree.intoMonad t.tree) with
    | .Ok kv => pure (.Ok kv)
    | .Err tree => pure (.Err ⟨tree, t.size⟩)
  /- :214-216 -/
  minVal t := VebTree.minVal t.tree
  /- :218-220 -/
  minValMut t := do pure (mapPut (fun u => ⟨u, t.size⟩) (← VebTree.minValMut t.tree))
  /- :222-224 -/
  maxVal t := VebTree.maxVal t.tree
  /- :226-228 -/
  maxValMut t := do pure (mapPut (fun u => ⟨u, t.size⟩) (← VebTree.maxValMut t.tree))
  /- :230-235 -/
  find t k := VebTree.find t.tree k
  /- :237-242 -/
  findMut t k := do
    pure ((← VebTree.findMut t.tree k).map (mapPut (fun u => ⟨u, t.size⟩)))
  /- :244-249 -/
  predecessor t k := VebTree.predecessor t.tree k
  /- :251-259 -/
  predecessorMut t k := do
    pure ((← VebTree.predecessorMut t.tree k).map (mapPut (fun u => ⟨u, t.size⟩)))
  /- :261-266 -/
  successor t k := VebTree.successor t.tree k
  /- :268-273 -/
  successorMut t k := do
    pure ((← VebTree.successorMut t.tree k).map (mapPut (fun u => ⟨u, t.size⟩)))
  /- :275-281 -/
  insert t k v := do
    let (tree, o) ← VebTree.insert t.tree k v
    if o.isNone then
      let size ← expect "size overflowed" (if t.size + 1 ≤ usizeMax then some (t.size + 1) else none)
      pure (⟨tree, size⟩, o)
    else pure (⟨tree, t.size⟩, o)
  /- :283-300 -/
  remove t k := do
    match (← VebTree.remove t.tree k) with
    | .Ok (some tree, r) =>
      let size ← expect "last item didn't remove tree" (nonZero (← subUsize t.size 1))
      pure (.Ok (some ⟨tree, size⟩, r))
    | .Ok (none, v) => pure (.Ok (none, v))
    | .Err tree => pure (.Err ⟨tree, t.size⟩)
  /- :302-312 -/
  removeMin t := do
    let newSize := nonZero (← subUsize t.size 1)
    match (← VebTree.removeMin t.tree) with
    | (some tree, v) =>
      let size ← expect "last item didn't remove tree" newSize
      pure (some ⟨tree, size⟩, v)
    | (none, v) => pure (none, v)
  /- :314-324 -/
  removeMax t := do
    let newSize := nonZero (← subUsize t.size 1)
    match (← VebTree.removeMax t.tree) with
    | (some tree, v) =>
      let size ← expect "last item didn't remove tree" newSize
      pure (some ⟨tree, size⟩, v)
    | (none, v) => pure (none, v)

end SizedVebTree

/-- `alloc::collections::BTreeMap<K, V>`: its entries in ascending key order.  The B-tree itself is trusted:
only the documented ordered-map behaviour of the methods used is modelled. -/
structure BTreeMap (K V : Type) where
  entries : List (K × V)
  deriving Repr

namespace BTreeMap
variable [LinearOrder K]

/-- std `BTreeMap::insert` on the entry list: keys keep their order; an existing key's value is replaced
(and the old key kept). -/
def stdInsert (k : K) (v : V) : List (K × V) → List (K × V)
  | [] => [(k, v)]
  | (k', v') :: l =>
    match cmp k k' with
    | .lt => (k, v) :: (k', v') :: l
    | .eq => (k', v) :: l
    | .gt => (k', v') :: stdInsert k v l
/-- std `get_key_value` -/
def stdGet (l : List (K × V)) (k : K) : Option (K × V) := l.find? (fun p => decide (p.1 = k))
/-- write a value through a `&mut V` obtained for the stored key `k` -/
def stdPut (l : List (K × V)) (k : K) (v : V) : List (K × V) :=
  l.map (fun p => if p.1 = k then (p.1, v) else p)
/-- std `remove_entry`: the map afterwards -/
def stdErase (l : List (K × V)) (k : K) : List (K × V) := l.filter (fun p => decide (p.1 ≠ k))

/-- A `&mut` result on an entry of `t`. -/
def mutAt (t : BTreeMap K V) (p : K × V) : K × V × (V → BTreeMap K V) :=
  (p.1, p.2, fun w => ⟨stdPut t.entries p.1 w⟩)

/-- src/lib.rs:437-441 -/
def fromMonad (k : K) (v : V) : BTreeMap K V := ⟨stdInsert k v []⟩
/-- src/lib.rs:442-444 -/
def isMonad (t : BTreeMap K V) : R Bool := pure (decide (t.entries.length = 1))
/-- src/lib.rs:445-447 -/
def lenHint (t : BTreeMap K V) : R (Nat × Option Nat) := pure (t.entries.length, some t.entries.length)
/-- src/lib.rs:448-458 -/
def intoMonad (t : BTreeMap K V) : R (Result (K × V) (BTreeMap K V)) := do
  if (← t.isMonad) then
    pure (.Ok (← expect "monad BTreeMap should have one element" t.entries.head?))
  else pure (.Err t)
/-- src/lib.rs:459-463 -/
def minVal (t : BTreeMap K V) : R (K × V) := expect "tree should not be empty" t.entries.head?
/-- src/lib.rs:464-468 -/
def minValMut (t : BTreeMap K V) : R (K × V × (V → BTreeMap K V)) := do
  pure (t.mutAt (← expect "tree should not be empty" t.entries.head?))
/-- src/lib.rs:469-473 -/
def maxVal (t : BTreeMap K V) : R (K × V) := expect "tree should not be empty" t.entries.getLast?
/-- src/lib.rs:474-481 -/
def maxValMut (t : BTreeMap K V) : R (K × V × (V → BTreeMap K V)) := do
  pure (t.mutAt (← expect "tree should not be empty" t.entries.getLast?))
/-- src/lib.rs:482-488 -/
def find (t : BTreeMap K V) (k : K) : R (Option (K × V)) := pure (stdGet t.entries k)
/-- src/lib.rs:489-498: first entry of the range `k..=k` -/
def findMut (t : BTreeMap K V) (k : K) : R (Option (K × V × (V → BTreeMap K V))) :=
  pure ((t.entries.filter (fun p => decide (k ≤ p.1 ∧ p.1 ≤ k))).head?.map t.mutAt)
/-- src/lib.rs:499-507: last entry of the range `..k` -/
def predecessor (t : BTreeMap K V) (k : K) : R (Option (K × V)) :=
  pure (t.entries.filter (fun p => decide (p.1 < k))).getLast?
/-- src/lib.rs:511-522 -/
def predecessorMut (t : BTreeMap K V) (k : K) : R (Option (K × V × (V → BTreeMap K V))) :=
  pure ((t.entries.filter (fun p => decide (p.1 < k))).getLast?.map t.mutAt)
/-- src/lib.rs:523-531: first entry of the range above `k`, `k` excluded -/
def successor (t : BTreeMap K V) (k : K) : R (Option (K × V)) :=
  pure (t.entries.filter (fun p => decide (k < p.1))).head?
/-- src/lib.rs:532-540 -/
def successorMut (t : BTreeMap K V) (k : K) : R (Option (K × V × (V → BTreeMap K V))) :=
  pure ((t.entries.filter (fun p => decide (k < p.1))).head?.map t.mutAt)
/-- src/lib.rs:541-550: an existing entry gets the new value; the *argument* key is returned -/
def insert (t : BTreeMap K V) (k : K) (v : V) : R (BTreeMap K V × Option (K × V)) :=
  match stdGet t.entries k with
  | none => pure (⟨stdInsert k v t.entries⟩, none)
  | some (_, old) => pure (⟨stdPut t.entries k v⟩, some (k, old))
/-- src/lib.rs:551-564 -/
def remove (t : BTreeMap K V) (k : K) :
    R (Result (Option (BTreeMap K V) × (K × V)) (BTreeMap K V)) := do
  let monad ← t.isMonad
  match monad, stdGet t.entries k with
  | _, none => pure (.Err t)
  | true, some (k, v) => pure (.Ok (none, (k, v)))
  | false, some (k, v) => pure (.Ok (some ⟨stdErase t.entries k⟩, (k, v)))
/-- src/lib.rs:565-571 -/
def removeMin (t : BTreeMap K V) : R (Option (BTreeMap K V) × (K × V)) := do
  let v ← expect "tree should not be empty" t.entries.head?
  let t' : BTreeMap K V := ⟨t.entries.tail⟩
  pure (if t'.entries.isEmpty then none else some t', v)
/-- src/lib.rs:573-579 -/
def removeMax (t : BTreeMap K V) : R (Option (BTreeMap K V) × (K × V)) := do
  let v ← expect "tree should not be empty" t.entries.getLast?
  let t' : BTreeMap K V := ⟨t.entries.dropLast⟩
  pure (if t'.entries.isEmpty then none else some t', v)

/-- `impl VebTree for BTreeMap<K, V>`, src/lib.rs:433-580 -/
instance : VebTree (BTreeMap K V) K V where
  fromMonad := fromMonad
  isMonad := isMonad
  lenHint := lenHint
  intoMonad := intoMonad
  minVal := minVal
  minValMut := minValMut
  maxVal := maxVal
  maxValMut := maxValMut
  find := find
  findMut := findMut
  predecessor := predecessor
  predecessorMut := predecessorMut
  successor := successor
  successorMut := successorMut
  insert := insert
  remove := remove
  removeMin := removeMin
  removeMax := removeMax

end BTreeMap
end Veb
