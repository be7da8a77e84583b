import Verif.Model.Tree
import Verif.Model.Markers

/-!
`Tree` with one comparison of `insert` turned around.  This is *not* the code: src/tree.rs:526 reads
`match data.max.0.cmp(&k)`, and here it is `match k.cmp(&data.max.0)` (`k` is the old minimum at that point), as
in the sibling arm at src/tree.rs:534.  Everything else is the model of the code.
-/

namespace Veb

/-- src/tree.rs:502-562 with the operands of the comparison in line 526 exchanged. -/
def Tree.insertFixed {K V S C Hi Lo T : Type} [LinearOrder K] [VebKey K Hi Lo] [VebKeyRef K Hi Lo]
    [VebTree S Hi Unit] [VebTree T Lo V] [TreeCollection C Hi T Lo V] (t : Tree K V S C) (k : K) (v : V) :
    R (Tree K V S C × Option (K × V)) :=
  match cmp k t.min.1, t.data with
  | .lt, some data =>
    let old := t.min
    match cmp old.1 data.max.1 with
    | .eq => pure (⟨(k, v), some { data with max := old }⟩, some data.max)
    | .gt => insertBelow (k, v) { data with max := old } data.max.1 data.max.2
    | .lt => insertBelow (k, v) data old.1 old.2
  | _, _ => t.insert k v

/-- A `Tree` with that `insert`. -/
structure FTree (K V S C : Type) where
  val : Tree K V S C

namespace FTree
variable {K V S C Hi Lo T : Type} [LinearOrder K] [VebKey K Hi Lo] [VebKeyRef K Hi Lo]
  [VebTree S Hi Unit] [VebTree T Lo V] [TreeCollection C Hi T Lo V]

/-- All methods but `insert` are those of `Tree`. -/
instance : VebTree (FTree K V S C) K V where
  fromMonad k v := ⟨Tree.fromMonad k v⟩
  isMonad t := t.val.isMonad
  lenHint t := VebTree.lenHint t.val
  intoMonad t := do
    match (← t.val.intoMonad) with
    | .Ok kv => pure (.Ok kv)
    | .Err t => pure (.Err ⟨t⟩)
  minVal t := t.val.minVal
  minValMut t := do
    let (k, v, put) ← t.val.minValMut
    pure (k, v, fun w => ⟨put w⟩)
  maxVal t := t.val.maxVal
  maxValMut t := do
    let (k, v, put) ← t.val.maxValMut
    pure (k, v, fun w => ⟨put w⟩)
  find t := t.val.find
  findMut t k := do pure ((← t.val.findMut k).map (mapPut FTree.mk))
  predecessor t := t.val.predecessor
  predecessorMut t k := do pure ((← t.val.predecessorMut k).map (mapPut FTree.mk))
  successor t := t.val.successor
  successorMut t k := do pure ((← t.val.successorMut k).map (mapPut FTree.mk))
  insert t k v := do
    let (t, o) ← t.val.insertFixed k v
    pure (⟨t⟩, o)
  remove t k := do
    match (← t.val.remove k) with
    | .Ok (t, kv) => pure (.Ok (t.map FTree.mk, kv))
    | .Err t => pure (.Err ⟨t⟩)
  removeMin t := do
    let (t, kv) ← t.val.removeMin
    pure (t.map FTree.mk, kv)
  removeMax t := do
    let (t, kv) ← t.val.removeMax
    pure (t.map FTree.mk, kv)

end FTree

/-- The predefined types over the corrected tree. -/
abbrev FSet16 (K : Type) := FTree K Unit Set8 (ArrayColl (U 8) Set8)
abbrev FMap16 (K V : Type) := FTree K V Set8 (ArrayColl (U 8) (Map8 V))
abbrev FSet32 (K : Type) := FTree K Unit (FSet16 (U 16)) (ArrayColl (U 16) (FSet16 (U 16)))
abbrev FMap32 (K V : Type) := FTree K V (FSet16 (U 16)) (ArrayColl (U 16) (FMap16 (U 16) V))
abbrev FSet64 (K : Type) := FTree K Unit (FSet32 (U 32)) (ArrayColl (U 32) (FSet32 (U 32)))
abbrev FMap64 (K V : Type) := FTree K V (FSet32 (U 32)) (ArrayColl (U 32) (FMap32 (U 32) V))

end Veb
