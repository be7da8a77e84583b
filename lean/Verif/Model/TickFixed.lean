import Verif.Model.Tick
import Verif.Model.TreeFixed

/-!
The repaired tree with the log of `Verif.Model.Tick`.  Like `Verif.Model.TreeFixed` this is *not* the code: in `insert` the
operands of the comparison in src/tree.rs:526 are exchanged.
-/

set_option autoImplicit false

namespace Veb
open Tk (tick ev lift)

namespace Tree
variable {K V S C Hi Lo T : Type} [LinearOrder K] [VebKey K Hi Lo] [VebKeyRef K Hi Lo] [TickTree S Hi Unit]
  [TickTree T Lo V] [TreeCollection C Hi T Lo V] [TickColl C Hi T Lo V]

/-- src/tree.rs:502-562 with the operands of the comparison in line 526 exchanged. -/
def insertFixedT (t : Tree K V S C) (k : K) (v : V) : Tk (Tree K V S C × Option (K × V)) := do
  tick
  ev .cmp
  match cmp k t.min.1, t.data with
  | .eq, _ => pure ({ t with min := (k, v) }, some t.min)
  | .lt, none => pure (⟨(k, v), some ⟨t.min, none⟩⟩, none)
  | .gt, none => pure (⟨t.min, some ⟨(k, v), none⟩⟩, none)
  | .lt, some data =>
    let old := t.min
    ev .cmp
    match cmp old.1 data.max.1 with
    | .eq => pure (⟨(k, v), some { data with max := old }⟩, some data.max)
    | .gt => insertBelowT (k, v) { data with max := old } data.max.1 data.max.2
    | .lt => insertBelowT (k, v) data old.1 old.2
  | .gt, some data =>
    ev .cmp
    match cmp k data.max.1 with
    | .eq => pure (⟨t.min, some { data with max := (k, v) }⟩, some data.max)
    | .gt => insertBelowT t.min { data with max := (k, v) } data.max.1 data.max.2
    | .lt => insertBelowT t.min data k v
end Tree

namespace FTree
variable {K V S C Hi Lo T : Type} [LinearOrder K] [VebKey K Hi Lo] [VebKeyRef K Hi Lo] [TickTree S Hi Unit]
  [TickTree T Lo V] [TreeCollection C Hi T Lo V] [TickColl C Hi T Lo V]

/-- All methods but `insert` are those of `Tree`; being an `FTree` logs nothing. -/
instance : TickTree (FTree K V S C) K V where
  fromMonad k v := do pure ⟨← Tree.fromMonadT k v⟩
  isMonad t := t.val.isMonadT
  lenHint t := TickTree.lenHint t.val
  intoMonad t := do
    match (← t.val.intoMonadT) with
    | .Ok kv => pure (.Ok kv)
    | .Err t => pure (.Err ⟨t⟩)
  minVal t := t.val.minValT
  minValMut t := do
    let (k, v, put) ← t.val.minValMutT
    pure (k, v, fun w => ⟨put w⟩)
  maxVal t := t.val.maxValT
  maxValMut t := do
    let (k, v, put) ← t.val.maxValMutT
    pure (k, v, fun w => ⟨put w⟩)
  find t := t.val.findT
  findMut t k := do pure ((← t.val.findMutT k).map (mapPut FTree.mk))
  predecessor t := t.val.predecessorT
  predecessorMut t k := do pure ((← t.val.predecessorMutT k).map (mapPut FTree.mk))
  successor t := t.val.successorT
  successorMut t k := do pure ((← t.val.successorMutT k).map (mapPut FTree.mk))
  insert t k v := do
    let (t, o) ← t.val.insertFixedT k v
    pure (⟨t⟩, o)
  remove t k := do
    match (← t.val.removeT k) with
    | .Ok (t, kv) => pure (.Ok (t.map FTree.mk, kv))
    | .Err t => pure (.Err ⟨t⟩)
  removeMin t := do
    let (t, kv) ← t.val.removeMinT
    pure (t.map FTree.mk, kv)
  removeMax t := do
    let (t, kv) ← t.val.removeMaxT
    pure (t.map FTree.mk, kv)

end FTree
end Veb
