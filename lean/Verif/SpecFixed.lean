import Verif.SpecHist
import Verif.Model.TreeFixed

/-!
# The tree types over the corrected tree
-/

set_option autoImplicit false

namespace Veb

/-- Tree types put together from the crate with `FTree` in the place of `Tree`, of any nesting depth, without a
counter inside. -/
inductive FixedTree : (T K V : Type) → [LinearOrder K] → [VebTree T K V] → Prop
  | byteSet : FixedTree ByteSet (U 8) Unit
  | byteMap {V : Type} : FixedTree (ByteMap V) (U 8) V
  | btreeMap {K V : Type} [LinearOrder K] : FixedTree (BTreeMap K V) K V
  | box {T K V : Type} [LinearOrder K] [VebTree T K V] (h : FixedTree T K V) : FixedTree (Box T) K V
  | tree {K V S C Hi Lo T : Type} [LinearOrder K] [LinearOrder Hi] [LinearOrder Lo]
      [VebKey K Hi Lo] [VebKeyRef K Hi Lo] [VebTree S Hi Unit] [VebTree T Lo V]
      [TreeCollection C Hi T Lo V] (hk : GoodKey K Hi Lo) (hs : FixedTree S Hi Unit) (ht : FixedTree T Lo V)
      (hc : CrateColl C Hi T Lo V) : FixedTree (FTree K V S C) K V

end Veb
