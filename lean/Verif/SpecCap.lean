import Verif.SpecPanic

/-!
# How many entries fit into a tree type
-/

set_option autoImplicit false

namespace Veb

/-- `CapTree T K V n`: `T` is a tree type put together from the crate that has room for at most `n` entries: an entry for
each key at the leaves; two entries in a `Tree` itself and as many as fit into a child for each upper half.  A `SizedVebTree`
may occur wherever its counter can count to `n`. -/
inductive CapTree : (T K V : Type) → [LinearOrder K] → [VebTree T K V] → Nat → Prop
  | byteSet : CapTree ByteSet (U 8) Unit (2 ^ 8)
  | byteMap {V : Type} : CapTree (ByteMap V) (U 8) V (2 ^ 8)
  | btreeMap {K V : Type} [LinearOrder K] [Finite K] : CapTree (BTreeMap K V) K V (Nat.card K)
  | box {T K V : Type} [LinearOrder K] [VebTree T K V] {n : Nat} (h : CapTree T K V n) : CapTree (Box T) K V n
  | sized {T K V : Type} [LinearOrder K] [VebTree T K V] {n : Nat} (h : CapTree T K V n) (hn : n ≤ usizeMax) :
      CapTree (SizedVebTree T) K V n
  | tree {K V S C Hi Lo T : Type} [LinearOrder K] [LinearOrder Hi] [LinearOrder Lo]
      [VebKey K Hi Lo] [VebKeyRef K Hi Lo] [VebTree S Hi Unit] [VebTree T Lo V]
      [TreeCollection C Hi T Lo V] [Finite Hi] {m n : Nat} (hk : GoodKey K Hi Lo) (hs : CapTree S Hi Unit m)
      (ht : CapTree T Lo V n) (hc : CrateColl C Hi T Lo V) : CapTree (Tree K V S C) K V (2 + Nat.card Hi * n)

end Veb
