import Verif.SpecCost
import Verif.Model.TickFixed

/-!
`Nested` of `Verif.SpecCost` for the repaired tree: `FTree` in the place of `Tree`.
-/

set_option autoImplicit false

namespace Veb

/-- `FNested b N T K V n w`: `T` is put together with `n` levels of `FTree`, `w` wrappers (`Box`, `SizedVebTree`) on top, at
most `b` wrappers in a row inside and arrays of at most `N` slots. -/
inductive FNested (b N : Nat) : (T K V : Type) → [VebTree T K V] → [TickTree T K V] → Nat → Nat → Prop
  | byteSet : FNested b N ByteSet (U 8) Unit 0 0
  | byteMap {V : Type} : FNested b N (ByteMap V) (U 8) V 0 0
  | btreeMap {K V : Type} [LinearOrder K] : FNested b N (BTreeMap K V) K V 0 0
  | box {T K V : Type} [VebTree T K V] [TickTree T K V] {n w : Nat} (h : FNested b N T K V n w) :
      FNested b N (Box T) K V n (w + 1)
  | sized {T K V : Type} [VebTree T K V] [TickTree T K V] {n w : Nat} (h : FNested b N T K V n w) :
      FNested b N (SizedVebTree T) K V n (w + 1)
  | tree {K V S C Hi Lo T : Type} [LinearOrder K] [VebKey K Hi Lo] [VebKeyRef K Hi Lo] [VebTree S Hi Unit]
      [TickTree S Hi Unit] [VebTree T Lo V] [TickTree T Lo V] [TreeCollection C Hi T Lo V] [TickColl C Hi T Lo V]
      {n nS nT wS wT : Nat} (hs : FNested b N S Hi Unit nS wS) (ht : FNested b N T Lo V nT wT)
      (hc : NestedColl N C Hi T Lo V) (hnS : nS ≤ n) (hnT : nT ≤ n) (hwS : wS ≤ b) (hwT : wT ≤ b) :
      FNested b N (FTree K V S C) K V (n + 1) 0

end Veb
