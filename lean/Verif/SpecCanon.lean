import Verif.SpecHist
import Verif.SpecFixed

/-!
# Tree types whose structure is determined by their contents
-/

set_option autoImplicit false

namespace Veb

/-- Collections without a hash table. -/
inductive PlainColl : (C Hi T Lo V : Type) → [LinearOrder Hi] → [VebTree T Lo V] → [TreeCollection C Hi T Lo V] → Prop
  | array {Hi T Lo V : Type} [LinearOrder Hi] [SizedVebKey Hi] [VebTree T Lo V] (h : GoodIndex Hi) :
      PlainColl (ArrayColl Hi T) Hi T Lo V
  | byte {T Lo V : Type} [VebTree T Lo V] : PlainColl (ByteMap T) (U 8) T Lo V
  | box {C Hi T Lo V : Type} [LinearOrder Hi] [VebTree T Lo V] [TreeCollection C Hi T Lo V]
      (h : PlainColl C Hi T Lo V) : PlainColl (Box C) Hi T Lo V

/-- The tree types of the crate without a hash table inside, of any nesting depth, and the insertions they handle
correctly. -/
inductive PlainTree : (T K V : Type) → [LinearOrder K] → [VebTree T K V] → ((K → Prop) → K → Prop) → Prop
  | byteSet : PlainTree ByteSet (U 8) Unit always
  | byteMap {V : Type} : PlainTree (ByteMap V) (U 8) V always
  | btreeMap {K V : Type} [LinearOrder K] : PlainTree (BTreeMap K V) K V always
  | box {T K V : Type} [LinearOrder K] [VebTree T K V] {safe : (K → Prop) → K → Prop}
      (h : PlainTree T K V safe) : PlainTree (Box T) K V safe
  | sized {T K V : Type} [LinearOrder K] [VebTree T K V] {safe : (K → Prop) → K → Prop}
      (h : PlainTree T K V safe) : PlainTree (SizedVebTree T) K V (sizedSafe safe)
  | tree {K V S C Hi Lo T : Type} [LinearOrder K] [LinearOrder Hi] [LinearOrder Lo]
      [VebKey K Hi Lo] [VebKeyRef K Hi Lo] [VebTree S Hi Unit] [VebTree T Lo V]
      [TreeCollection C Hi T Lo V] {safeS : (Hi → Prop) → Hi → Prop} {safeT : (Lo → Prop) → Lo → Prop}
      (hk : GoodKey K Hi Lo) (hs : PlainTree S Hi Unit safeS) (ht : PlainTree T Lo V safeT)
      (hc : PlainColl C Hi T Lo V) : PlainTree (Tree K V S C) K V (Tree.Safe safeS safeT)

/-- The same with the corrected tree (C42), without counters. -/
inductive PlainFixed : (T K V : Type) → [LinearOrder K] → [VebTree T K V] → Prop
  | byteSet : PlainFixed ByteSet (U 8) Unit
  | byteMap {V : Type} : PlainFixed (ByteMap V) (U 8) V
  | btreeMap {K V : Type} [LinearOrder K] : PlainFixed (BTreeMap K V) K V
  | box {T K V : Type} [LinearOrder K] [VebTree T K V] (h : PlainFixed T K V) : PlainFixed (Box T) K V
  | tree {K V S C Hi Lo T : Type} [LinearOrder K] [LinearOrder Hi] [LinearOrder Lo]
      [VebKey K Hi Lo] [VebKeyRef K Hi Lo] [VebTree S Hi Unit] [VebTree T Lo V]
      [TreeCollection C Hi T Lo V] (hk : GoodKey K Hi Lo) (hs : PlainFixed S Hi Unit) (ht : PlainFixed T Lo V)
      (hc : PlainColl C Hi T Lo V) : PlainFixed (FTree K V S C) K V

/-- All histories with the same contents at the end leave the same tree, bit for bit, or no tree. -/
def Canonical (T : Type) {K V : Type} [LinearOrder K] [VebTree T K V] (safe : (K → Prop) → K → Prop) : Prop :=
  ∀ ops ops' : List (Op K V), SL.SafeHist safe [] ops → SL.SafeHist safe [] ops' → entries ops = entries ops' →
    ∃ (t : Option T) (os os' : List (Out K V)), Exec.run none ops = .ok (t, os) ∧ Exec.run none ops' = .ok (t, os')

end Veb
