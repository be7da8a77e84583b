import Verif.SpecHist

/-!
# Vocabulary for the absence of panics
-/

set_option autoImplicit false

namespace Veb

/-- The number of insertions in a history. -/
def insertions {K V : Type} (ops : List (Op K V)) : Nat :=
  ops.countP fun op => match op with | .insert _ _ => true | _ => false

/-- Running `ops` on an initially absent tree of type `T` panics nowhere. -/
def NeverPanics (T : Type) {K V : Type} [VebTree T K V] (ops : List (Op K V)) : Prop :=
  ∃ r, Exec.run (none : Option T) ops = .ok r

/-- The tree types of the crate that do not contain a `SizedVebTree` (which keeps a `usize` counter). -/
inductive UncountedTree : (T K V : Type) → [LinearOrder K] → [VebTree T K V] → Prop
  | byteSet : UncountedTree ByteSet (U 8) Unit
  | byteMap {V : Type} : UncountedTree (ByteMap V) (U 8) V
  | btreeMap {K V : Type} [LinearOrder K] : UncountedTree (BTreeMap K V) K V
  | box {T K V : Type} [LinearOrder K] [VebTree T K V] (h : UncountedTree T K V) : UncountedTree (Box T) K V
  | tree {K V S C Hi Lo T : Type} [LinearOrder K] [LinearOrder Hi] [LinearOrder Lo]
      [VebKey K Hi Lo] [VebKeyRef K Hi Lo] [VebTree S Hi Unit] [VebTree T Lo V]
      [TreeCollection C Hi T Lo V] (hk : GoodKey K Hi Lo) (hs : UncountedTree S Hi Unit)
      (ht : UncountedTree T Lo V) (hc : CrateColl C Hi T Lo V) : UncountedTree (Tree K V S C) K V

/-- Every method of `VebTree`, with every argument, returns on `t`; `small` is required of insertions. -/
structure AllReturn {T K V : Type} [VebTree T K V] (small : Prop) (t : T) : Prop where
  isMonad : ∃ r, VebTree.isMonad t = .ok r
  lenHint : ∃ r, VebTree.lenHint t = .ok r
  intoMonad : ∃ r, VebTree.intoMonad t = .ok r
  minVal : ∃ r, VebTree.minVal t = .ok r
  minValMut : ∃ r, VebTree.minValMut t = .ok r
  maxVal : ∃ r, VebTree.maxVal t = .ok r
  maxValMut : ∃ r, VebTree.maxValMut t = .ok r
  find : ∀ k, ∃ r, VebTree.find t k = .ok r
  findMut : ∀ k, ∃ r, VebTree.findMut t k = .ok r
  predecessor : ∀ k, ∃ r, VebTree.predecessor t k = .ok r
  predecessorMut : ∀ k, ∃ r, VebTree.predecessorMut t k = .ok r
  successor : ∀ k, ∃ r, VebTree.successor t k = .ok r
  successorMut : ∀ k, ∃ r, VebTree.successorMut t k = .ok r
  insert : small → ∀ k v, ∃ r, VebTree.insert t k v = .ok r
  remove : ∀ k, ∃ r, VebTree.remove t k = .ok r
  removeMin : ∃ r, VebTree.removeMin t = .ok r
  removeMax : ∃ r, VebTree.removeMax t = .ok r

end Veb
