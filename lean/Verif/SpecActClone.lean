import Verif.SpecClone
import Verif.SpecAct
import Verif.Model.ActClone

/-!
# Vocabulary for clones over code of the user
-/

set_option autoImplicit false

namespace Veb

/-- What is asked of `Clone` of keys: if it answers, it answers the key, and changes the state as `P` allows; its panics are
among `E`. -/
structure ClonesKeys (σ : Type) (P : σ → σ → Prop) (E : Panic → Prop) (K : Type) [ActClone σ K] : Prop where
  ok : ∀ (k : K) (s : σ) (k' : K) (s' : σ), ActClone.clone k s = .ok (k', s') → k' = k ∧ P s s'
  err : ∀ (k : K) (s : σ) (p : Panic), ActClone.clone k s = .error p → E p

/-- The collections that implement `Clone`.  `held`: the values in a collection, for given values in a tree. -/
inductive ActCloneableColl (σ : Type) (P : σ → σ → Prop) (E : Panic → Prop) : (C Hi T Lo V : Type) → [VebTree T Lo V] →
    [TreeCollection C Hi T Lo V] → [ActClone σ T] → [ActClone σ C] → (held : (T → Multiset V) → C → Multiset V) → Prop
  | hash {Hi T Lo V : Type} [DecidableEq Hi] [VebTree T Lo V] [ActClone σ Hi] (hk : ClonesKeys σ P E Hi) [ActClone σ T] :
      ActCloneableColl σ P E (HashMap Hi T) Hi T Lo V fun held c => (c.entries.map fun e => held e.2).sum
  | box {C Hi T Lo V : Type} [VebTree T Lo V] [TreeCollection C Hi T Lo V] [ActClone σ T] [ActClone σ C]
      {held : (T → Multiset V) → C → Multiset V} (h : ActCloneableColl σ P E C Hi T Lo V held) :
      ActCloneableColl σ P E (Box C) Hi T Lo V fun ht c => held ht c.val

/-- The tree types that implement `Clone`.  Nothing is asked of `Clone` of values.  `held`: the values in a tree that are
objects of their own; a `ByteSet` stores none. -/
inductive ActCloneable (σ : Type) (P : σ → σ → Prop) (E : Panic → Prop) : (T K V : Type) → [LinearOrder K] → [VebTree T K V] →
    [ActClone σ T] → [ActClone σ V] → (held : T → Multiset V) → Prop
  | byteSet : ActCloneable σ P E ByteSet (U 8) Unit fun _ => 0
  | btreeMap {K V : Type} [LinearOrder K] [ActClone σ K] (hk : ClonesKeys σ P E K) [ActClone σ V] :
      ActCloneable σ P E (BTreeMap K V) K V fun t => (t.entries.map Prod.snd : List V)
  | box {T K V : Type} [LinearOrder K] [VebTree T K V] [ActClone σ T] [ActClone σ V] {held : T → Multiset V}
      (h : ActCloneable σ P E T K V held) : ActCloneable σ P E (Box T) K V fun t => held t.val
  | tree {K V S C Hi Lo T : Type} [LinearOrder K] [LinearOrder Hi] [LinearOrder Lo] [VebKey K Hi Lo] [VebKeyRef K Hi Lo]
      [VebTree S Hi Unit] [VebTree T Lo V] [TreeCollection C Hi T Lo V] [ActClone σ K] (hk : ClonesKeys σ P E K) [ActClone σ V]
      [ActClone σ S] [ActClone σ T] [ActClone σ C] {hs : S → Multiset Unit} {ht : T → Multiset V}
      {hc : (T → Multiset V) → C → Multiset V} (hS : ActCloneable σ P E S Hi Unit hs)
      (hT : ActCloneable σ P E T Lo V ht) (hC : ActCloneableColl σ P E C Hi T Lo V hc) :
      ActCloneable σ P E (Tree K V S C) K V (treeHeld (hc ht))

end Veb
