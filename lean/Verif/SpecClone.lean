import Verif.SpecSame
import Verif.Model.Clone

/-!
# Vocabulary for clones
-/

set_option autoImplicit false

namespace Veb

/-- The contract of `Clone` for keys: a clone is equal to the original. -/
class LawfulClone (α : Type) [Clone α] : Prop where
  clone_eq : ∀ a : α, clone a = a

/-- The collections that implement `Clone`: hash maps, boxed or not. -/
inductive CloneableColl : (C Hi T Lo V : Type) → [VebTree T Lo V] → [TreeCollection C Hi T Lo V] → [Clone T] → [Clone C] → Prop
  | hash {Hi T Lo V : Type} [DecidableEq Hi] [VebTree T Lo V] [Clone Hi] [LawfulClone Hi] [Clone T] :
      CloneableColl (HashMap Hi T) Hi T Lo V
  | box {C Hi T Lo V : Type} [VebTree T Lo V] [TreeCollection C Hi T Lo V] [Clone T] [Clone C]
      (h : CloneableColl C Hi T Lo V) : CloneableColl (Box C) Hi T Lo V

/-- The tree types that implement `Clone`.  Keys obey the contract of `Clone`, values need not. -/
inductive Cloneable : (T K V : Type) → [LinearOrder K] → [VebTree T K V] → [Clone T] → [Clone V] → Prop
  | byteSet : Cloneable ByteSet (U 8) Unit
  | btreeMap {K V : Type} [LinearOrder K] [Clone K] [LawfulClone K] [Clone V] : Cloneable (BTreeMap K V) K V
  | box {T K V : Type} [LinearOrder K] [VebTree T K V] [Clone T] [Clone V] (h : Cloneable T K V) : Cloneable (Box T) K V
  | tree {K V S C Hi Lo T : Type} [LinearOrder K] [LinearOrder Hi] [LinearOrder Lo] [VebKey K Hi Lo] [VebKeyRef K Hi Lo]
      [VebTree S Hi Unit] [VebTree T Lo V] [TreeCollection C Hi T Lo V] [Clone K] [LawfulClone K] [Clone V] [Clone S]
      [Clone T] [Clone C] (hs : Cloneable S Hi Unit) (ht : Cloneable T Lo V) (hc : CloneableColl C Hi T Lo V) :
      Cloneable (Tree K V S C) K V

section
variable {K V : Type}

/-- The answers to the calls `more` on the tree left by the history `ops`. -/
def answersAfter (T : Type) [VebTree T K V] (ops more : List (Op K V)) : R (List (Out K V)) := do
  let t ← Exec.run (none : Option T) ops
  pure (← Exec.run t.1 more).2

/-- The answers to the calls `more` on a clone of the tree left by the history `ops`. -/
def cloneAnswersAfter (T : Type) [VebTree T K V] [Clone T] (ops more : List (Op K V)) : R (List (Out K V)) := do
  let t ← Exec.run (none : Option T) ops
  pure (← Exec.run (clone t.1) more).2

/-- The items returned by the calls `ss` on an iterator over a clone of the tree left by the history `ops`. -/
def cloneItemsAfter (T : Type) [LinearOrder K] [VebTree T K V] [Clone T] (ops : List (Op K V)) (ss : List Side) :
    R (List (Option (K × V))) := do
  match clone (← Exec.run (none : Option T) ops).1 with
  | none => pure []
  | some t => do pure (← (Iter.new (K := K) t).calls ss).2

end

end Veb
