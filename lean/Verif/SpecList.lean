import Verif.Model.ByteList

/-!
# List types that are sequences

What is asked of a list type that a user gives to `ByteMap` or to its collections of trees: there is a sequence that the list stands for (`r a l`: the
list `a` stands for `l`), and every call does with it what its name says.  Nothing is said about calls with an index out
of range, and nothing about empty lists, since a list is given up when its last element is taken out.
-/

set_option autoImplicit false

namespace Veb

/-- The list type `L` behaves as a sequence, of which a list stands for the ones given by `r`. -/
structure SeqBy {L V : Type} [ListT L V] (r : L → List V → Prop) : Prop where
  fromMonad : ∀ v, r (ListT.fromMonad v) [v]
  len : ∀ a l, r a l → ListT.len a = .ok l.length
  get : ∀ a l i v, r a l → l[i]? = some v → ListT.get a i = .ok v
  getMut : ∀ a l i v, r a l → l[i]? = some v → ∃ put, ListT.getMut a i = .ok (v, put) ∧ ∀ w, r (put w) (l.set i w)
  insertValue : ∀ a l i v, r a l → i ≤ l.length → ∃ a', ListT.insertValue a i v = .ok a' ∧ r a' (l.insertIdx i v)
  /-- the last value: no list is left -/
  removeLast : ∀ a v, r a [v] → ListT.removeValue a 0 = .ok (none, v)
  removeValue : ∀ a l i v, r a l → 1 < l.length → l[i]? = some v →
    ∃ a', ListT.removeValue a i = .ok (some a', v) ∧ r a' (l.eraseIdx i)

/-- The list type `L` behaves as a sequence of values. -/
def IsSeq (L : Type) {V : Type} [ListT L V] : Prop := ∃ r : L → List V → Prop, SeqBy r

/-- The same for lists of trees.  A closure that is given to a list is called once, with the tree at the index. -/
structure TreeSeqBy {L T Lo V : Type} [TreeListT L T Lo V] (r : L → List T → Prop) : Prop where
  fromMonad : ∀ t, r (TreeListT.fromMonad t) [t]
  get : ∀ a l i t, r a l → l[i]? = some t → TreeListT.get a i = .ok t
  getMut : ∀ a l i t, r a l → l[i]? = some t → ∃ put, TreeListT.getMut a i = .ok (t, put) ∧ ∀ u, r (put u) (l.set i u)
  insertTree : ∀ a l i t, r a l → i ≤ l.length → ∃ a', TreeListT.insertTree a i t = .ok a' ∧ r a' (l.insertIdx i t)
  /-- the closure panics -/
  removePanic : ∀ a l i t f e, r a l → l[i]? = some t → f t = .error e → ∃ e', TreeListT.removeKey a i f = .error e'
  /-- the closure leaves a tree -/
  removeLeft : ∀ a l i t f t' val, r a l → l[i]? = some t → f t = .ok (some t', val) →
    ∃ a', TreeListT.removeKey a i f = .ok (some (a', false), val) ∧ r a' (l.set i t')
  /-- the closure leaves none, and this was the last one -/
  removeLast : ∀ a t f val, r a [t] → f t = .ok (none, val) → TreeListT.removeKey a 0 f = .ok (none, val)
  /-- the closure leaves none, and there are others -/
  removeGone : ∀ a l i t f val, r a l → 1 < l.length → l[i]? = some t → f t = .ok (none, val) →
    ∃ a', TreeListT.removeKey a i f = .ok (some (a', true), val) ∧ r a' (l.eraseIdx i)
  maybePanic : ∀ a l i t f e, r a l → l[i]? = some t → f t = .error e → ∃ e', TreeListT.maybeRemoveKey a i f = .error e'
  maybeKept : ∀ a l i t f t', r a l → l[i]? = some t → f t = .ok (.Err t') →
    ∃ a', TreeListT.maybeRemoveKey a i f = .ok (.Err a') ∧ r a' (l.set i t')
  maybeLeft : ∀ a l i t f t' val, r a l → l[i]? = some t → f t = .ok (.Ok (some t', val)) →
    ∃ a', TreeListT.maybeRemoveKey a i f = .ok (.Ok (some (a', false), val)) ∧ r a' (l.set i t')
  maybeLast : ∀ a t f val, r a [t] → f t = .ok (.Ok (none, val)) → TreeListT.maybeRemoveKey a 0 f = .ok (.Ok (none, val))
  maybeGone : ∀ a l i t f val, r a l → 1 < l.length → l[i]? = some t → f t = .ok (.Ok (none, val)) →
    ∃ a', TreeListT.maybeRemoveKey a i f = .ok (.Ok (some (a', true), val)) ∧ r a' (l.eraseIdx i)

/-- The list type `L` behaves as a sequence of trees. -/
def IsTreeSeq (L : Type) {T Lo V : Type} [TreeListT L T Lo V] : Prop := ∃ r : L → List T → Prop, TreeSeqBy r

/-- The model of `ByteMap` over a `VecDeque`, seen as `ByteMap<L>` with `L` the list type `VecDeque`. -/
abbrev asDeque {A : Type} (m : ByteMap A) : ByteMapOf (Deque A) := ⟨m.set, ⟨m.list⟩⟩

end Veb
