import Verif.SpecAny
import Verif.Model.ActBTree

/-!
# What to expect of the crate whatever the code of its user does

The code of the user is an arbitrary action on an arbitrary state.  Nothing can be expected of the keys then; but values
are only moved around by the crate, so none should appear twice and none should disappear.
-/

set_option autoImplicit false

namespace Veb

/-- `index` of a key gives the same number whenever it gives one.  Different keys can have the same index, and it can be
out of range. -/
def IndexFixed (σ Hi : Type) [ActIndex σ Hi] : Prop :=
  ∃ f : Hi → Nat, ∀ (h : Hi) (s s' : σ) (i : Nat), ActIndex.index h s = .ok (i, s') → i = f h

/-- What popping the minimum until no tree is left gives. -/
noncomputable def popped {T K V : Type} [VebTree T K V] (t : T) : Multiset V :=
  open Classical in if h : ∃ es, Pops .removeMin (some t) es then (h.choose.map Prod.snd : List V) else 0

/-- The values in the slots of an array, for given values in a tree. -/
def arrayHeld {Hi T V : Type} (held : T → Multiset V) (c : ArrayColl Hi T) : Multiset V :=
  ∑ i ∈ Finset.range c.array.len, ((c.array.slot i).map held).getD 0
/-- The values in a `Tree`, for given values in a collection. -/
def treeHeld {K V S C : Type} (held : C → Multiset V) (t : Tree K V S C) : Multiset V :=
  match t.data with
  | none => {t.min.2}
  | some d => {t.min.2} + {d.max.2} + (d.children.map fun p => held p.2).getD 0

/-- The collections, over code of the user with state `σ`.  `fixed`: what is asked of it.  `held`: the values in a
collection, for given values in a tree. -/
inductive UserColl (σ : Type) : (C Hi T Lo V : Type) → [ActTree σ T Lo V] → [ActColl σ C Hi T Lo V] → (fixed : Prop) →
    (held : (T → Multiset V) → C → Multiset V) → Prop
  | array {Hi T Lo V : Type} [ActIndex σ Hi] [ActTree σ T Lo V] :
      UserColl σ (ArrayColl Hi T) Hi T Lo V (IndexFixed σ Hi) arrayHeld
  | hash {Hi T Lo V : Type} [ActHash σ Hi] [ActTree σ T Lo V] :
      UserColl σ (HashMap Hi T) Hi T Lo V True fun held c => (c.entries.map fun e => held e.2).sum
  | byte {T Lo V : Type} [ActTree σ T Lo V] :
      UserColl σ (ByteMap T) (U 8) T Lo V True fun held c => (c.list.map held).sum
  | box {C Hi T Lo V : Type} [ActTree σ T Lo V] [ActColl σ C Hi T Lo V] {f : Prop}
      {held : (T → Multiset V) → C → Multiset V} (h : UserColl σ C Hi T Lo V f held) :
      UserColl σ (Box C) Hi T Lo V f fun ht c => held ht c.val

/-- When a search in a B-tree has found nothing, the same search, made at once, finds nothing either. -/
def OrdSteady (σ K : Type) [ActOrd σ K] : Prop :=
  ∀ (ks : List K) (k : K) (s s' s'' : σ) (r r' : Search), ActOrd.search ks k s = .ok (r, s') → r.entry ks = none →
    ActOrd.search ks k s' = .ok (r', s'') → r'.entry ks = none

/-- The tree types, over code of the user with state `σ`.  Nothing is asked of the keys of `Tree` and of summaries.  `held`: the values in
a tree. -/
inductive UserTree (σ : Type) : (T K V : Type) → [ActTree σ T K V] → (fixed : Prop) → (held : T → Multiset V) → Prop
  /-- a tree type whose keys do not depend on the state, without a counter (one can be put around it) -/
  | plain {T K V : Type} [VebTree T K V] {a e : Prop} (h : AnyTree T K V False a e) :
      @UserTree σ T K V (ActTree.plain σ) True popped
  | btree {K V : Type} [ActOrd σ K] (h : OrdSteady σ K) :
      UserTree σ (BTreeMap K V) K V True fun t => (t.entries.map Prod.snd : List V)
  | box {T K V : Type} [ActTree σ T K V] {f : Prop} {held : T → Multiset V} (h : UserTree σ T K V f held) :
      UserTree σ (Box T) K V f fun t => held t.val
  | sized {T K V : Type} [ActTree σ T K V] {f : Prop} {held : T → Multiset V} (h : UserTree σ T K V f held) :
      UserTree σ (SizedVebTree T) K V f fun t => held t.tree
  | tree {K V S C Hi Lo T : Type} [ActKey σ K Hi Lo] [ActTree σ S Hi Unit] [ActTree σ T Lo V] [ActColl σ C Hi T Lo V]
      {f g : Prop} {ht : T → Multiset V} {hc : (T → Multiset V) → C → Multiset V} (h : UserTree σ T Lo V f ht)
      (hC : UserColl σ C Hi T Lo V g hc) : UserTree σ (Tree K V S C) K V (f ∧ g) (treeHeld (hc ht))

/-- The values in a tree, if there is one. -/
def heldOpt {T V : Type} (held : T → Multiset V) (t : Option T) : Multiset V := (t.map held).getD 0

/-- Values handed over in a history with the answers `os`. -/
def givenVals {K V : Type} (ops : List (Op K V)) (os : List (Out K V)) : Multiset V := (given ops os).map Prod.snd
/-- Values given back in a history with the answers `os`. -/
def takenVals {K V : Type} (ops : List (Op K V)) (os : List (Out K V)) : Multiset V := (taken ops os).map Prod.snd

end Veb
