import Verif.SpecKeyObj
import Verif.SpecIter

/-!
# Vocabulary for exchanging parts of a tree type

The crate leaves open how the leaves of a tree (`BTreeMap`, `ByteMap`, `ByteSet`) and its collections (array, hash map,
byte map) are represented, and which parts are boxed.
-/

set_option autoImplicit false

namespace Veb

/-- an operation with its key and value arguments renamed -/
def Op.rename {K K' V V' : Type} (π : K → K') (f : V → V') : Op K V → Op K' V'
  | .insert k v => .insert (π k) (f v)
  | .remove k => .remove (π k)
  | .removeMin => .removeMin
  | .removeMax => .removeMax
  | .find k => .find (π k)
  | .predecessor k => .predecessor (π k)
  | .successor k => .successor (π k)
  | .minVal => .minVal
  | .maxVal => .maxVal
  | .isMonad => .isMonad
  | .intoMonad => .intoMonad
  | .findSet k v => .findSet (π k) (f v)
  | .predecessorSet k v => .predecessorSet (π k) (f v)
  | .successorSet k v => .successorSet (π k) (f v)
  | .minSet v => .minSet (f v)
  | .maxSet v => .maxSet (f v)

/-- an output with its key and value renamed -/
def Out.rename {K K' V V' : Type} (π : K → K') (f : V → V') : Out K V → Out K' V'
  | .kv e => .kv (e.map fun p => (π p.1, f p.2))
  | .bool b => .bool b

/-- `CollShape C Hi T Lo V C' Hi' T' Lo' V' πh`: the two collections may stand for each other, index `h` of the first being
index `πh h` of the second.

* `crate`: any two of the crate's collections;
* `array`: two arrays of the same length that store the child of `h` and the child of `πh h` in the same slot.  Here not all
  indices of the second need to be usable. -/
inductive CollShape : (C Hi T Lo V C' Hi' T' Lo' V' : Type) → [VebTree T Lo V] → [VebTree T' Lo' V'] →
    [TreeCollection C Hi T Lo V] → [TreeCollection C' Hi' T' Lo' V'] → (Hi → Hi') → Prop
  | crate {C Hi T Lo V C' Hi' T' Lo' V' : Type} [LinearOrder Hi] [LinearOrder Hi'] [VebTree T Lo V] [VebTree T' Lo' V']
      [TreeCollection C Hi T Lo V] [TreeCollection C' Hi' T' Lo' V'] {πh : Hi → Hi'} (hi : Function.Injective πh)
      (hc : CrateColl C Hi T Lo V) (hc' : CrateColl C' Hi' T' Lo' V') : CollShape C Hi T Lo V C' Hi' T' Lo' V' πh
  | array {Hi T Lo V Hi' T' Lo' V' : Type} [SizedVebKey Hi] [SizedVebKey Hi'] [VebTree T Lo V] [VebTree T' Lo' V']
      {πh : Hi → Hi'} (hx : ∀ h, SizedVebKey.index (πh h) = SizedVebKey.index h)
      (hn : SizedVebKey.cardinality Hi' = SizedVebKey.cardinality Hi) :
      CollShape (ArrayColl Hi T) Hi T Lo V (ArrayColl Hi' T') Hi' T' Lo' V' πh
  | boxL {C Hi T Lo V C' Hi' T' Lo' V' : Type} [VebTree T Lo V] [VebTree T' Lo' V']
      [TreeCollection C Hi T Lo V] [TreeCollection C' Hi' T' Lo' V'] {πh : Hi → Hi'}
      (h : CollShape C Hi T Lo V C' Hi' T' Lo' V' πh) : CollShape (Box C) Hi T Lo V C' Hi' T' Lo' V' πh
  | boxR {C Hi T Lo V C' Hi' T' Lo' V' : Type} [VebTree T Lo V] [VebTree T' Lo' V']
      [TreeCollection C Hi T Lo V] [TreeCollection C' Hi' T' Lo' V'] {πh : Hi → Hi'}
      (h : CollShape C Hi T Lo V C' Hi' T' Lo' V' πh) : CollShape C Hi T Lo V (Box C') Hi' T' Lo' V' πh

/-- `SameShape T K V T' K' V' π f`: the tree types `T` over keys `K` and `T'` over keys `K'` are nested alike, but may
differ in the leaves, in the collections, in what is boxed, in the order-preserving naming `π` of the keys, and in the
naming `f` of the values, which can be anything.

* `mapped`: any two correct map types without `Tree` inside;
* `node`: two `Tree`s whose keys are split alike and whose collections may stand for each other. -/
inductive SameShape : (T K V T' K' V' : Type) → [VebTree T K V] → [VebTree T' K' V'] → (K → K') → (V → V') → Prop
  | mapped {T K V T' K' V' : Type} [LinearOrder K] [LinearOrder K'] [VebTree T K V] [VebTree T' K' V'] {π : K → K'}
      {f : V → V'} (hm : StrictMono π) (h : CrateTree T K V always) (h' : CrateTree T' K' V' always) :
      SameShape T K V T' K' V' π f
  | boxL {T K V T' K' V' : Type} [VebTree T K V] [VebTree T' K' V'] {π : K → K'} {f : V → V'}
      (h : SameShape T K V T' K' V' π f) :
      SameShape (Box T) K V T' K' V' π f
  | boxR {T K V T' K' V' : Type} [VebTree T K V] [VebTree T' K' V'] {π : K → K'} {f : V → V'}
      (h : SameShape T K V T' K' V' π f) :
      SameShape T K V (Box T') K' V' π f
  | sized {T K V T' K' V' : Type} [VebTree T K V] [VebTree T' K' V'] {π : K → K'} {f : V → V'}
      (h : SameShape T K V T' K' V' π f) :
      SameShape (SizedVebTree T) K V (SizedVebTree T') K' V' π f
  | node {K V S C Hi Lo T K' V' S' C' Hi' Lo' T' : Type} [LinearOrder K] [LinearOrder K']
      [VebKey K Hi Lo] [VebKeyRef K Hi Lo] [VebTree S Hi Unit] [VebTree T Lo V]
      [TreeCollection C Hi T Lo V] [VebKey K' Hi' Lo'] [VebKeyRef K' Hi' Lo'] [VebTree S' Hi' Unit] [VebTree T' Lo' V']
      [TreeCollection C' Hi' T' Lo' V'] {π : K → K'} {πh : Hi → Hi'} {πl : Lo → Lo'} {f : V → V'}
      (hm : StrictMono π) (hk : KeyForgets π πh πl)
      (hs : SameShape S Hi Unit S' Hi' Unit πh id) (ht : SameShape T Lo V T' Lo' V' πl f)
      (hc : CollShape C Hi T Lo V C' Hi' T' Lo' V' πh) :
      SameShape (Tree K V S C) K V (Tree K' V' S' C') K' V' π f

/-- any two leaves over the same keys -/
theorem SameShape.leaf {T K V T' V' : Type} [LinearOrder K] [VebTree T K V] [VebTree T' K V'] {f : V → V'}
    (h : CrateTree T K V always) (h' : CrateTree T' K V' always) : SameShape T K V T' K V' id f :=
  .mapped strictMono_id h h'

/-- two `Tree`s, each with any of the crate's collections -/
theorem SameShape.tree {K V S C Hi Lo T K' V' S' C' Hi' Lo' T' : Type} [LinearOrder K] [LinearOrder K'] [LinearOrder Hi]
    [LinearOrder Hi'] [VebKey K Hi Lo] [VebKeyRef K Hi Lo] [VebTree S Hi Unit] [VebTree T Lo V]
    [TreeCollection C Hi T Lo V] [VebKey K' Hi' Lo'] [VebKeyRef K' Hi' Lo'] [VebTree S' Hi' Unit] [VebTree T' Lo' V']
    [TreeCollection C' Hi' T' Lo' V'] {π : K → K'} {πh : Hi → Hi'} {πl : Lo → Lo'} {f : V → V'}
    (hm : StrictMono π) (hi : Function.Injective πh) (hk : KeyForgets π πh πl)
    (hs : SameShape S Hi Unit S' Hi' Unit πh id) (ht : SameShape T Lo V T' Lo' V' πl f)
    (hc : CrateColl C Hi T Lo V) (hc' : CrateColl C' Hi' T' Lo' V') :
    SameShape (Tree K V S C) K V (Tree K' V' S' C') K' V' π f :=
  .node hm hk hs ht (.crate hi hc hc')

/-- Both panic, or both return and the values are related. -/
def Agree {α β : Type} (P : α → β → Prop) (x : R α) (y : R β) : Prop :=
  (∃ a b, x = .ok a ∧ y = .ok b ∧ P a b) ∨ ∃ e e', x = .error e ∧ y = .error e'

section
variable {K V : Type} [LinearOrder K]

/-- The items returned by the calls `ss` on an iterator over the tree left by the history `ops`; no items if no tree is
left. -/
def itemsAfter (T : Type) [VebTree T K V] (ops : List (Op K V)) (ss : List Side) : R (List (Option (K × V))) := do
  match (← Exec.run (none : Option T) ops).1 with
  | none => pure []
  | some t => do pure (← (Iter.new (K := K) t).calls ss).2

/-- `len_hint` of the tree left by the history `ops`. -/
def lenHintAfter (T : Type) [VebTree T K V] (ops : List (Op K V)) : R (Option (Nat × Option Nat)) := do
  match (← Exec.run (none : Option T) ops).1 with
  | none => pure none
  | some t => do pure (some (← VebTree.lenHint t))
end

end Veb
