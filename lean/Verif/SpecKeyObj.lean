import Verif.Model.KeyObj
import Verif.SpecHist

/-!
# Vocabulary for keys that are equal but distinguishable

`π : K → K'` forgets what the order of `K` does not see; `K'` is linearly ordered.
-/

set_option autoImplicit false

namespace Veb

/-- The order of `K` is the order of `K'` seen through `π`. -/
def Forgets {K K' : Type} [OrdKey K] [LinearOrder K'] (π : K → K') : Prop :=
  ∀ a b : K, OrdKey.cmp a b = cmp (π a) (π b)

/-- `Ord::cmp` is a total preorder, as the documentation of `Ord` demands. -/
structure TotalPreorder (K : Type) [OrdKey K] : Prop where
  refl : ∀ a : K, OrdKey.cmp a a = .eq
  swap : ∀ a b : K, OrdKey.cmp b a = (OrdKey.cmp a b).swap
  trans : ∀ a b c : K, OrdKey.cmp a b ≠ .gt → OrdKey.cmp b c ≠ .gt → OrdKey.cmp a c ≠ .gt

/-- Splitting and joining do not depend on what is forgotten. -/
structure KeyForgets {K Hi Lo K' Hi' Lo' : Type} [VebKey K Hi Lo] [VebKeyRef K Hi Lo] [VebKey K' Hi' Lo']
    [VebKeyRef K' Hi' Lo'] (π : K → K') (πh : Hi → Hi') (πl : Lo → Lo') : Prop where
  split : ∀ k : K, VebKey.splitVal (π k) = (πh (VebKey.splitVal k).1, πl (VebKey.splitVal k).2)
  ref : ∀ k : K, VebKeyRef.splitRef (π k) = (πh (VebKeyRef.splitRef k).1, πl (VebKeyRef.splitRef k).2)
  join : ∀ (h : Hi) (l : Lo), VebKey.join (πh h) (πl l) = π (VebKey.join h l)

/-! ## What `insert` should return -/

/-- The pairs stored after inserting `(k, v)` into `l`, and the pair it replaces: the documentation of `insert`. -/
def objInsert {K V : Type} [OrdKey K] (l : List (K × V)) (k : K) (v : V) : List (K × V) × Option (K × V) :=
  ((k, v) :: l.filter (fun p => OrdKey.cmp p.1 k != .eq), l.find? (fun p => OrdKey.cmp p.1 k == .eq))

/-- the pairs replaced by a list of insertions -/
def objRun {K V : Type} [OrdKey K] : List (K × V) → List (K × V) → List (Option (K × V))
  | _, [] => []
  | l, (k, v) :: ins => (objInsert l k v).2 :: objRun (objInsert l k v).1 ins

/-- the pairs stored after a list of insertions -/
def objAfter {K V : Type} [OrdKey K] : List (K × V) → List (K × V) → List (K × V)
  | l, [] => l
  | l, (k, v) :: ins => objAfter (objInsert l k v).1 ins

/-- Inserting into an initially absent tree returns, each time, the pair that was stored. -/
def ReturnsStored (T : Type) {K V : Type} [OrdKey K] [VebTree T K V] (ins : List (K × V)) : Prop :=
  ∃ t : Option T, Exec.run none (ins.map fun p => Op.insert p.1 p.2) = .ok (t, (objRun [] ins).map Out.kv)

/-! ## Forgetting -/

/-- an operation with its key argument forgotten -/
def Op.forget {K K' V : Type} (π : K → K') : Op K V → Op K' V
  | .insert k v => .insert (π k) v
  | .remove k => .remove (π k)
  | .removeMin => .removeMin
  | .removeMax => .removeMax
  | .find k => .find (π k)
  | .predecessor k => .predecessor (π k)
  | .successor k => .successor (π k)
  | .minVal => .minVal
  | .maxVal => .maxVal
  | .isMonad => .isMonad
  | .intoMonad => .intoMonad
  | .findSet k v => .findSet (π k) v
  | .predecessorSet k v => .predecessorSet (π k) v
  | .successorSet k v => .successorSet (π k) v
  | .minSet v => .minSet v
  | .maxSet v => .maxSet v

/-- an output with its key forgotten -/
def Out.forget {K K' V : Type} (π : K → K') : Out K V → Out K' V
  | .kv e => .kv (e.map fun p => (π p.1, p.2))
  | .bool b => .bool b

/-- `ForgetsColl C Hi T Lo V C' Hi' T' Lo' πh πl`: the collection type `C` over keys `Hi` is put together like `C'`
over keys `Hi'`. -/
inductive ForgetsColl : (C Hi T Lo V C' Hi' T' Lo' : Type) → [VebTree T Lo V] → [VebTree T' Lo' V] →
    [TreeCollection C Hi T Lo V] → [TreeCollection C' Hi' T' Lo' V] → (Hi → Hi') → (Lo → Lo') → Prop
  | array {Hi T Lo V Hi' T' Lo' : Type} [SizedVebKey Hi] [SizedVebKey Hi'] [VebTree T Lo V] [VebTree T' Lo' V]
      {πh : Hi → Hi'} {πl : Lo → Lo'} (hi : ∀ h : Hi, SizedVebKey.index (πh h) = SizedVebKey.index h)
      (hn : SizedVebKey.cardinality Hi' = SizedVebKey.cardinality Hi) :
      ForgetsColl (ArrayColl Hi T) Hi T Lo V (ArrayColl Hi' T') Hi' T' Lo' πh πl
  | hash {Hi T Lo V Hi' T' Lo' : Type} [OrdKey Hi] [LinearOrder Hi'] [VebTree T Lo V] [VebTree T' Lo' V]
      {πh : Hi → Hi'} {πl : Lo → Lo'} (hc : Forgets πh) :
      ForgetsColl (OHashMap Hi T) Hi T Lo V (HashMap Hi' T') Hi' T' Lo' πh πl
  | byte {T Lo V T' Lo' : Type} [VebTree T Lo V] [VebTree T' Lo' V] {πl : Lo → Lo'} :
      ForgetsColl (ByteMap T) (U 8) T Lo V (ByteMap T') (U 8) T' Lo' id πl
  | box {C Hi T Lo V C' Hi' T' Lo' : Type} [VebTree T Lo V] [VebTree T' Lo' V] [TreeCollection C Hi T Lo V]
      [TreeCollection C' Hi' T' Lo' V] {πh : Hi → Hi'} {πl : Lo → Lo'}
      (h : ForgetsColl C Hi T Lo V C' Hi' T' Lo' πh πl) :
      ForgetsColl (Box C) Hi T Lo V (Box C') Hi' T' Lo' πh πl

/-- `ForgetsTree T K V T' K' π`: the tree type `T` over keys `K` is put together like `T'` over keys `K'`. -/
inductive ForgetsTree : (T K V T' K' : Type) → [VebTree T K V] → [VebTree T' K' V] → (K → K') → Prop
  | same {T K V : Type} [VebTree T K V] : ForgetsTree T K V T K id
  | btreeMap {K V K' : Type} [OrdKey K] [LinearOrder K'] {π : K → K'} (hc : Forgets π) :
      ForgetsTree (OBTreeMap K V) K V (BTreeMap K' V) K' π
  | box {T K V T' K' : Type} [VebTree T K V] [VebTree T' K' V] {π : K → K'} (h : ForgetsTree T K V T' K' π) :
      ForgetsTree (Box T) K V (Box T') K' π
  | sized {T K V T' K' : Type} [VebTree T K V] [VebTree T' K' V] {π : K → K'} (h : ForgetsTree T K V T' K' π) :
      ForgetsTree (SizedVebTree T) K V (SizedVebTree T') K' π
  | tree {K V S C Hi Lo T K' S' C' Hi' Lo' T' : Type} [OrdKey K] [LinearOrder K']
      [VebKey K Hi Lo] [VebKeyRef K Hi Lo] [VebTree S Hi Unit] [VebTree T Lo V] [TreeCollection C Hi T Lo V]
      [VebKey K' Hi' Lo'] [VebKeyRef K' Hi' Lo'] [VebTree S' Hi' Unit] [VebTree T' Lo' V]
      [TreeCollection C' Hi' T' Lo' V] {π : K → K'} {πh : Hi → Hi'} {πl : Lo → Lo'}
      (hc : Forgets π) (hk : KeyForgets π πh πl) (hs : ForgetsTree S Hi Unit S' Hi' πh)
      (ht : ForgetsTree T Lo V T' Lo' πl) (hC : ForgetsColl C Hi T Lo V C' Hi' T' Lo' πh πl) :
      ForgetsTree (OTree K V S C) K V (Tree K' V S' C') K' π

end Veb
