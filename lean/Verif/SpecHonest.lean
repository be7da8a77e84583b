import Verif.Model.ActBTree

/-!
# Code of the user with side effects but proper answers

It may read and change the state of the user's program as it likes, count its calls for instance, but it answers as the
traits ask, and does not panic.
-/

set_option autoImplicit false

namespace Veb

/-- From every state, `x` returns `a`; the state can change. -/
def AlwaysAnswers {σ α : Type} (x : Act σ α) (a : α) : Prop := ∀ s, ∃ s', x s = .ok (a, s')

/-- From every state, `x` returns what `r` returns, and panics as `r` does. -/
def SameOutcome {σ α : Type} (x : Act σ α) (r : R α) : Prop :=
  (∀ a, r = .ok a → AlwaysAnswers x a) ∧ ∀ p, r = .error p → ∀ s, x s = .error p

/-- All code of the user about keys answers as their order, `VebKey` and `VebKeyRef` say. -/
structure HonestKey (σ K Hi Lo : Type) [LinearOrder K] [VebKey K Hi Lo] [VebKeyRef K Hi Lo] [ActKey σ K Hi Lo] : Prop where
  cmp : ∀ a b : K, AlwaysAnswers (ActKey.cmp (σ := σ) a b) (cmp a b)
  eq : ∀ a b : K, AlwaysAnswers (ActKey.eq (σ := σ) a b) (decide (a = b))
  lt : ∀ a b : K, AlwaysAnswers (ActKey.lt (σ := σ) a b) (decide (a < b))
  le : ∀ a b : K, AlwaysAnswers (ActKey.le (σ := σ) a b) (decide (a ≤ b))
  gt : ∀ a b : K, AlwaysAnswers (ActKey.gt (σ := σ) a b) (decide (b < a))
  ge : ∀ a b : K, AlwaysAnswers (ActKey.ge (σ := σ) a b) (decide (b ≤ a))
  splitVal : ∀ k : K, AlwaysAnswers (ActKey.splitVal (σ := σ) k) (VebKey.splitVal k)
  splitRef : ∀ k : K, AlwaysAnswers (ActKey.splitRef (σ := σ) k) (VebKeyRef.splitRef k)
  splitDone : ∀ k : K, AlwaysAnswers (ActKey.splitDone (σ := σ) k) ()
  join : ∀ (h : Hi) (l : Lo), AlwaysAnswers (ActKey.join (σ := σ) (K := K) h l) (VebKey.join h l)

/-- `index` answers as `SizedVebKey` says. -/
structure HonestIndex (σ Hi : Type) [SizedVebKey Hi] [ActIndex σ Hi] : Prop where
  cardinality : ActIndex.cardinality σ Hi = SizedVebKey.cardinality Hi
  index : ∀ h : Hi, AlwaysAnswers (ActIndex.index (σ := σ) h) (SizedVebKey.index h)

/-- Equal keys have equal hashes, so a lookup finds the key if it is there; cloning gives an equal key. -/
structure HonestHash (σ Hi : Type) [DecidableEq Hi] [ActHash σ Hi] : Prop where
  probe : ∀ (ks : List Hi) (h : Hi), ks.Nodup → AlwaysAnswers (ActHash.probe (σ := σ) ks h) (ks.findIdx? fun k => decide (k = h))
  hashing : ∀ h : Hi, AlwaysAnswers (ActHash.hashing (σ := σ) h) ()
  clone : ∀ h : Hi, AlwaysAnswers (ActHash.clone (σ := σ) h) h

/-- Searches in a B-tree whose keys ascend end where they should. -/
structure HonestOrd (σ K : Type) [LinearOrder K] [ActOrd σ K] : Prop where
  search : ∀ (ks : List K) (k : K), ks.Pairwise (· < ·) → AlwaysAnswers (ActOrd.search (σ := σ) ks k)
    (if k ∈ ks then .found (ks.countP (· < k)) else .gap (ks.countP (· < k)))
  below : ∀ (ks : List K) (k : K), ks.Pairwise (· < ·) → AlwaysAnswers (ActOrd.below (σ := σ) ks k) (ks.countP (· < k))
  above : ∀ (ks : List K) (k : K), ks.Pairwise (· < ·) → AlwaysAnswers (ActOrd.above (σ := σ) ks k) (ks.countP (· ≤ k))
  around : ∀ (ks : List K) (k : K), ks.Pairwise (· < ·) →
    AlwaysAnswers (ActOrd.around (σ := σ) ks k) (ks.countP (· < k), ks.countP (· ≤ k))

/-- The collections over such code, next to the same collections without a state. -/
inductive HonestColl (σ : Type) : (C Hi T Lo V : Type) → [ActTree σ T Lo V] → [VebTree T Lo V] → [ActColl σ C Hi T Lo V] →
    [TreeCollection C Hi T Lo V] → Prop
  | array {Hi T Lo V : Type} [SizedVebKey Hi] [ActIndex σ Hi] [ActTree σ T Lo V] [VebTree T Lo V] (h : HonestIndex σ Hi) :
      HonestColl σ (ArrayColl Hi T) Hi T Lo V
  | hash {Hi T Lo V : Type} [DecidableEq Hi] [ActHash σ Hi] [ActTree σ T Lo V] [VebTree T Lo V] (h : HonestHash σ Hi) :
      HonestColl σ (HashMap Hi T) Hi T Lo V
  | byte {T Lo V : Type} [ActTree σ T Lo V] [VebTree T Lo V] : HonestColl σ (ByteMap T) (U 8) T Lo V
  | box {C Hi T Lo V : Type} [ActTree σ T Lo V] [VebTree T Lo V] [ActColl σ C Hi T Lo V] [TreeCollection C Hi T Lo V]
      (h : HonestColl σ C Hi T Lo V) : HonestColl σ (Box C) Hi T Lo V

/-- The tree types over such code, next to the same types without a state. -/
inductive HonestTree (σ : Type) : (T K V : Type) → [ActTree σ T K V] → [VebTree T K V] → Prop
  /-- a tree type that calls no code with a state -/
  | plain {T K V : Type} [VebTree T K V] : @HonestTree σ T K V (ActTree.plain σ) _
  | btree {K V : Type} [LinearOrder K] [ActOrd σ K] (h : HonestOrd σ K) : HonestTree σ (BTreeMap K V) K V
  | box {T K V : Type} [ActTree σ T K V] [VebTree T K V] (h : HonestTree σ T K V) : HonestTree σ (Box T) K V
  | sized {T K V : Type} [ActTree σ T K V] [VebTree T K V] (h : HonestTree σ T K V) : HonestTree σ (SizedVebTree T) K V
  | tree {K V S C Hi Lo T : Type} [LinearOrder K] [VebKey K Hi Lo] [VebKeyRef K Hi Lo] [ActKey σ K Hi Lo]
      [ActTree σ S Hi Unit] [VebTree S Hi Unit] [ActTree σ T Lo V] [VebTree T Lo V] [ActColl σ C Hi T Lo V]
      [TreeCollection C Hi T Lo V] (hk : HonestKey σ K Hi Lo) (hs : HonestTree σ S Hi Unit) (ht : HonestTree σ T Lo V)
      (hc : HonestColl σ C Hi T Lo V) : HonestTree σ (Tree K V S C) K V

end Veb
