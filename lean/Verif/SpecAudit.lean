import Verif.SpecAct
import Verif.SpecSound
import Verif.SpecPanic

/-!
# Which panics code of the user can provoke

The code of the user is an arbitrary action on an arbitrary state, as in `Verif.SpecAct`.  Its own panics are those in `Us`.
What else can happen is listed here for each type of the crate.
-/

set_option autoImplicit false

namespace Veb

/-- If `x` panics, then with a panic in `Us`. -/
def Only {σ α : Type} (Us : Panic → Prop) (x : Act σ α) : Prop := ∀ s p, x s = .error p → Us p

/-- The panics of the code of a key type. -/
structure KeyPanics (σ K : Type) {Hi Lo : Type} [ActKey σ K Hi Lo] (Us : Panic → Prop) : Prop where
  cmp : ∀ a b : K, Only Us (ActKey.cmp (σ := σ) a b)
  eq : ∀ a b : K, Only Us (ActKey.eq (σ := σ) a b)
  lt : ∀ a b : K, Only Us (ActKey.lt (σ := σ) a b)
  le : ∀ a b : K, Only Us (ActKey.le (σ := σ) a b)
  gt : ∀ a b : K, Only Us (ActKey.gt (σ := σ) a b)
  ge : ∀ a b : K, Only Us (ActKey.ge (σ := σ) a b)
  splitVal : ∀ k : K, Only Us (ActKey.splitVal (σ := σ) k)
  splitRef : ∀ k : K, Only Us (ActKey.splitRef (σ := σ) k)
  splitDone : ∀ k : K, Only Us (ActKey.splitDone (σ := σ) k)
  join : ∀ (h : Hi) (l : Lo), Only Us (ActKey.join (σ := σ) (K := K) h l)
/-- The panics of `index`. -/
def IndexPanics (σ Hi : Type) [ActIndex σ Hi] (Us : Panic → Prop) : Prop :=
  ∀ h : Hi, Only Us (ActIndex.index (σ := σ) h)
/-- The panics of the code that a hash table calls. -/
structure HashPanics (σ Hi : Type) [ActHash σ Hi] (Us : Panic → Prop) : Prop where
  probe : ∀ (l : List Hi) (h : Hi), Only Us (ActHash.probe (σ := σ) l h)
  hashing : ∀ h : Hi, Only Us (ActHash.hashing (σ := σ) h)
  clone : ∀ h : Hi, Only Us (ActHash.clone (σ := σ) h)

/-- The panics of `Ord` of keys in a B-tree, and of `range_mut` when `Ord` puts the ends of `k..=k` in the wrong order. -/
structure OrdPanics (σ K : Type) [ActOrd σ K] (Us : Panic → Prop) : Prop where
  search : ∀ (l : List K) (k : K), Only Us (ActOrd.search (σ := σ) l k)
  below : ∀ (l : List K) (k : K), Only Us (ActOrd.below (σ := σ) l k)
  above : ∀ (l : List K) (k : K), Only Us (ActOrd.above (σ := σ) l k)
  around : ∀ (l : List K) (k : K), Only (fun p => Us p ∨ p = .expect "range start is greater than range end in BTreeMap" ∨
    p = .expect "Ord is ill-defined in BTreeMap range") (ActOrd.around (σ := σ) l k)

/-- `index` answers only numbers below the length of the array. -/
def IndexInRange (σ Hi : Type) [ActIndex σ Hi] : Prop :=
  ∀ (h : Hi) (s s' : σ) (i : Nat), ActIndex.index h s = .ok (i, s') →
    i < OptionArray.typenumUsize (ActIndex.cardinality σ Hi)

/-- What an array of trees itself can do: an index out of range (src/collection/array.rs:55, :58, :80, :83), and no tree where one
was expected (:150). -/
def ArrayPanics (σ Hi : Type) [ActIndex σ Hi] (p : Panic) : Prop :=
  p = .index ∧ ¬ IndexInRange σ Hi ∨ p = .expect "array should contain tree at key index"
/-- … and when it has been told to count to more than a `usize` holds (src/collection/array.rs:124). -/
def ArrayOverflow (σ Hi : Type) [ActIndex σ Hi] (p : Panic) : Prop := p = .arith ∧ ¬ IndexFixed σ Hi
/-- What a hash table of trees itself can do: a key that is not there to be removed (src/collection/hash.rs:76), and a key
that is not there after it was inserted (:45). -/
def HashPanics' (p : Panic) : Prop := p = .unreachable ∨ p = .debugAssert
/-- What a `ByteMap` of trees itself can do: a key that is not there to be removed (src/bitset/map/mod.rs:76). -/
def BytePanics (p : Panic) : Prop := p = .debugAssert
/-- What `Tree` itself can do: a summary that does not fit the children (src/tree.rs:227, :247, :286, :341, :374, :392,
:424, :492; :610, :634, :685, :726; :632), and the assertion in `predecessor_mut` (:280). -/
def TreePanics (p : Panic) : Prop :=
  p = .expect "child should exist for summary key" ∨
  p = .expect "summary should have remaining elements after removal" ∨
  p = .expect "summary should contain key" ∨ p = .debugAssert

/-- What a `BTreeMap` itself can do: find that its user has put the ends of a range in the wrong order (src/lib.rs:495). -/
def RangePanics (p : Panic) : Prop :=
  p = .expect "range start is greater than range end in BTreeMap" ∨ p = .expect "Ord is ill-defined in BTreeMap range"

/-- The collections, over code of the user that panics only in `Us`.  `E`: what else can happen in the collection itself.
`O`: what else can happen if it is given too much to count. -/
inductive AuditedColl (σ : Type) (Us : Panic → Prop) : (C Hi T Lo V : Type) → [ActTree σ T Lo V] →
    [ActColl σ C Hi T Lo V] → (E O : Panic → Prop) → Prop
  | array {Hi T Lo V : Type} [ActIndex σ Hi] [ActTree σ T Lo V] (h : IndexPanics σ Hi Us) :
      AuditedColl σ Us (ArrayColl Hi T) Hi T Lo V (ArrayPanics σ Hi) (ArrayOverflow σ Hi)
  | hash {Hi T Lo V : Type} [ActHash σ Hi] [ActTree σ T Lo V] (h : HashPanics σ Hi Us) :
      AuditedColl σ Us (HashMap Hi T) Hi T Lo V HashPanics' NoPanics
  | byte {T Lo V : Type} [ActTree σ T Lo V] : AuditedColl σ Us (ByteMap T) (U 8) T Lo V BytePanics NoPanics
  | box {C Hi T Lo V : Type} [ActTree σ T Lo V] [ActColl σ C Hi T Lo V] {E O : Panic → Prop}
      (h : AuditedColl σ Us C Hi T Lo V E O) : AuditedColl σ Us (Box C) Hi T Lo V E O

/-! ## When only the keys themselves are treated arbitrarily

The code about the high halves of the keys, if it answers, answers properly; the code about the keys does as it likes. -/

/-- `index`, if it answers, always answers the same for the same half, different numbers for different halves, and numbers
below the length of the array. -/
def IndexProper (σ Hi : Type) [ActIndex σ Hi] : Prop :=
  ∃ f : Hi → Nat, Function.Injective f ∧ (∀ h, f h < OptionArray.typenumUsize (ActIndex.cardinality σ Hi)) ∧
    ∀ (h : Hi) (s s' : σ) (i : Nat), ActIndex.index h s = .ok (i, s') → i = f h
/-- A lookup, if it answers, finds the key, and nothing else; `clone`, if it answers, answers the same key. -/
structure HashProper (σ Hi : Type) [ActHash σ Hi] : Prop where
  probe : ∀ (l : List Hi) (h : Hi) (s s' : σ) (r : Option Nat), l.Nodup → ActHash.probe l h s = .ok (r, s') →
    ∀ i, r = some i ↔ l[i]? = some h
  clone : ∀ (h h' : Hi) (s s' : σ), ActHash.clone h s = .ok (h', s') → h' = h
/-- The collections over such code, which can still panic in `Us`. -/
inductive SyncedColl (σ : Type) (Us : Panic → Prop) : (C Hi T Lo V : Type) → [ActTree σ T Lo V] →
    [ActColl σ C Hi T Lo V] → Prop
  | array {Hi T Lo V : Type} [ActIndex σ Hi] [ActTree σ T Lo V] (h : IndexPanics σ Hi Us) (hi : IndexProper σ Hi) :
      SyncedColl σ Us (ArrayColl Hi T) Hi T Lo V
  | hash {Hi T Lo V : Type} [ActHash σ Hi] [ActTree σ T Lo V] (h : HashPanics σ Hi Us) (hi : HashProper σ Hi) :
      SyncedColl σ Us (HashMap Hi T) Hi T Lo V
  | byte {T Lo V : Type} [ActTree σ T Lo V] : SyncedColl σ Us (ByteMap T) (U 8) T Lo V
  | box {C Hi T Lo V : Type} [ActTree σ T Lo V] [ActColl σ C Hi T Lo V] (h : SyncedColl σ Us C Hi T Lo V) :
      SyncedColl σ Us (Box C) Hi T Lo V
/-- When `a <= b` was once answered with no, `a > b` is answered with yes. -/
def LeGt (σ K : Type) {Hi Lo : Type} [ActKey σ K Hi Lo] : Prop :=
  ∀ (a b : K) (s s' u u' : σ) (x : Bool), ActKey.le a b s = .ok (false, s') → ActKey.gt a b u = .ok (x, u') → x = true

/-- The tree types, over code of the user that panics only in `Us`.  `E`: what else can happen.  `O`: what else can happen
if they are given too much to count. -/
inductive AuditedTree (σ : Type) (Us : Panic → Prop) : (T K V : Type) → [ActTree σ T K V] → (E O : Panic → Prop) → Prop
  /-- a tree type whose keys do not depend on the state, without a counter (one can be put around it) -/
  | plain {T K V : Type} [VebTree T K V] {a e : Prop} (h : AnyTree T K V False a e) :
      @AuditedTree σ Us T K V (ActTree.plain σ) (fun p => p = .debugAssert ∧ ¬ a) NoPanics
  | btree {K V : Type} [ActOrd σ K] (h : OrdPanics σ K Us) (hs : OrdSteady σ K) :
      AuditedTree σ Us (BTreeMap K V) K V RangePanics NoPanics
  | box {T K V : Type} [ActTree σ T K V] {E O : Panic → Prop} (h : AuditedTree σ Us T K V E O) :
      AuditedTree σ Us (Box T) K V E O
  | sized {T K V : Type} [ActTree σ T K V] {E O : Panic → Prop} (h : AuditedTree σ Us T K V E O) :
      AuditedTree σ Us (SizedVebTree T) K V E fun p => O p ∨ p = .expect "size overflowed"
  | tree {K V S C Hi Lo T : Type} [ActKey σ K Hi Lo] [ActTree σ S Hi Unit] [ActTree σ T Lo V] [ActColl σ C Hi T Lo V]
      {E E' E'' O O' O'' : Panic → Prop} (hk : KeyPanics σ K Us) (hs : AuditedTree σ Us S Hi Unit E O)
      (ht : AuditedTree σ Us T Lo V E' O') (hc : AuditedColl σ Us C Hi T Lo V E'' O'') :
      AuditedTree σ Us (Tree K V S C) K V (fun p => E p ∨ E' p ∨ E'' p ∨ TreePanics p) fun p => O p ∨ O' p ∨ O'' p
  /-- the summary is a tree over keys that are treated properly, if at all, and so does the collection treat them -/
  | synced {K V S C Hi Lo T : Type} [ActKey σ K Hi Lo] [LinearOrder Hi] [ActTree σ S Hi Unit] [VebTree S Hi Unit]
      [ActTree σ T Lo V] [ActColl σ C Hi T Lo V] {E O : Panic → Prop} (hk : KeyPanics σ K Us)
      (hs : SoundTree σ Us S Hi Unit) (hu : UncountedTree S Hi Unit) (ht : AuditedTree σ Us T Lo V E O)
      (hc : SyncedColl σ Us C Hi T Lo V) :
      AuditedTree σ Us (Tree K V S C) K V (fun p => E p ∨ p = .debugAssert ∧ ¬ LeGt σ K) O

end Veb
