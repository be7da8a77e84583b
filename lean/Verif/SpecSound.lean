import Verif.SpecHonest
import Verif.Model.ActList

/-!
# Code of the user that answers properly, or panics

As in `Verif.SpecHonest`, but instead of answering the code may also panic, with a panic in `Us`, whenever it likes.
-/

set_option autoImplicit false

namespace Veb

/-- No panic. -/
def NoPanics : Panic → Prop := fun _ => False

/-- From every state, `x` returns `a` or panics with a panic in `Us`. -/
def AnswersOr {σ α : Type} (Us : Panic → Prop) (x : Act σ α) (a : α) : Prop :=
  ∀ s, (∃ s', x s = .ok (a, s')) ∨ ∃ p, x s = .error p ∧ Us p

/-- From every state, `x` does what `r` does, or panics with a panic in `Us`. -/
def OutcomeOr {σ α : Type} (Us : Panic → Prop) (x : Act σ α) (r : R α) : Prop :=
  ∀ s, (∃ p, x s = .error p ∧ (r = .error p ∨ Us p)) ∨ ∃ a s', x s = .ok (a, s') ∧ r = .ok a

/-- All code of the user about keys answers as their order, `VebKey` and `VebKeyRef` say, if it answers. -/
structure SoundKey (σ : Type) (Us : Panic → Prop) (K Hi Lo : Type) [LinearOrder K] [VebKey K Hi Lo] [VebKeyRef K Hi Lo]
    [ActKey σ K Hi Lo] : Prop where
  cmp : ∀ a b : K, AnswersOr Us (ActKey.cmp (σ := σ) a b) (cmp a b)
  eq : ∀ a b : K, AnswersOr Us (ActKey.eq (σ := σ) a b) (decide (a = b))
  lt : ∀ a b : K, AnswersOr Us (ActKey.lt (σ := σ) a b) (decide (a < b))
  le : ∀ a b : K, AnswersOr Us (ActKey.le (σ := σ) a b) (decide (a ≤ b))
  gt : ∀ a b : K, AnswersOr Us (ActKey.gt (σ := σ) a b) (decide (b < a))
  ge : ∀ a b : K, AnswersOr Us (ActKey.ge (σ := σ) a b) (decide (b ≤ a))
  splitVal : ∀ k : K, AnswersOr Us (ActKey.splitVal (σ := σ) k) (VebKey.splitVal k)
  splitRef : ∀ k : K, AnswersOr Us (ActKey.splitRef (σ := σ) k) (VebKeyRef.splitRef k)
  splitDone : ∀ k : K, AnswersOr Us (ActKey.splitDone (σ := σ) k) ()
  join : ∀ (h : Hi) (l : Lo), AnswersOr Us (ActKey.join (σ := σ) (K := K) h l) (VebKey.join h l)

/-- `index` answers as `SizedVebKey` says, if it answers. -/
structure SoundIndex (σ : Type) (Us : Panic → Prop) (Hi : Type) [SizedVebKey Hi] [ActIndex σ Hi] : Prop where
  cardinality : ActIndex.cardinality σ Hi = SizedVebKey.cardinality Hi
  index : ∀ h : Hi, AnswersOr Us (ActIndex.index (σ := σ) h) (SizedVebKey.index h)

/-- A lookup finds the key if it is there, and cloning gives an equal key, if they answer. -/
structure SoundHash (σ : Type) (Us : Panic → Prop) (Hi : Type) [DecidableEq Hi] [ActHash σ Hi] : Prop where
  probe : ∀ (ks : List Hi) (h : Hi), ks.Nodup → AnswersOr Us (ActHash.probe (σ := σ) ks h) (ks.findIdx? fun k => decide (k = h))
  hashing : ∀ h : Hi, AnswersOr Us (ActHash.hashing (σ := σ) h) ()
  clone : ∀ h : Hi, AnswersOr Us (ActHash.clone (σ := σ) h) h

/-- Searches in a B-tree whose keys ascend end where they should, if they end. -/
structure SoundOrd (σ : Type) (Us : Panic → Prop) (K : Type) [LinearOrder K] [ActOrd σ K] : Prop where
  search : ∀ (ks : List K) (k : K), ks.Pairwise (· < ·) → AnswersOr Us (ActOrd.search (σ := σ) ks k)
    (if k ∈ ks then .found (ks.countP (· < k)) else .gap (ks.countP (· < k)))
  below : ∀ (ks : List K) (k : K), ks.Pairwise (· < ·) → AnswersOr Us (ActOrd.below (σ := σ) ks k) (ks.countP (· < k))
  above : ∀ (ks : List K) (k : K), ks.Pairwise (· < ·) → AnswersOr Us (ActOrd.above (σ := σ) ks k) (ks.countP (· ≤ k))
  around : ∀ (ks : List K) (k : K), ks.Pairwise (· < ·) →
    AnswersOr Us (ActOrd.around (σ := σ) ks k) (ks.countP (· < k), ks.countP (· ≤ k))

/-- A list of the user does what the list without a state does, if it answers. -/
structure SoundList (σ : Type) (Us : Panic → Prop) (L : Type) {V : Type} [ListT L V] [ActList σ L V] : Prop where
  fromMonad : ∀ v : V, ActList.fromMonad (L := L) σ v = ListT.fromMonad v
  len : ∀ l : L, OutcomeOr Us (ActList.len (σ := σ) l) (ListT.len l)
  get : ∀ (l : L) (i : Nat), OutcomeOr Us (ActList.get (σ := σ) l i) (ListT.get l i)
  getMut : ∀ (l : L) (i : Nat), OutcomeOr Us (ActList.getMut (σ := σ) l i) (ListT.getMut l i)
  insertValue : ∀ (l : L) (i : Nat) (v : V), OutcomeOr Us (ActList.insertValue (σ := σ) l i v) (ListT.insertValue l i v)
  removeValue : ∀ (l : L) (i : Nat), OutcomeOr Us (ActList.removeValue (σ := σ) l i) (ListT.removeValue l i)

/-- A list of trees of the user does what the list without a state does, if it answers, for closures that do so too.
`holds l t`: the list `l` holds the tree `t`; a list holds no other trees than were put there. -/
structure SoundTreeList (σ : Type) (Us : Panic → Prop) (L : Type) {T Lo V : Type} [TreeListT L T Lo V] [ActTreeList σ L T Lo V]
    (holds : L → T → Prop) : Prop where
  fromMonad : ∀ t : T, ActTreeList.fromMonad (L := L) σ t = TreeListT.fromMonad t
  fromMonad_holds : ∀ t u : T, holds (TreeListT.fromMonad t) u → u = t
  get : ∀ (l : L) (i : Nat), OutcomeOr Us (ActTreeList.get (σ := σ) l i) (TreeListT.get l i)
  get_holds : ∀ (l : L) (i : Nat) (t : T), TreeListT.get l i = .ok t → holds l t
  getMut : ∀ (l : L) (i : Nat), OutcomeOr Us (ActTreeList.getMut (σ := σ) l i) (TreeListT.getMut l i)
  getMut_holds : ∀ (l : L) (i : Nat) (t : T) (put : T → L), TreeListT.getMut l i = .ok (t, put) →
    holds l t ∧ ∀ u v, holds (put u) v → v = u ∨ holds l v
  insertTree : ∀ (l : L) (i : Nat) (t : T), OutcomeOr Us (ActTreeList.insertTree (σ := σ) l i t) (TreeListT.insertTree l i t)
  insertTree_holds : ∀ (l l' : L) (i : Nat) (t u : T), TreeListT.insertTree l i t = .ok l' → holds l' u → u = t ∨ holds l u
  removeKey : ∀ (l : L) (i : Nat) (f : T → Act σ (Option T × (Lo × V))) (g : T → R (Option T × (Lo × V))),
    (∀ t, holds l t → OutcomeOr Us (f t) (g t)) →
      OutcomeOr Us (ActTreeList.removeKey (σ := σ) l i f) (TreeListT.removeKey l i g)
  removeKey_holds : ∀ (l l' : L) (i : Nat) (f : T → Act σ (Option T × (Lo × V))) (s s' : σ) (b : Bool) (e : Lo × V),
    ActTreeList.removeKey (σ := σ) l i f s = .ok ((some (l', b), e), s') → ∀ u, holds l' u →
      holds l u ∨ ∃ t s s' e, holds l t ∧ f t s = .ok ((some u, e), s')
  maybeRemoveKey : ∀ (l : L) (i : Nat) (f : T → Act σ (Result (Option T × (Lo × V)) T))
    (g : T → R (Result (Option T × (Lo × V)) T)), (∀ t, holds l t → OutcomeOr Us (f t) (g t)) →
      OutcomeOr Us (ActTreeList.maybeRemoveKey (σ := σ) l i f) (TreeListT.maybeRemoveKey l i g)
  maybeRemoveKey_holds : ∀ (l l' : L) (i : Nat) (f : T → Act σ (Result (Option T × (Lo × V)) T)) (s s' : σ),
    (∃ b e, ActTreeList.maybeRemoveKey (σ := σ) l i f s = .ok (.Ok (some (l', b), e), s')) ∨
      ActTreeList.maybeRemoveKey (σ := σ) l i f s = .ok (.Err l', s') → ∀ u, holds l' u →
      holds l u ∨ ∃ t s s', holds l t ∧ ((∃ e, f t s = .ok (.Ok (some u, e), s')) ∨ f t s = .ok (.Err u, s'))

/-- An array of the user does what the array without a state does, if it answers; an array holds no other trees than were
put there. -/
structure SoundArray (σ : Type) (Us : Panic → Prop) (A : Type) (n : Nat) {T : Type} [ArrayT A n T] [ActArray σ A n T]
    (holds : A → T → Prop) : Prop where
  create : OutcomeOr Us (ActArray.create (σ := σ) n : Act σ A) (ArrayT.create n)
  create_holds : ∀ (a : A) (t : T), ArrayT.create n = .ok a → ¬ holds a t
  get : ∀ (a : A) (i : Nat), OutcomeOr Us (ActArray.get (σ := σ) n a i) (ArrayT.get n a i)
  get_holds : ∀ (a : A) (i : Nat) (t : T), ArrayT.get n a i = .ok (some t) → holds a t
  getMut : ∀ (a : A) (i : Nat), OutcomeOr Us (ActArray.getMut (σ := σ) n a i) (ArrayT.getMut n a i)
  getMut_holds : ∀ (a : A) (i : Nat) (o : Option T) (put : Option T → A), ArrayT.getMut n a i = .ok (o, put) →
    (∀ t, o = some t → holds a t) ∧ ∀ o u, holds (put o) u → o = some u ∨ holds a u

/-- The collections over such code, next to the same collections without a state. -/
inductive SoundColl (σ : Type) (Us : Panic → Prop) : (C Hi T Lo V : Type) → [ActTree σ T Lo V] → [VebTree T Lo V] →
    [ActColl σ C Hi T Lo V] → [TreeCollection C Hi T Lo V] → Prop
  | array {Hi T Lo V : Type} [SizedVebKey Hi] [ActIndex σ Hi] [ActTree σ T Lo V] [VebTree T Lo V] (h : SoundIndex σ Us Hi) :
      SoundColl σ Us (ArrayColl Hi T) Hi T Lo V
  | hash {Hi T Lo V : Type} [DecidableEq Hi] [ActHash σ Hi] [ActTree σ T Lo V] [VebTree T Lo V] (h : SoundHash σ Us Hi) :
      SoundColl σ Us (HashMap Hi T) Hi T Lo V
  | byte {T Lo V : Type} [ActTree σ T Lo V] [VebTree T Lo V] : SoundColl σ Us (ByteMap T) (U 8) T Lo V
  | box {C Hi T Lo V : Type} [ActTree σ T Lo V] [VebTree T Lo V] [ActColl σ C Hi T Lo V] [TreeCollection C Hi T Lo V]
      (h : SoundColl σ Us C Hi T Lo V) : SoundColl σ Us (Box C) Hi T Lo V
  /-- `ByteMap<L>` with a list type of the user -/
  | byteList {L T Lo V : Type} [ActTree σ T Lo V] [VebTree T Lo V] [TreeListT L T Lo V] [ActTreeList σ L T Lo V]
      {holds : L → T → Prop} (h : SoundTreeList σ Us L holds) : SoundColl σ Us (ByteMapOf L) (U 8) T Lo V
  /-- `ArrayTreeCollection<H, A>` with an array type of the user -/
  | arrayOf {Hi A T Lo V : Type} [SizedVebKey Hi] [ActIndex σ Hi] [ActTree σ T Lo V] [VebTree T Lo V]
      [ArrayT A (SizedVebKey.cardinality Hi) T] [ActArray σ A (SizedVebKey.cardinality Hi) T] {holds : A → T → Prop}
      (hi : SoundIndex σ Us Hi) (h : SoundArray σ Us A (SizedVebKey.cardinality Hi) holds) :
      SoundColl σ Us (ArrayOf Hi A) Hi T Lo V

/-- The tree types over such code, next to the same types without a state. -/
inductive SoundTree (σ : Type) (Us : Panic → Prop) : (T K V : Type) → [ActTree σ T K V] → [VebTree T K V] → Prop
  /-- a tree type that calls no code with a state -/
  | plain {T K V : Type} [VebTree T K V] : @SoundTree σ Us T K V (ActTree.plain σ) _
  | btree {K V : Type} [LinearOrder K] [ActOrd σ K] (h : SoundOrd σ Us K) : SoundTree σ Us (BTreeMap K V) K V
  | box {T K V : Type} [ActTree σ T K V] [VebTree T K V] (h : SoundTree σ Us T K V) : SoundTree σ Us (Box T) K V
  | sized {T K V : Type} [ActTree σ T K V] [VebTree T K V] (h : SoundTree σ Us T K V) : SoundTree σ Us (SizedVebTree T) K V
  /-- `ByteMap<L>` with a list type of the user -/
  | byteList {L V : Type} [ListT L V] [ActList σ L V] (h : SoundList σ Us L) : SoundTree σ Us (ByteMapOf L) (U 8) V
  | tree {K V S C Hi Lo T : Type} [LinearOrder K] [VebKey K Hi Lo] [VebKeyRef K Hi Lo] [ActKey σ K Hi Lo]
      [ActTree σ S Hi Unit] [VebTree S Hi Unit] [ActTree σ T Lo V] [VebTree T Lo V] [ActColl σ C Hi T Lo V]
      [TreeCollection C Hi T Lo V] (hk : SoundKey σ Us K Hi Lo) (hs : SoundTree σ Us S Hi Unit) (ht : SoundTree σ Us T Lo V)
      (hc : SoundColl σ Us C Hi T Lo V) : SoundTree σ Us (Tree K V S C) K V

end Veb
