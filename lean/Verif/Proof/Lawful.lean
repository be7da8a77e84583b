import Verif.Model.Trait
import Verif.Spec

/-!
# Laws

What it means for an implementation of the traits to be correct.  Each implementation gets an instance in its
own file; `Tree` gets one from the instances of its summary, its children and its key type.
-/

namespace Veb

/-- The order of a key is the lexicographic order of its halves, and a key is rebuilt from its halves. -/
class LawfulVebKey (K : Type) (Hi Lo : outParam Type) [LinearOrder K] [LinearOrder Hi] [LinearOrder Lo]
    [VebKey K Hi Lo] [VebKeyRef K Hi Lo] : Prop where
  join_split : ∀ k : K, VebKey.join (VebKey.splitVal k).1 (VebKey.splitVal k).2 = k
  ref_eq : ∀ k : K, VebKeyRef.splitRef k = VebKey.splitVal k
  lt_iff : ∀ a b : K, a < b ↔ (VebKey.splitVal a).1 < (VebKey.splitVal b).1 ∨
    (VebKey.splitVal a).1 = (VebKey.splitVal b).1 ∧ (VebKey.splitVal a).2 < (VebKey.splitVal b).2

/-- `index` is injective and below the (addressable) cardinality. -/
class LawfulSizedKey (K : Type) [SizedVebKey K] : Prop where
  index_lt : ∀ k : K, SizedVebKey.index k < SizedVebKey.cardinality K
  index_inj : ∀ a b : K, SizedVebKey.index a = SizedVebKey.index b → a = b
  card_le : SizedVebKey.cardinality K ≤ usizeMax

section
variable {T K V : Type}

/-- Writing through a returned reference at key `k` sets the value at `k` and nothing else. -/
def PutOk [DecidableEq K] (Inv : T → Prop) (abs : T → Map K V) (t : T) (k : K) (put : V → T) : Prop :=
  ∀ w, Inv (put w) ∧ abs (put w) = (abs t).upd k (some w)

/-- A `…_mut` query: the entry it reports satisfies `Q`, and the reference writes to that entry. -/
def MutOk [DecidableEq K] (Inv : T → Prop) (abs : T → Map K V) (t : T) (Q : Option (K × V) → Prop)
    (r : Option (K × V × (V → T))) : Prop :=
  Q (r.map fun p => (p.1, p.2.1)) ∧ ∀ k v put, r = some (k, v, put) → PutOk Inv abs t k put

/-- What is left after a removal: `None` for the empty map, otherwise a good tree with contents `M`. -/
def RemOk (Inv : T → Prop) (abs : T → Map K V) (M : Map K V) : Option T → Prop
  | none => M = Map.empty
  | some t => Inv t ∧ abs t = M

end

/-- A correct ordered map behind the `VebTree` interface: an invariant, the contents `abs`, and one law per
method.  `Safe P k` is the condition on the stored key set `P` under which inserting `k` is claimed to work;
it is `True` for the leaf implementations. -/
class LawfulVebTree (T : Type) (K V : outParam Type) [LinearOrder K] [VebTree T K V] where
  Inv : T → Prop
  abs : T → Map K V
  Safe : (K → Prop) → K → Prop
  nonempty : ∀ t, Inv t → ∃ k, (abs t).Mem k
  finite : ∀ t, Inv t → Set.Finite {k | (abs t).Mem k}
  fromMonad : ∀ k v, Inv (VebTree.fromMonad k v) ∧ abs (VebTree.fromMonad k v) = Map.single k v
  isMonad : ∀ t, Inv t → ∃ b, VebTree.isMonad t = .ok b ∧ (b = true ↔ (abs t).IsSingle)
  lenHint : ∀ t, Inv t → ∃ lo hi, VebTree.lenHint t = .ok (lo, hi) ∧
    lo ≤ (abs t).card ∧ ∀ h, hi = some h → (abs t).card = h
  intoMonad : ∀ t, Inv t →
    (∃ k v, VebTree.intoMonad t = .ok (.Ok (k, v)) ∧ abs t = Map.single k v) ∨
    (VebTree.intoMonad t = .ok (.Err t) ∧ ¬ (abs t).IsSingle)
  minVal : ∀ t, Inv t → ∃ kv, VebTree.minVal t = .ok kv ∧ (abs t).IsMin kv
  minValMut : ∀ t, Inv t → ∃ p, VebTree.minValMut t = .ok p ∧
    (abs t).IsMin (p.1, p.2.1) ∧ PutOk Inv abs t p.1 p.2.2
  maxVal : ∀ t, Inv t → ∃ kv, VebTree.maxVal t = .ok kv ∧ (abs t).IsMax kv
  maxValMut : ∀ t, Inv t → ∃ p, VebTree.maxValMut t = .ok p ∧
    (abs t).IsMax (p.1, p.2.1) ∧ PutOk Inv abs t p.1 p.2.2
  find : ∀ t k, Inv t → VebTree.find t k = .ok ((abs t k).map fun v => (k, v))
  findMut : ∀ t k, Inv t → ∃ r, VebTree.findMut t k = .ok r ∧
    MutOk Inv abs t (fun e => e = (abs t k).map fun v => (k, v)) r
  predecessor : ∀ t k, Inv t → ∃ r, VebTree.predecessor t k = .ok r ∧ (abs t).IsPred k r
  predecessorMut : ∀ t k, Inv t → ∃ r, VebTree.predecessorMut t k = .ok r ∧
    MutOk Inv abs t ((abs t).IsPred k) r
  successor : ∀ t k, Inv t → ∃ r, VebTree.successor t k = .ok r ∧ (abs t).IsSucc k r
  successorMut : ∀ t k, Inv t → ∃ r, VebTree.successorMut t k = .ok r ∧
    MutOk Inv abs t ((abs t).IsSucc k) r
  insert : ∀ t k v, Inv t → Safe (abs t).Mem k →
    ∃ t', VebTree.insert t k v = .ok (t', (abs t k).map fun v => (k, v)) ∧ Inv t' ∧
      abs t' = (abs t).upd k (some v)
  remove_none : ∀ t k, Inv t → abs t k = none → VebTree.remove t k = .ok (.Err t)
  remove_some : ∀ t k v, Inv t → abs t k = some v →
    ∃ o, VebTree.remove t k = .ok (.Ok (o, (k, v))) ∧ RemOk Inv abs ((abs t).upd k none) o
  removeMin : ∀ t, Inv t → ∃ o kv, VebTree.removeMin t = .ok (o, kv) ∧
    (abs t).IsMin kv ∧ RemOk Inv abs ((abs t).upd kv.1 none) o
  removeMax : ∀ t, Inv t → ∃ o kv, VebTree.removeMax t = .ok (o, kv) ∧
    (abs t).IsMax kv ∧ RemOk Inv abs ((abs t).upd kv.1 none) o

/-- `Safe` holds for keys already stored and for keys above all stored ones (unless a counter overflows). -/
class MonoSafe (T : Type) (K V : outParam Type) [LinearOrder K] [VebTree T K V] [LawfulVebTree T K V] :
    Prop where
  present : ∀ (P : K → Prop) (k : K), Set.Finite {j | P j} → P k → LawfulVebTree.Safe T P k
  append : ∀ (P : K → Prop) (k : K), Set.Finite {j | P j} → (∀ j, P j → j < k) →
    Set.ncard {j | P j} < usizeMax → LawfulVebTree.Safe T P k

/-- Result of a removal inside a collection `c` at `h`, where the tree there became `o`. -/
def CollRemOk {C Hi T : Type} [DecidableEq Hi] (Inv : C → Prop) (abs : C → Map Hi T) (c : C) (h : Hi)
    (o : Option T) : Option (C × Bool) → Prop
  | none => o = none ∧ (abs c).upd h none = Map.empty
  | some (c', b) => b = o.isNone ∧ Inv c' ∧ abs c' = (abs c).upd h o

/-- A correct non-empty collection of trees indexed by `Hi`. The contents are a map to trees; the laws do not
look inside the trees. -/
class LawfulColl (C : Type) (Hi T Lo V : outParam Type) [DecidableEq Hi] [VebTree T Lo V]
    [TreeCollection C Hi T Lo V] where
  Inv : C → Prop
  abs : C → Map Hi T
  nonempty : ∀ c, Inv c → ∃ h, (abs c).Mem h
  create : ∀ h t, ∃ c : C, TreeCollection.create h t = .ok c ∧ Inv c ∧ abs c = Map.single h t
  get : ∀ c h, Inv c → TreeCollection.get c h = .ok (abs c h)
  getMut_none : ∀ c h, Inv c → abs c h = none → TreeCollection.getMut c h = .ok none
  getMut_some : ∀ c h t, Inv c → abs c h = some t →
    ∃ put, TreeCollection.getMut c h = .ok (some (t, put)) ∧
      ∀ u, Inv (put u) ∧ abs (put u) = (abs c).upd h (some u)
  insert_none : ∀ c h l v, Inv c → abs c h = none →
    ∃ c', TreeCollection.insertKey c h (l, v) = .ok (c', .Ok h) ∧ Inv c' ∧
      abs c' = (abs c).upd h (some (VebTree.fromMonad l v))
  insert_some : ∀ c h l v t t' o, Inv c → abs c h = some t → VebTree.insert t l v = .ok (t', o) →
    ∃ c', TreeCollection.insertKey c h (l, v) = .ok (c', .Err (h, o)) ∧ Inv c' ∧
      abs c' = (abs c).upd h (some t')
  removeKey : ∀ c h t r o val, Inv c → abs c h = some t → r t = .ok (o, val) →
    ∃ res, TreeCollection.removeKey c h r = .ok (res, val) ∧ CollRemOk Inv abs c h o res
  insert_panic : ∀ c h l v t e, Inv c → abs c h = some t → VebTree.insert t l v = .error e →
    TreeCollection.insertKey c h (l, v) = .error e
  removeKey_panic : ∀ c h t r e, Inv c → abs c h = some t → r t = .error e →
    TreeCollection.removeKey c h r = .error e
  absent : Panic
  removeKey_absent : ∀ c h r, Inv c → abs c h = none → TreeCollection.removeKey c h r = .error absent
  maybe_absent : ∀ c h r, Inv c → abs c h = none → TreeCollection.maybeRemoveKey c h r = .ok (.Err c)
  maybe_err : ∀ c h t r, Inv c → abs c h = some t → r t = .ok (.Err t) →
    TreeCollection.maybeRemoveKey c h r = .ok (.Err c)
  maybe_err' : ∀ c h t r t', Inv c → abs c h = some t → r t = .ok (.Err t') →
    ∃ c', TreeCollection.maybeRemoveKey c h r = .ok (.Err c') ∧ Inv c' ∧ abs c' = (abs c).upd h (some t')
  maybe_panic : ∀ c h t r e, Inv c → abs c h = some t → r t = .error e →
    TreeCollection.maybeRemoveKey c h r = .error e
  maybe_ok : ∀ c h t r o val, Inv c → abs c h = some t → r t = .ok (.Ok (o, val)) →
    ∃ res, TreeCollection.maybeRemoveKey c h r = .ok (.Ok (res, val)) ∧ CollRemOk Inv abs c h o res

end Veb
