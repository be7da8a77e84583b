import Verif.SpecLedger
import Verif.Model.KeyObj

/-!
# Trees over key types that keep no contract

The comparison traits of a key type are code of the user of the crate.  Here nothing at all is assumed of them, nor of
`split_val`, `split_ref` and `join`; only the halves that index summaries and collections must be ordinary.
-/

set_option autoImplicit false

namespace Veb

/-- `a <= b` or `a > b`, for all `a` and `b`: all that `Tree` ever takes for granted. -/
def LeOrGt (K : Type) [AnyOrd K] : Prop := ∀ a b : K, AnyOrd.le a b = false → AnyOrd.gt a b = true

/-- Joining the two parts of a key gives the key back. -/
def Rejoins (K : Type) {Hi Lo : Type} [VebKey K Hi Lo] : Prop :=
  ∀ k : K, VebKey.join (VebKey.splitVal k).1 (VebKey.splitVal k).2 = k

/-- Tree types over such keys.  `counted`: they may contain a `usize` counter; `leGt`: every key type in them satisfies
`LeOrGt`; `rejoins`: every key type in them satisfies `Rejoins`. -/
inductive AnyTree : (T K V : Type) → [VebTree T K V] → (counted leGt rejoins : Prop) → Prop
  /-- a tree type of the crate over proper keys -/
  | counted {T K V : Type} [LinearOrder K] [VebTree T K V] {safe : (K → Prop) → K → Prop} (h : CrateTree T K V safe) :
      AnyTree T K V True True True
  | uncounted {T K V : Type} [LinearOrder K] [VebTree T K V] (h : UncountedTree T K V) : AnyTree T K V False True True
  | box {T K V : Type} [VebTree T K V] {n a e : Prop} (h : AnyTree T K V n a e) : AnyTree (Box T) K V n a e
  | sized {T K V : Type} [VebTree T K V] {n a e : Prop} (h : AnyTree T K V n a e) :
      AnyTree (SizedVebTree T) K V True a e
  /-- a `Tree` over keys without any contract: the summary and the collection are those of the crate, the children can
  again be trees over keys without a contract -/
  | tree {K V S C Hi Lo T : Type} [AnyOrd K] [LinearOrder Hi] [VebKey K Hi Lo] [VebKeyRef K Hi Lo] [VebTree S Hi Unit]
      [VebTree T Lo V] [TreeCollection C Hi T Lo V] {safe : (Hi → Prop) → Hi → Prop} {n a e : Prop}
      (hs : CrateTree S Hi Unit safe) (hn : n ∨ UncountedTree S Hi Unit) (ht : AnyTree T Lo V n a e)
      (hc : CrateColl C Hi T Lo V) : AnyTree (OTree K V S C) K V n (a ∧ LeOrGt K) (e ∧ Rejoins K)

/-- Calling `pop` again and again gives the entries `es`, in that order, and then no tree is left. -/
def Pops {T K V : Type} [VebTree T K V] (pop : Op K V) (t : Option T) (es : List (K × V)) : Prop :=
  Exec.run t (List.replicate es.length pop) = .ok (none, es.map fun e => .kv (some e))

end Veb
