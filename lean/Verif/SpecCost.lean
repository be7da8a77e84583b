import Verif.Model.Tick
import Verif.SpecHist
import Verif.Model.Exec

/-!
What "one deep recursion per operation" means: the number of calls of tree methods, nested calls included; and the same
for everything else that is logged, at any prices.
-/

set_option autoImplicit false

namespace Veb

/-- The counting copy of the methods of `T` does what the methods do. -/
structure CountsFaithfully (T : Type) {K V : Type} [VebTree T K V] [TickTree T K V] : Prop where
  fromMonad (k : K) (v : V) : (TickTree.fromMonad k v : Tk T).run = .ok (VebTree.fromMonad k v)
  isMonad (t : T) : (TickTree.isMonad t).run = VebTree.isMonad t
  lenHint (t : T) : (TickTree.lenHint t).run = VebTree.lenHint t
  intoMonad (t : T) : (TickTree.intoMonad t).run = VebTree.intoMonad t
  minVal (t : T) : (TickTree.minVal t).run = VebTree.minVal t
  minValMut (t : T) : (TickTree.minValMut t).run = VebTree.minValMut t
  maxVal (t : T) : (TickTree.maxVal t).run = VebTree.maxVal t
  maxValMut (t : T) : (TickTree.maxValMut t).run = VebTree.maxValMut t
  find (t : T) (k : K) : (TickTree.find t k).run = VebTree.find t k
  findMut (t : T) (k : K) : (TickTree.findMut t k).run = VebTree.findMut t k
  predecessor (t : T) (k : K) : (TickTree.predecessor t k).run = VebTree.predecessor t k
  predecessorMut (t : T) (k : K) : (TickTree.predecessorMut t k).run = VebTree.predecessorMut t k
  successor (t : T) (k : K) : (TickTree.successor t k).run = VebTree.successor t k
  successorMut (t : T) (k : K) : (TickTree.successorMut t k).run = VebTree.successorMut t k
  insert (t : T) (k : K) (v : V) : (TickTree.insert t k v).run = VebTree.insert t k v
  remove (t : T) (k : K) : (TickTree.remove t k).run = VebTree.remove t k
  removeMin (t : T) : (TickTree.removeMin t).run = VebTree.removeMin t
  removeMax (t : T) : (TickTree.removeMax t).run = VebTree.removeMax t

/-- On every tree of type `T` whatsoever and for every argument, a method makes at most `deep` calls of tree methods,
itself included, also when it panics.  `remove` may take one more; the methods that create a tree or look only at its
extremes make at most `shallow`, and `len_hint` and `into_monad`, which ask `is_monad`, one more. -/
structure VisitsAtMost (T : Type) {K V : Type} [TickTree T K V] (shallow deep : Nat) : Prop where
  fromMonad (k : K) (v : V) : (TickTree.fromMonad k v : Tk T).cost ≤ shallow
  isMonad (t : T) : (TickTree.isMonad t).cost ≤ shallow
  lenHint (t : T) : (TickTree.lenHint t).cost ≤ shallow + 1
  intoMonad (t : T) : (TickTree.intoMonad t).cost ≤ shallow + 1
  minVal (t : T) : (TickTree.minVal t).cost ≤ shallow
  minValMut (t : T) : (TickTree.minValMut t).cost ≤ shallow
  maxVal (t : T) : (TickTree.maxVal t).cost ≤ shallow
  maxValMut (t : T) : (TickTree.maxValMut t).cost ≤ shallow
  find (t : T) (k : K) : (TickTree.find t k).cost ≤ deep
  findMut (t : T) (k : K) : (TickTree.findMut t k).cost ≤ deep
  predecessor (t : T) (k : K) : (TickTree.predecessor t k).cost ≤ deep
  predecessorMut (t : T) (k : K) : (TickTree.predecessorMut t k).cost ≤ deep
  successor (t : T) (k : K) : (TickTree.successor t k).cost ≤ deep
  successorMut (t : T) (k : K) : (TickTree.successorMut t k).cost ≤ deep
  insert (t : T) (k : K) (v : V) : (TickTree.insert t k v).cost ≤ deep
  remove (t : T) (k : K) : (TickTree.remove t k).cost ≤ deep + 1
  removeMin (t : T) : (TickTree.removeMin t).cost ≤ deep
  removeMax (t : T) : (TickTree.removeMax t).cost ≤ deep

/-- What the logged events of `x` cost at the prices `w`. -/
def Tk.bill {α : Type} (w : Ev → Nat) (x : Tk α) : Nat := (x.log.map w).sum

/-- The prices at which only the event `e` costs, 1. -/
def priceOf (e e' : Ev) : Nat := if e' = e then 1 else 0
/-- The prices at which every new collection costs 1. -/
def pricePerMake : Ev → Nat
  | .make _ => 1
  | _ => 0
/-- The prices at which every event and every new array slot costs 1. -/
def priceAll : Ev → Nat
  | .make n => n + 1
  | _ => 1
/-- The prices at which every new array slot costs 1. -/
def pricePerSlot : Ev → Nat
  | .make n => n
  | _ => 0

/-- On every tree of type `T` whatsoever and for every argument, what a method does costs at most `deep`, at the prices
`w`, also when it panics.  `insert` may cost `make` more and `remove` one call more; the methods that create a tree or look
only at its extremes cost at most `shallow`, `len_hint` and `into_monad`, which ask `is_monad`, one call more. -/
structure CostsAtMost (w : Ev → Nat) (T : Type) {K V : Type} [TickTree T K V] (shallow deep make : Nat) : Prop where
  fromMonad (k : K) (v : V) : (TickTree.fromMonad k v : Tk T).bill w ≤ shallow
  isMonad (t : T) : (TickTree.isMonad t).bill w ≤ shallow
  lenHint (t : T) : (TickTree.lenHint t).bill w ≤ shallow + w .visit
  intoMonad (t : T) : (TickTree.intoMonad t).bill w ≤ shallow + w .visit
  minVal (t : T) : (TickTree.minVal t).bill w ≤ shallow
  minValMut (t : T) : (TickTree.minValMut t).bill w ≤ shallow
  maxVal (t : T) : (TickTree.maxVal t).bill w ≤ shallow
  maxValMut (t : T) : (TickTree.maxValMut t).bill w ≤ shallow
  find (t : T) (k : K) : (TickTree.find t k).bill w ≤ deep
  findMut (t : T) (k : K) : (TickTree.findMut t k).bill w ≤ deep
  predecessor (t : T) (k : K) : (TickTree.predecessor t k).bill w ≤ deep
  predecessorMut (t : T) (k : K) : (TickTree.predecessorMut t k).bill w ≤ deep
  successor (t : T) (k : K) : (TickTree.successor t k).bill w ≤ deep
  successorMut (t : T) (k : K) : (TickTree.successorMut t k).bill w ≤ deep
  insert (t : T) (k : K) (v : V) : (TickTree.insert t k v).bill w ≤ deep + make
  remove (t : T) (k : K) : (TickTree.remove t k).bill w ≤ deep + w .visit
  removeMin (t : T) : (TickTree.removeMin t).bill w ≤ deep
  removeMax (t : T) : (TickTree.removeMax t).bill w ≤ deep

/-- A collection of the crate, with its logging copy.  Arrays have at most `N` slots. -/
inductive NestedColl (N : Nat) : (C Hi T Lo V : Type) → [VebTree T Lo V] → [TickTree T Lo V] →
    [TreeCollection C Hi T Lo V] → [TickColl C Hi T Lo V] → Prop
  | array {Hi T Lo V : Type} [SizedVebKey Hi] [VebTree T Lo V] [TickTree T Lo V]
      (h : OptionArray.typenumUsize (SizedVebKey.cardinality Hi) ≤ N) : NestedColl N (ArrayColl Hi T) Hi T Lo V
  | hash {Hi T Lo V : Type} [DecidableEq Hi] [VebTree T Lo V] [TickTree T Lo V] :
      NestedColl N (HashMap Hi T) Hi T Lo V
  | byte {T Lo V : Type} [VebTree T Lo V] [TickTree T Lo V] : NestedColl N (ByteMap T) (U 8) T Lo V
  | box {C Hi T Lo V : Type} [VebTree T Lo V] [TickTree T Lo V] [TreeCollection C Hi T Lo V] [TickColl C Hi T Lo V]
      (h : NestedColl N C Hi T Lo V) : NestedColl N (Box C) Hi T Lo V

/-- `Nested b N T K V n w`: `T` is put together from the crate with `n` levels of `Tree`, `w` wrappers (`Box`,
`SizedVebTree`) on top, at most `b` wrappers in a row inside and arrays of at most `N` slots.  No other condition on keys
or indexes. -/
inductive Nested (b N : Nat) : (T K V : Type) → [VebTree T K V] → [TickTree T K V] → Nat → Nat → Prop
  | byteSet : Nested b N ByteSet (U 8) Unit 0 0
  | byteMap {V : Type} : Nested b N (ByteMap V) (U 8) V 0 0
  | btreeMap {K V : Type} [LinearOrder K] : Nested b N (BTreeMap K V) K V 0 0
  | box {T K V : Type} [VebTree T K V] [TickTree T K V] {n w : Nat} (h : Nested b N T K V n w) :
      Nested b N (Box T) K V n (w + 1)
  | sized {T K V : Type} [VebTree T K V] [TickTree T K V] {n w : Nat} (h : Nested b N T K V n w) :
      Nested b N (SizedVebTree T) K V n (w + 1)
  | tree {K V S C Hi Lo T : Type} [LinearOrder K] [VebKey K Hi Lo] [VebKeyRef K Hi Lo] [VebTree S Hi Unit]
      [TickTree S Hi Unit] [VebTree T Lo V] [TickTree T Lo V] [TreeCollection C Hi T Lo V] [TickColl C Hi T Lo V]
      {n nS nT wS wT : Nat} (hs : Nested b N S Hi Unit nS wS) (ht : Nested b N T Lo V nT wT)
      (hc : NestedColl N C Hi T Lo V) (hnS : nS ≤ n) (hnT : nT ≤ n) (hwS : wS ≤ b) (hwT : wT ≤ b) :
      Nested b N (Tree K V S C) K V (n + 1) 0

section
variable {T K V : Type} [VebTree T K V] [TickTree T K V]

/-- What one operation costs at the prices `w`. -/
def opCost (w : Ev → Nat) : Option T → Op K V → Nat
  | none, .insert k v => (TickTree.fromMonad k v : Tk T).bill w
  | none, _ => 0
  | some t, .insert k v => (TickTree.insert t k v).bill w
  | some t, .remove k => (TickTree.remove t k).bill w
  | some t, .removeMin => (TickTree.removeMin t).bill w
  | some t, .removeMax => (TickTree.removeMax t).bill w
  | some t, .find k => (TickTree.find t k).bill w
  | some t, .predecessor k => (TickTree.predecessor t k).bill w
  | some t, .successor k => (TickTree.successor t k).bill w
  | some t, .minVal => (TickTree.minVal t).bill w
  | some t, .maxVal => (TickTree.maxVal t).bill w
  | some t, .isMonad => (TickTree.isMonad t).bill w
  | some t, .intoMonad => (TickTree.intoMonad t).bill w
  | some t, .findSet k _ => (TickTree.findMut t k).bill w
  | some t, .predecessorSet k _ => (TickTree.predecessorMut t k).bill w
  | some t, .successorSet k _ => (TickTree.successorMut t k).bill w
  | some t, .minSet _ => (TickTree.minValMut t).bill w
  | some t, .maxSet _ => (TickTree.maxValMut t).bill w

/-- What a whole history costs at the prices `w`, up to its end or its panic. -/
def totalCost (w : Ev → Nat) (t : Option T) : List (Op K V) → Nat
  | [] => 0
  | op :: ops => opCost w t op + match Exec.step t op with
    | .ok (t', _) => totalCost w t' ops
    | .error _ => 0

/-- Adding a new greatest key and taking it out again, `n` times. -/
def refills {K V : Type} (z : K) (v : V) : Nat → List (Op K V)
  | 0 => []
  | n + 1 => .insert z v :: .removeMax :: refills z v n

/-- The calls of tree methods made by one operation. -/
def opVisits : Option T → Op K V → Nat
  | none, .insert k v => (TickTree.fromMonad k v : Tk T).cost
  | none, _ => 0
  | some t, .insert k v => (TickTree.insert t k v).cost
  | some t, .remove k => (TickTree.remove t k).cost
  | some t, .removeMin => (TickTree.removeMin t).cost
  | some t, .removeMax => (TickTree.removeMax t).cost
  | some t, .find k => (TickTree.find t k).cost
  | some t, .predecessor k => (TickTree.predecessor t k).cost
  | some t, .successor k => (TickTree.successor t k).cost
  | some t, .minVal => (TickTree.minVal t).cost
  | some t, .maxVal => (TickTree.maxVal t).cost
  | some t, .isMonad => (TickTree.isMonad t).cost
  | some t, .intoMonad => (TickTree.intoMonad t).cost
  | some t, .findSet k _ => (TickTree.findMut t k).cost
  | some t, .predecessorSet k _ => (TickTree.predecessorMut t k).cost
  | some t, .successorSet k _ => (TickTree.successorMut t k).cost
  | some t, .minSet _ => (TickTree.minValMut t).cost
  | some t, .maxSet _ => (TickTree.maxValMut t).cost

/-- The calls of tree methods made by a whole history, up to its end or its panic. -/
def visits (t : Option T) : List (Op K V) → Nat
  | [] => 0
  | op :: ops => opVisits t op + match Exec.step t op with
    | .ok (t', _) => visits t' ops
    | .error _ => 0

end

end Veb
