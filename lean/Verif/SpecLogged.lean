import Verif.Model.Act
import Verif.SpecCost

/-!
# Keys that write a log

The state is the list of the calls of the keys' code so far.
-/

set_option autoImplicit false

namespace Veb

/-- Is this event a call of code of the keys? -/
def Ev.ofKey : Ev → Bool
  | .cmp => true
  | .split => true
  | .join => true
  | _ => false

/-- Write `e` into the log, and answer `a`. -/
def logs {α : Type} (e : Ev) (a : α) : Act (List Ev) α := fun log => .ok (a, log ++ [e])
/-- Answer `a`. -/
def silently {α : Type} (a : α) : Act (List Ev) α := fun log => .ok (a, log)

/-- Comparisons, splits and joins write a log. -/
instance loggingKey {K Hi Lo : Type} [LinearOrder K] [VebKey K Hi Lo] [VebKeyRef K Hi Lo] : ActKey (List Ev) K Hi Lo where
  cmp a b := logs .cmp (cmp a b)
  eq a b := logs .cmp (decide (a = b))
  lt a b := logs .cmp (decide (a < b))
  le a b := logs .cmp (decide (a ≤ b))
  gt a b := logs .cmp (decide (b < a))
  ge a b := logs .cmp (decide (b ≤ a))
  splitVal k := logs .split (VebKey.splitVal k)
  splitRef k := logs .split (VebKeyRef.splitRef k)
  splitDone _ := silently ()
  join h l := logs .join (VebKey.join h l)
/-- `index`, `Hash`, `Eq` and `Clone` of high halves do not. -/
instance silentIndex {Hi : Type} [SizedVebKey Hi] : ActIndex (List Ev) Hi where
  cardinality := SizedVebKey.cardinality Hi
  index h := silently (SizedVebKey.index h)
instance silentHash {Hi : Type} [DecidableEq Hi] : ActHash (List Ev) Hi where
  probe ks h := silently (ks.findIdx? fun k => decide (k = h))
  hashing _ := silently ()
  clone h := silently h

instance : ActTree (List Ev) ByteSet (U 8) Unit := ActTree.plain _
instance {V : Type} : ActTree (List Ev) (ByteMap V) (U 8) V := ActTree.plain _
instance {K V : Type} [LinearOrder K] : ActTree (List Ev) (BTreeMap K V) K V := ActTree.plain _

/-- The collections of the crate. -/
inductive LoggedColl : (C Hi T Lo V : Type) → [VebTree T Lo V] → [TickTree T Lo V] → [ActTree (List Ev) T Lo V] →
    [TreeCollection C Hi T Lo V] → [TickColl C Hi T Lo V] → [ActColl (List Ev) C Hi T Lo V] → Prop
  | array {Hi T Lo V : Type} [SizedVebKey Hi] [VebTree T Lo V] [TickTree T Lo V] [ActTree (List Ev) T Lo V] :
      LoggedColl (ArrayColl Hi T) Hi T Lo V
  | hash {Hi T Lo V : Type} [DecidableEq Hi] [VebTree T Lo V] [TickTree T Lo V] [ActTree (List Ev) T Lo V] :
      LoggedColl (HashMap Hi T) Hi T Lo V
  | byte {T Lo V : Type} [VebTree T Lo V] [TickTree T Lo V] [ActTree (List Ev) T Lo V] : LoggedColl (ByteMap T) (U 8) T Lo V
  | box {C Hi T Lo V : Type} [VebTree T Lo V] [TickTree T Lo V] [ActTree (List Ev) T Lo V] [TreeCollection C Hi T Lo V]
      [TickColl C Hi T Lo V] [ActColl (List Ev) C Hi T Lo V] (h : LoggedColl C Hi T Lo V) : LoggedColl (Box C) Hi T Lo V

/-- The tree types of the crate.  Keys are any keys. -/
inductive LoggedTree : (T K V : Type) → [VebTree T K V] → [TickTree T K V] → [ActTree (List Ev) T K V] → Prop
  | byteSet : LoggedTree ByteSet (U 8) Unit
  | byteMap {V : Type} : LoggedTree (ByteMap V) (U 8) V
  | btreeMap {K V : Type} [LinearOrder K] : LoggedTree (BTreeMap K V) K V
  | box {T K V : Type} [VebTree T K V] [TickTree T K V] [ActTree (List Ev) T K V] (h : LoggedTree T K V) :
      LoggedTree (Box T) K V
  | sized {T K V : Type} [VebTree T K V] [TickTree T K V] [ActTree (List Ev) T K V] (h : LoggedTree T K V) :
      LoggedTree (SizedVebTree T) K V
  | tree {K V S C Hi Lo T : Type} [LinearOrder K] [VebKey K Hi Lo] [VebKeyRef K Hi Lo] [VebTree S Hi Unit]
      [TickTree S Hi Unit] [ActTree (List Ev) S Hi Unit] [VebTree T Lo V] [TickTree T Lo V] [ActTree (List Ev) T Lo V]
      [TreeCollection C Hi T Lo V] [TickColl C Hi T Lo V] [ActColl (List Ev) C Hi T Lo V] (hs : LoggedTree S Hi Unit)
      (ht : LoggedTree T Lo V) (hc : LoggedColl C Hi T Lo V) : LoggedTree (Tree K V S C) K V

/-- `x` returns what `y` returns, or panics as `y` does; when it returns, it has written the calls of the keys' code that
`y` logs, in this order. -/
def SameLog {α : Type} (x : Act (List Ev) α) (y : Tk α) : Prop :=
  ∀ log, x log = y.run.map fun a => (a, log ++ y.log.filter Ev.ofKey)

section
variable {T K V : Type} [VebTree T K V] [TickTree T K V]

/-- The cost log of one operation. -/
def opLog : Option T → Op K V → List Ev
  | none, .insert k v => (TickTree.fromMonad k v : Tk T).log
  | none, _ => []
  | some t, .insert k v => (TickTree.insert t k v).log
  | some t, .remove k => (TickTree.remove t k).log
  | some t, .removeMin => (TickTree.removeMin t).log
  | some t, .removeMax => (TickTree.removeMax t).log
  | some t, .find k => (TickTree.find t k).log
  | some t, .predecessor k => (TickTree.predecessor t k).log
  | some t, .successor k => (TickTree.successor t k).log
  | some t, .minVal => (TickTree.minVal t).log
  | some t, .maxVal => (TickTree.maxVal t).log
  | some t, .isMonad => (TickTree.isMonad t).log
  | some t, .intoMonad => (TickTree.intoMonad t).log
  | some t, .findSet k _ => (TickTree.findMut t k).log
  | some t, .predecessorSet k _ => (TickTree.predecessorMut t k).log
  | some t, .successorSet k _ => (TickTree.successorMut t k).log
  | some t, .minSet _ => (TickTree.minValMut t).log
  | some t, .maxSet _ => (TickTree.maxValMut t).log

/-- The cost log of a whole history, up to its end or its panic. -/
def historyLog (t : Option T) : List (Op K V) → List Ev
  | [] => []
  | op :: ops => opLog t op ++ match Exec.step t op with
    | .ok (t', _) => historyLog t' ops
    | .error _ => []

/-- The methods on `t` call the keys' code as the cost log says. -/
structure LogsRight [ActTree (List Ev) T K V] (t : T) : Prop where
  isMonad : SameLog (ActTree.isMonad t) (TickTree.isMonad t)
  lenHint : SameLog (ActTree.lenHint t) (TickTree.lenHint t)
  intoMonad : SameLog (ActTree.intoMonad t) (TickTree.intoMonad t)
  minVal : SameLog (ActTree.minVal t) (TickTree.minVal t)
  minValMut : SameLog (ActTree.minValMut t) (TickTree.minValMut t)
  maxVal : SameLog (ActTree.maxVal t) (TickTree.maxVal t)
  maxValMut : SameLog (ActTree.maxValMut t) (TickTree.maxValMut t)
  find (k : K) : SameLog (ActTree.find t k) (TickTree.find t k)
  findMut (k : K) : SameLog (ActTree.findMut t k) (TickTree.findMut t k)
  predecessor (k : K) : SameLog (ActTree.predecessor t k) (TickTree.predecessor t k)
  predecessorMut (k : K) : SameLog (ActTree.predecessorMut t k) (TickTree.predecessorMut t k)
  successor (k : K) : SameLog (ActTree.successor t k) (TickTree.successor t k)
  successorMut (k : K) : SameLog (ActTree.successorMut t k) (TickTree.successorMut t k)
  insert (k : K) (v : V) : SameLog (ActTree.insert t k v) (TickTree.insert t k v)
  remove (k : K) : SameLog (ActTree.remove t k) (TickTree.remove t k)
  removeMin : SameLog (ActTree.removeMin t) (TickTree.removeMin t)
  removeMax : SameLog (ActTree.removeMax t) (TickTree.removeMax t)
end

end Veb
