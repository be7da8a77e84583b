import Verif.Model.ByteList
import Verif.Model.Exec

/-!
What is left of a `ByteMap<L>` when the code of its list type panics and the panic is caught, src/bitset/map/mod.rs.

The list is code of the user here, so a panic can come from any of its methods.  Methods that take `&self` leave the map as it
was, and methods that take `self` leave nothing.  The others are `insert` and those that end in `_mut`.
-/

set_option autoImplicit false

namespace Veb

/-- What is left of a list by a call that panics. -/
class ListLeft (L : Type) (V : outParam Type) where
  /-- by `get_mut` -/
  afterGetMut : L → Nat → L
  /-- by `insert_value` -/
  afterInsert : L → Nat → V → L

namespace ByteMapOf
variable {L V : Type} [ListT L V] [ListLeft L V]

/-- `insert`, src/bitset/map/mod.rs:239-252: what `*self` is after the call, and how the call ended.  `self.set.insert(k, ())`
comes before the call of the list. -/
def insertLeft (m : ByteMapOf L) (k : U 8) (v : V) : ByteMapOf L × R (Option (U 8 × V)) :=
  match m.set.insert k () with
  | .error e => (m, .error e)
  | .ok (set, some (k, ())) =>
    match ListT.getMut m.list (set.countBelow k) with
    | .error e => (⟨set, ListLeft.afterGetMut m.list (set.countBelow k)⟩, .error e)
    | .ok (old, put) => (⟨set, put v⟩, .ok (some (k, old)))
  | .ok (set, none) =>
    match ListT.insertValue m.list (set.countBelow k) v with
    | .error e => (⟨set, ListLeft.afterInsert m.list (set.countBelow k) v⟩, .error e)
    | .ok list => (⟨set, list⟩, .ok none)

/-- Not in the repository: `insert` with the bit set after the call of the list.

```text
let i = self.set.count_below(k);
if self.set.is_present(k) {
    let v = replace(self.list.get_mut(i), v);
    Some((k, v))
} else {
    self.list.insert_value(i, v);
    self.set.insert(k, ());
    None
}
``` -/
def insertLate (m : ByteMapOf L) (k : U 8) (v : V) : ByteMapOf L × R (Option (U 8 × V)) :=
  if m.set.isPresent k then
    match ListT.getMut m.list (m.set.countBelow k) with
    | .error e => (⟨m.set, ListLeft.afterGetMut m.list (m.set.countBelow k)⟩, .error e)
    | .ok (old, put) => (⟨m.set, put v⟩, .ok (some (k, old)))
  else
    match ListT.insertValue m.list (m.set.countBelow k) v with
    | .error e => (⟨m.set, ListLeft.afterInsert m.list (m.set.countBelow k) v⟩, .error e)
    | .ok list =>
      match m.set.insert k () with
      | .error e => (⟨m.set, list⟩, .error e)
      | .ok (set, _) => (⟨set, list⟩, .ok none)

/-- `get_mut` was called for the key that the set answered, and panicked, src/bitset/map/mod.rs:186-237. -/
def afterMut (m : ByteMapOf L) : R (Option (U 8 × Unit)) → ByteMapOf L
  | .ok (some (k, ())) => ⟨m.set, ListLeft.afterGetMut m.list (m.set.countBelow k)⟩
  | _ => m

/-- What is left of the map by a call, other than `insert`, that panics. -/
def left (m : ByteMapOf L) : Op (U 8) V → Option (ByteMapOf L)
  | .remove _ | .removeMin | .removeMax | .intoMonad => none
  | .findSet k _ => some (m.afterMut (m.set.find k))
  | .predecessorSet k _ => some (m.afterMut (m.set.predecessor k))
  | .successorSet k _ => some (m.afterMut (m.set.successor k))
  /- src/bitset/map/mod.rs:164-166 -/
  | .minSet _ =>
    match m.set.minVal with
    | .error _ => some m
    | .ok _ => some ⟨m.set, ListLeft.afterGetMut m.list 0⟩
  /- src/bitset/map/mod.rs:172-174 -/
  | .maxSet _ =>
    match (do let _ ← m.set.maxVal; subUsize (← ListT.len m.list) 1) with
    | .error _ => some m
    | .ok i => some ⟨m.set, ListLeft.afterGetMut m.list i⟩
  | _ => some m

/-- One call on an optional map, whose panic is caught if it panics: the map left, and how the call ended.  `ins` is the
insertion. -/
def stepLeft (ins : ByteMapOf L → U 8 → V → ByteMapOf L × R (Option (U 8 × V))) (m : Option (ByteMapOf L)) (op : Op (U 8) V) :
    Option (ByteMapOf L) × R (Out (U 8) V) :=
  match m, op with
  | some m, .insert k v =>
    match ins m k v with
    | (m, r) => (some m, r.map .kv)
  | some m, op =>
    match Exec.stepTree m op with
    | .ok (m, o) => (m, .ok o)
    | .error e => (m.left op, .error e)
  | none, .insert k v => (some (fromMonad k v), .ok (.kv none))
  | none, .isMonad => (none, .ok (.bool false))
  | none, _ => (none, .ok (.kv none))

/-- A history of such calls. -/
def runLeft (ins : ByteMapOf L → U 8 → V → ByteMapOf L × R (Option (U 8 × V))) (m : Option (ByteMapOf L)) :
    List (Op (U 8) V) → Option (ByteMapOf L) × List (R (Out (U 8) V))
  | [] => (m, [])
  | op :: ops =>
    let (m, o) := stepLeft ins m op
    let (m, os) := runLeft ins m ops
    (m, o :: os)

end ByteMapOf

/-! ## As a collection of trees -/

/-- What is left of a list of trees by a call that panics. -/
class TreeListLeft (L : Type) (T : outParam Type) where
  /-- by `get_mut` -/
  afterGetMut : L → Nat → L
  /-- by `insert_tree` -/
  afterInsert : L → Nat → T → L

namespace ByteMapOf.Coll
variable {L T Lo V : Type} [VebTree T Lo V] [TreeListT L T Lo V] [TreeListLeft L T]

/-- `insert_key`, src/bitset/map/mod.rs:60-69: what `*self` is after the call, and how the call ended.  `after` is what the
insertion into a tree leaves of it when it panics. -/
def insertKeyLeft (after : T → Lo → V → T) (c : ByteMapOf L) (h : U 8) (lv : Lo × V) :
    ByteMapOf L × R (Result (U 8) (U 8 × Option (Lo × V))) :=
  let i := c.set.countBelow h
  match c.set.insert h () with
  | .error e => (c, .error e)
  | .ok (set, some _) =>
    match TreeListT.getMut c.list i with
    | .error e => (⟨set, TreeListLeft.afterGetMut c.list i⟩, .error e)
    | .ok (t, put) =>
      match VebTree.insert t lv.1 lv.2 with
      | .error e => (⟨set, put (after t lv.1 lv.2)⟩, .error e)
      | .ok (t, o) => (⟨set, put t⟩, .ok (.Err (h, o)))
  | .ok (set, none) =>
    match TreeListT.insertTree c.list i (VebTree.fromMonad lv.1 lv.2) with
    | .error e => (⟨set, TreeListLeft.afterInsert c.list i (VebTree.fromMonad lv.1 lv.2)⟩, .error e)
    | .ok list => (⟨set, list⟩, .ok (.Ok h))

end ByteMapOf.Coll
end Veb
