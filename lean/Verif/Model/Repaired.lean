import Verif.Model.KeyPtr
import Verif.Model.KeyObj

/-!
Corrections of the defects of src/key.rs and src/lib.rs.  This is *not* the code; `Verif.Model.TreeFixed` corrects the
defect of src/tree.rs.  Each correction changes one expression:

* `SizedVebKey::index` of a signed integer: `self.abs_diff(Self::MIN) as usize` instead of
  `self.wrapping_sub(Self::MIN) as usize` (src/key.rs:189, 236, 291, 348, 393); `abs_diff` is what `split_val` uses.
* `SizedVebKey::CARDINALITY`: `<Self::Cardinality as Unsigned>::USIZE` instead of `u8::MAX as usize`,
  `Self::MAX as usize`, `usize::MAX` and the like (src/key.rs:162, 185, 209, 232, 260, 287, 316, 344, 367, 389, 458, 533).
* The `cfg` conditions: an integer is `SizedVebKey` only if `usize` is wider (src/key.rs:160, 183, 207, 230, 254-258,
  281-285, 309-314, 337-342).
* `BTreeMap::insert`: take the old entry out, then insert the new one (src/lib.rs:541-550).
-/

set_option autoImplicit false

namespace Veb

namespace Ptr

/-- the corrected `cfg` condition -/
def hasFixed (P : Ptr) (w : Nat) : Prop := P.has w ∧ w < P.bits

/-- `impl SizedVebKey for u8`, … with the corrected constant -/
def fixedU (P : Ptr) (w : Nat) : SizedVebKey (U w) where
  cardinalityConst := P.typenumUsize (2 ^ w)
  cardinality := 2 ^ w
  index x := P.asUsize x

/-- `impl SizedVebKey for i8`, … with the corrected constant and index -/
def fixedS (P : Ptr) (w : Nat) : SizedVebKey (S w) where
  cardinalityConst := P.typenumUsize (2 ^ w)
  cardinality := 2 ^ w
  index x := P.asUsize (x.absDiff S.MIN)

/-- `impl SizedVebKey for U4` with the corrected constant -/
def fixedU4 (P : Ptr) : SizedVebKey U4 where
  cardinalityConst := P.typenumUsize (2 ^ 4)
  cardinality := 2 ^ 4
  index x := P.asUsize x.val

/-- `impl SizedVebKey for U2` with the corrected constant -/
def fixedU2 (P : Ptr) : SizedVebKey U2 where
  cardinalityConst := P.typenumUsize (2 ^ 2)
  cardinality := 2 ^ 2
  index x := P.asUsize x.val

end Ptr

/-- A `BTreeMap` with the corrected `insert`. -/
structure RBTreeMap (K V : Type) where
  val : OBTreeMap K V

namespace RBTreeMap
variable {K V : Type} [OrdKey K]

/-- `let old = self.remove_entry(&k); self.insert(k, v); old` -/
def insert (t : RBTreeMap K V) (k : K) (v : V) : R (RBTreeMap K V × Option (K × V)) :=
  pure (⟨⟨OBTreeMap.stdInsert k v (OBTreeMap.stdErase t.val.entries k)⟩⟩, OBTreeMap.stdGet t.val.entries k)

/-- All methods but `insert` are those of `BTreeMap`. -/
instance : VebTree (RBTreeMap K V) K V where
  fromMonad k v := ⟨.fromMonad k v⟩
  isMonad t := t.val.isMonad
  lenHint t := t.val.lenHint
  intoMonad t := do
    match (← t.val.intoMonad) with
    | .Ok kv => pure (.Ok kv)
    | .Err t => pure (.Err ⟨t⟩)
  minVal t := t.val.minVal
  minValMut t := do pure (mapPut mk (← t.val.minValMut))
  maxVal t := t.val.maxVal
  maxValMut t := do pure (mapPut mk (← t.val.maxValMut))
  find t := t.val.find
  findMut t k := do pure ((← t.val.findMut k).map (mapPut mk))
  predecessor t := t.val.predecessor
  predecessorMut t k := do pure ((← t.val.predecessorMut k).map (mapPut mk))
  successor t := t.val.successor
  successorMut t k := do pure ((← t.val.successorMut k).map (mapPut mk))
  insert := insert
  remove t k := do
    match (← t.val.remove k) with
    | .Ok (t, kv) => pure (.Ok (t.map mk, kv))
    | .Err t => pure (.Err ⟨t⟩)
  removeMin t := do
    let (t, kv) ← t.val.removeMin
    pure (t.map mk, kv)
  removeMax t := do
    let (t, kv) ← t.val.removeMax
    pure (t.map mk, kv)

end RBTreeMap
end Veb
