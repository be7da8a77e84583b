import Verif.Model.Markers
import Verif.Model.Collection
import Verif.Model.Wrappers
import Verif.Model.Key

/-!
The marker types of the crate as a language: which tree type `<M as VebTreeMarker<K, V>>::Tree` is, if the trait is
implemented at all.  A marker is a type without values; here it is a term, and trait selection is a function that finds
the implementation and checks its bounds.

Simplifications: keys are the key types of src/key.rs on a 64-bit target (`usize` has no implementation).  Values are `()` or one arbitrary type.
Markers, keys and lists written by users are left out.  The bounds `Clone`, `Hash` and `Ord` of keys hold for all of
these key types; `ArrayLength` of a cardinality is taken to hold for every cardinality.
-/

set_option autoImplicit false

namespace Veb

/-! ## Key types -/

/-- The key types of src/key.rs, and `bool`, which is half of a `U2` but no key itself. -/
inductive KeyTy
  | unit
  | bool
  | uint (w : Nat)
  | sint (w : Nat)
  | u4
  | u2
  | arr (t : KeyTy) (n : Nat)
  deriving DecidableEq

namespace KeyTy

/-- The values. -/
@[reducible] def den : KeyTy → Type
  | .unit => Unit
  | .bool => Bool
  | .uint w => U w
  | .sint w => S w
  | .u4 => U4
  | .u2 => U2
  | .arr t n => Arr t.den n

/-- `Ord`. -/
@[instance, reducible] def order : (k : KeyTy) → LinearOrder k.den
  | .unit => inferInstanceAs (LinearOrder Unit)
  | .bool => inferInstanceAs (LinearOrder Bool)
  | .uint w => inferInstanceAs (LinearOrder (U w))
  | .sint w => inferInstanceAs (LinearOrder (S w))
  | .u4 => inferInstanceAs (LinearOrder U4)
  | .u2 => inferInstanceAs (LinearOrder U2)
  | .arr t n => letI := t.order; inferInstanceAs (LinearOrder (Arr t.den n))

end KeyTy

/-- An implementation of `VebKey` (with `VebKeyRef`). -/
structure KeyImpl (K Hi Lo : Type) where
  key : VebKey K Hi Lo
  ref : VebKeyRef K Hi Lo

/-- `<K as VebKey>::Hi`, `<K as VebKey>::Lo` and the implementation, for the key types that have one. -/
structure Halves (k : KeyTy) where
  hi : KeyTy
  lo : KeyTy
  impl : KeyImpl k.den hi.den lo.den

/-- The implementations of `VebKey`, src/key.rs:127-740. -/
def KeyTy.halves : (k : KeyTy) → Option (Halves k)
  | .unit => some ⟨.unit, .unit, ⟨inferInstanceAs (VebKey Unit Unit Unit), inferInstanceAs (VebKeyRef Unit Unit Unit)⟩⟩
  | .uint 128 => some ⟨.uint 64, .uint 64, ⟨inferInstanceAs (VebKey (U 128) (U 64) (U 64)),
      inferInstanceAs (VebKeyRef (U 128) (U 64) (U 64))⟩⟩
  | .sint 128 => some ⟨.uint 64, .uint 64, ⟨inferInstanceAs (VebKey (S 128) (U 64) (U 64)),
      inferInstanceAs (VebKeyRef (S 128) (U 64) (U 64))⟩⟩
  | .uint 64 => some ⟨.uint 32, .uint 32, ⟨inferInstanceAs (VebKey (U 64) (U 32) (U 32)),
      inferInstanceAs (VebKeyRef (U 64) (U 32) (U 32))⟩⟩
  | .sint 64 => some ⟨.uint 32, .uint 32, ⟨inferInstanceAs (VebKey (S 64) (U 32) (U 32)),
      inferInstanceAs (VebKeyRef (S 64) (U 32) (U 32))⟩⟩
  | .uint 32 => some ⟨.uint 16, .uint 16, ⟨inferInstanceAs (VebKey (U 32) (U 16) (U 16)),
      inferInstanceAs (VebKeyRef (U 32) (U 16) (U 16))⟩⟩
  | .sint 32 => some ⟨.uint 16, .uint 16, ⟨inferInstanceAs (VebKey (S 32) (U 16) (U 16)),
      inferInstanceAs (VebKeyRef (S 32) (U 16) (U 16))⟩⟩
  | .uint 16 => some ⟨.uint 8, .uint 8, ⟨inferInstanceAs (VebKey (U 16) (U 8) (U 8)),
      inferInstanceAs (VebKeyRef (U 16) (U 8) (U 8))⟩⟩
  | .sint 16 => some ⟨.uint 8, .uint 8, ⟨inferInstanceAs (VebKey (S 16) (U 8) (U 8)),
      inferInstanceAs (VebKeyRef (S 16) (U 8) (U 8))⟩⟩
  | .uint 8 => some ⟨.u4, .u4, ⟨inferInstanceAs (VebKey (U 8) U4 U4), inferInstanceAs (VebKeyRef (U 8) U4 U4)⟩⟩
  | .sint 8 => some ⟨.u4, .u4, ⟨inferInstanceAs (VebKey (S 8) U4 U4), inferInstanceAs (VebKeyRef (S 8) U4 U4)⟩⟩
  | .u4 => some ⟨.u2, .u2, ⟨inferInstanceAs (VebKey U4 U2 U2), inferInstanceAs (VebKeyRef U4 U2 U2)⟩⟩
  | .u2 => some ⟨.bool, .bool, ⟨inferInstanceAs (VebKey U2 Bool Bool), inferInstanceAs (VebKeyRef U2 Bool Bool)⟩⟩
  | .arr t 2 => some ⟨t, t, ⟨inferInstanceAs (VebKey (Arr t.den 2) t.den t.den),
      inferInstanceAs (VebKeyRef (Arr t.den 2) t.den t.den)⟩⟩
  | .arr t 3 => some ⟨t, .arr t 2, ⟨inferInstanceAs (VebKey (Arr t.den 3) t.den (Arr t.den 2)),
      inferInstanceAs (VebKeyRef (Arr t.den 3) t.den (Arr t.den 2))⟩⟩
  | .arr t 4 => some ⟨.arr t 2, .arr t 2, ⟨inferInstanceAs (VebKey (Arr t.den 4) (Arr t.den 2) (Arr t.den 2)),
      inferInstanceAs (VebKeyRef (Arr t.den 4) (Arr t.den 2) (Arr t.den 2))⟩⟩
  | .arr t 5 => some ⟨.arr t 2, .arr t 3, ⟨inferInstanceAs (VebKey (Arr t.den 5) (Arr t.den 2) (Arr t.den 3)),
      inferInstanceAs (VebKeyRef (Arr t.den 5) (Arr t.den 2) (Arr t.den 3))⟩⟩
  | .arr t 6 => some ⟨.arr t 3, .arr t 3, ⟨inferInstanceAs (VebKey (Arr t.den 6) (Arr t.den 3) (Arr t.den 3)),
      inferInstanceAs (VebKeyRef (Arr t.den 6) (Arr t.den 3) (Arr t.den 3))⟩⟩
  | .arr t 7 => some ⟨.arr t 3, .arr t 4, ⟨inferInstanceAs (VebKey (Arr t.den 7) (Arr t.den 3) (Arr t.den 4)),
      inferInstanceAs (VebKeyRef (Arr t.den 7) (Arr t.den 3) (Arr t.den 4))⟩⟩
  | .arr t 8 => some ⟨.arr t 4, .arr t 4, ⟨inferInstanceAs (VebKey (Arr t.den 8) (Arr t.den 4) (Arr t.den 4)),
      inferInstanceAs (VebKeyRef (Arr t.den 8) (Arr t.den 4) (Arr t.den 4))⟩⟩
  | .arr t 16 => some ⟨.arr t 8, .arr t 8, ⟨inferInstanceAs (VebKey (Arr t.den 16) (Arr t.den 8) (Arr t.den 8)),
      inferInstanceAs (VebKeyRef (Arr t.den 16) (Arr t.den 8) (Arr t.den 8))⟩⟩
  | _ => none

/-- The implementations of `SizedVebKey`, src/key.rs:138-539, on a 64-bit target. -/
def KeyTy.sized : (k : KeyTy) → Option (SizedVebKey k.den)
  | .unit => some (inferInstanceAs (SizedVebKey Unit))
  | .uint 64 => some (inferInstanceAs (SizedVebKey (U 64)))
  | .sint 64 => some (inferInstanceAs (SizedVebKey (S 64)))
  | .uint 32 => some (inferInstanceAs (SizedVebKey (U 32)))
  | .sint 32 => some (inferInstanceAs (SizedVebKey (S 32)))
  | .uint 16 => some (inferInstanceAs (SizedVebKey (U 16)))
  | .sint 16 => some (inferInstanceAs (SizedVebKey (S 16)))
  | .uint 8 => some (inferInstanceAs (SizedVebKey (U 8)))
  | .sint 8 => some (inferInstanceAs (SizedVebKey (S 8)))
  | .u4 => some (inferInstanceAs (SizedVebKey U4))
  | .u2 => some (inferInstanceAs (SizedVebKey U2))
  | _ => none

/-! ## Values -/

/-- The value type of a tree: `()` or the type `V` of the user. -/
inductive ValTy
  | unit
  | val
  deriving DecidableEq

/-- The values. -/
@[reducible] def ValTy.den (V : Type) : ValTy → Type
  | .unit => Unit
  | .val => V

/-! ## Markers -/

/-- The marker types of the crate.  `VecDequeMarker` is the only list marker, and left out as an argument. -/
inductive Marker
  /-- `ByteSetMarker`, src/bitset/set.rs:9 -/
  | byteSet
  /-- `ByteTreeMarker<VecDequeMarker>`, src/bitset/map/mod.rs:122 -/
  | byteTree
  /-- `BoxMarker<T>`, src/markers.rs:11 -/
  | box (t : Marker)
  /-- `GenericArrayMarker<T>`, src/collection/array.rs:63 -/
  | generic (t : Marker)
  /-- `TreeMarker<Summary, Children>`, src/tree.rs:15 -/
  | tree (summary children : Marker)
  /-- `ArrayTreeCollectionMarker<Array>`, src/collection/array.rs:19 -/
  | array (a : Marker)
  /-- `HashMapMarker<Tree>`, src/collection/hash.rs:21 -/
  | hash (t : Marker)
  /-- `ByteCollectionMarker<VecDequeMarker, Val>`, src/bitset/map/mod.rs:19 -/
  | bytes (t : Marker)
  deriving DecidableEq

/-- A tree type with `VebTree<Key = K, Value = V>`. -/
structure TreeImpl (K V : Type) : Type 1 where
  Ty : Type
  inst : VebTree Ty K V

/-- A collection type with `SuperTreeCollection<K, V>`, src/collection/mod.rs:9-24, for a key with halves `Hi`, `Lo`. -/
structure CollImpl (Hi Lo V : Type) : Type 1 where
  tree : TreeImpl Lo V
  Ty : Type
  inst : TreeCollection Ty Hi tree.Ty Lo V

/-- `impl VebTreeMarker<u8, ()> for ByteSetMarker`, src/bitset/set.rs:11-13 -/
def byteSetOf (W : Type) : (k : KeyTy) → (v : ValTy) → Option (TreeImpl k.den (v.den W))
  | .uint 8, .unit => some ⟨ByteSet, inferInstanceAs (VebTree ByteSet (U 8) Unit)⟩
  | _, _ => none
/-- `impl VebTreeMarker<u8, V> for ByteTreeMarker`, src/bitset/map/mod.rs:124-129 -/
def byteTreeOf (W : Type) : (k : KeyTy) → (v : ValTy) → Option (TreeImpl k.den (v.den W))
  | .uint 8, v => some ⟨ByteMap (v.den W), inferInstanceAs (VebTree (ByteMap (v.den W)) (U 8) (v.den W))⟩
  | _, _ => none
/-- `impl VebTreeCollectionMarker<K, V> for ByteCollectionMarker` for `K: VebKey<Hi = u8>`,
src/bitset/map/mod.rs:21-28 -/
def bytesOf {Lo V : Type} (T : TreeImpl Lo V) : (hi : KeyTy) → Option (CollImpl hi.den Lo V)
  | .uint 8 =>
    letI := T.inst
    some ⟨T, ByteMap T.Ty, inferInstanceAs (TreeCollection (ByteMap T.Ty) (U 8) T.Ty Lo V)⟩
  | _ => none

mutual
/-- `<M as VebTreeMarker<K, V>>::Tree`, or `none` if the trait is not implemented: src/markers.rs:13-15,
src/tree.rs:17-24. -/
def Marker.treeOf (W : Type) : Marker → (k : KeyTy) → (v : ValTy) → Option (TreeImpl k.den (v.den W))
  | .byteSet, k, v => byteSetOf W k v
  | .byteTree, k, v => byteTreeOf W k v
  | .box m, k, v =>
    (m.treeOf W k v).bind fun T =>
    letI := T.inst
    some ⟨Box T.Ty, inferInstance⟩
  | .tree summary children, k, v =>
    (k.halves).bind fun h =>
    (summary.treeOf W h.hi .unit).bind fun S =>
    (children.collOf W h.hi h.lo v).bind fun C =>
    letI := h.impl.key
    letI := h.impl.ref
    letI := S.inst
    letI := C.tree.inst
    letI := C.inst
    some ⟨Tree k.den (v.den W) S.Ty C.Ty, inferInstance⟩
  | _, _, _ => none

/-- `<M as VebTreeCollectionMarker<K, V>>::TreeCollection` for a key with halves `hi`, `lo`, or `none` if the trait is not
implemented: src/collection/array.rs:21-30, src/collection/hash.rs:23-31.

The array asks its own marker for a tree with keys `K::Hi`, and then for `VebTree<Key = K::Lo>` of that same tree.  A type
implements `VebTree` once, so this holds only if both are the same type. -/
def Marker.collOf (W : Type) : Marker → (hi lo : KeyTy) → (v : ValTy) → Option (CollImpl hi.den lo.den (v.den W))
  | .array a, hi, lo, v =>
    (hi.sized).bind fun sized =>
    (a.arrayOf W hi v).bind fun T =>
    if h : hi = lo then
      let T : TreeImpl lo.den (v.den W) := h ▸ T
      letI := sized
      letI := T.inst
      some ⟨T, ArrayColl hi.den T.Ty, inferInstance⟩
    else none
  | .hash m, hi, lo, v =>
    (m.treeOf W lo v).bind fun T =>
    letI := T.inst
    some ⟨T, HashMap hi.den T.Ty, inferInstance⟩
  | .bytes m, hi, lo, v => (m.treeOf W lo v).bind fun T => bytesOf T hi
  | _, _, _, _ => none

/-- The tree in `<M as ArrayMarker<K, V>>::Array`, src/collection/array.rs:36-38, 65-70: `Box<[Option<T>]>` or
`GenericArray<Option<T>, N>`, which share a model. -/
def Marker.arrayOf (W : Type) : Marker → (k : KeyTy) → (v : ValTy) → Option (TreeImpl k.den (v.den W))
  | .box m, k, v => m.treeOf W k v
  | .generic m, k, v => m.treeOf W k v
  | _, _, _ => none
end

/-! ## The predefined markers, src/markers.rs:19-77 -/

namespace Marker
/-- `Marker8Empty` -/
def m8e : Marker := byteSet
/-- `Marker8` -/
def m8 : Marker := byteTree
/-- `Marker16Empty` -/
def m16e : Marker := tree m8e (array (box m8e))
/-- `Marker16` -/
def m16 : Marker := tree m8e (array (box m8))
/-- `Marker32Empty` -/
def m32e : Marker := tree m16e (array (box m16e))
/-- `Marker32` -/
def m32 : Marker := tree m16e (array (box m16))
/-- `Marker64Empty` -/
def m64e : Marker := tree m32e (array (box m32e))
/-- `Marker64` -/
def m64 : Marker := tree m32e (array (box m32))
end Marker

end Veb
