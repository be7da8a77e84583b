import Verif.Conform.Basic

/-!
Tests of src/collection/array.rs:200-379 and src/collection/hash.rs:126-256.  Both modules test the same calls; the
functions below take the collection type, and its tree counter (`count` field, `HashMap::len`) as `size`.
-/

set_option autoImplicit false
set_option maxRecDepth 100000

namespace Veb.Conform
open TreeCollection

section
variable {C : Type} [TreeCollection C (U 8) ByteSet (U 8) Unit] (size : C → Nat)

/-- `|t| t.remove(k).unwrap()` -/
def rm (k : Nat) (t : ByteSet) : R (Option ByteSet × (U 8 × Unit)) := do unwrap (← VebTree.remove t (n8 k))
/-- `|t| t.remove(k)` -/
def mrm (k : Nat) (t : ByteSet) : R (Result (Option ByteSet × (U 8 × Unit)) ByteSet) := VebTree.remove t (n8 k)
/-- `create(&h, ByteSet::from_monad(k, ()))` -/
def one (h k : Nat) : R C := create (n8 h) (VebTree.fromMonad (n8 k) ())
/-- `create(&10, {5, 6})` -/
def two : R C := do create (n8 10) (← VebTree.insert (VebTree.fromMonad (n8 5) () : ByteSet) (n8 6) ()).1

/-- array.rs:208-216, hash.rs:132-141 -/
def collCreate : R Unit := do
  let c : C ← one 10 5
  assert (size c == 1)
  assert (← TreeCollection.get c (n8 10)).isSome
  assert (← TreeCollection.get c (n8 11)).isNone

/-- array.rs:218-234, hash.rs:143-156 -/
def collGet : R Unit := do
  let c : C ← one 10 5
  assert (← TreeCollection.get c (n8 10)).isSome
  assert (← getMut c (n8 10)).isSome
  assert (← TreeCollection.get c (n8 20)).isNone
  assert (← getMut c (n8 20)).isNone
  let t ← Conform.get (← TreeCollection.get c (n8 10))
  assert (t.isPresent (n8 5))

/-- array.rs:236-250, hash.rs:158-171 -/
def collInsertNew : R Unit := do
  let c : C ← one 10 5
  let (c, r) ← insertKey c (n8 20) (n8 7, ())
  assert ((← unwrap r) == n8 20)
  assert (size c == 2)
  assert (← TreeCollection.get c (n8 10)).isSome
  assert (← TreeCollection.get c (n8 20)).isSome

/-- array.rs:252-264, hash.rs:173-185 -/
def collInsertExisting : R Unit := do
  let c : C ← one 10 5
  let (c, r) ← insertKey c (n8 10) (n8 7, ())
  let (key, val) ← unwrapErr r
  assert (key == n8 10)
  assert val.isNone
  assert (size c == 1)

/-- array.rs:266-275, hash.rs:187-197 -/
def collRemoveLast : R Unit := do
  let c : C ← one 10 5
  let (r, (key, _)) ← removeKey c (n8 10) (rm 5)
  assert r.isNone
  assert (key == n8 5)

/-- array.rs:277-294 -/
def collRemoveOne : R Unit := do
  let c : C ← two
  let (r, (key, _)) ← removeKey c (n8 10) (rm 5)
  let (c, removed) ← Conform.get r
  assert (size c == 1)
  assert (!removed)
  assert (key == n8 5)
  let t ← Conform.get (← TreeCollection.get c (n8 10))
  assert (t.isPresent (n8 6))
  assert (!t.isPresent (n8 5))

/-- array.rs:296-316; hash.rs:199-220 has the part up to the first removal -/
def collRemoveEntire : R Unit := do
  let c : C ← two
  let (c, r) ← insertKey c (n8 20) (n8 7, ())
  let _ ← unwrap r
  assert (size c == 2)
  let (r, (key, _)) ← removeKey c (n8 10) (rm 5)
  let (c, removed) ← Conform.get r
  assert (size c == 2)
  assert (!removed)
  assert (key == n8 5)
  let (r, _) ← removeKey c (n8 10) (rm 6)
  let (c, removed) ← Conform.get r
  assert removed
  assert (size c == 1)
  assert (← TreeCollection.get c (n8 10)).isNone
  assert (← TreeCollection.get c (n8 20)).isSome

/-- array.rs:318-336, hash.rs:222-242 -/
def collMaybeRemoveMissing : R Unit := do
  let c : C ← one 10 5
  assert (!isOk (← maybeRemoveKey c (n8 20) (mrm 5)))
  assert (!isOk (← maybeRemoveKey c (n8 10) (mrm 99)))

/-- array.rs:338-348, hash.rs:244-255 -/
def collMaybeRemove : R Unit := do
  let c : C ← one 10 5
  let (c, (key, _)) ← unwrap (← maybeRemoveKey c (n8 10) (mrm 5))
  assert c.isNone
  assert (key == n8 5)

/-- array.rs:350-361 -/
def collBoundaryKeys : R Unit := do
  let c : C ← one 0 0
  let (c, r) ← insertKey c (n8 255) (n8 255, ())
  let _ ← unwrap r
  assert (← TreeCollection.get c (n8 0)).isSome
  assert (← TreeCollection.get c (n8 255)).isSome
  assert (size c == 2)

/-- array.rs:363-378 -/
def collAllSlotsFilled : R Unit := do
  let c : C ← one 0 0
  let c ← [1, 50, 100, 150, 200, 255].foldlM (fun c k => do
    let (c, r) ← insertKey c (n8 k) (n8 k, ())
    let _ ← unwrap r
    pure c) c
  assert (size c == 7)
  for k in [0, 1, 50, 100, 150, 200, 255] do
    assert (← TreeCollection.get c (n8 k)).isSome

/-- all of them -/
def collAll : R Unit := do
  collCreate size
  collGet (C := C)
  collInsertNew size
  collInsertExisting size
  collRemoveLast (C := C)
  collRemoveOne size
  collRemoveEntire size
  collMaybeRemoveMissing (C := C)
  collMaybeRemove (C := C)
  collBoundaryKeys size
  collAllSlotsFilled size
end

example : collAll (C := ArrayColl (U 8) ByteSet) (fun c => c.count) = .ok () := by decide +kernel
example : collAll (C := HashMap (U 8) ByteSet) (fun c => c.entries.length) = .ok () := by decide +kernel
/-- The crate does not run them on `ByteMap` and on boxes, but they hold there too. -/
example : collAll (C := ByteMap ByteSet) (fun c => c.list.length) = .ok () := by decide +kernel
example : collAll (C := Box (ArrayColl (U 8) ByteSet)) (fun c => c.val.count) = .ok () := by decide +kernel

end Veb.Conform
