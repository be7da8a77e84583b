import Verif.Model.Collection

/-!
`ArrayTreeCollection<H, A>` for any array type `A`: src/collection/array.rs, with the trait `OptionArray`, which the
crate exports (src/lib.rs:7, src/collection/mod.rs:8), so that a user can implement it.  `Verif.Model.Collection` has
the same code with the arrays of the crate.
-/

set_option autoImplicit false

namespace Veb

/-- `trait OptionArray<Cardinality>`, src/collection/array.rs:40-45; `n` is the type-level number.  Its code may panic. -/
class ArrayT (A : Type) (n : Nat) (T : outParam Type) where
  /-- :42 -/
  create : R A
  /-- :43 -/
  get : A → Nat → R (Option T)
  /-- :44, the slot and how to write it -/
  getMut : A → Nat → R (Option T × (Option T → A))

/-- `Box<[Option<V>]>` and `GenericArray<Option<V>, _>`, src/collection/array.rs:47-60, 72-85, as array types -/
instance {T : Type} (n : Nat) : ArrayT (OptionArray T) n T where
  create := pure (OptionArray.create n)
  get a i := a.get i
  getMut a i := do pure (← a.get i, fun o => { a with slot := fun j => if j = i then o else a.slot j })

/-- `struct ArrayTreeCollection<H, A>`, src/collection/array.rs:87-91 -/
structure ArrayOf (Hi A : Type) where
  array : A
  count : Nat

namespace ArrayOf
variable {Hi A T Lo V : Type} [SizedVebKey Hi] [ArrayT A (SizedVebKey.cardinality Hi) T]

/-- `self.array.get(h.index())` -/
def slot (a : A) (h : Hi) : R (Option T) := ArrayT.get (SizedVebKey.cardinality Hi) a (SizedVebKey.index h)
/-- `self.array.get_mut(h.index())` -/
def slotMut (a : A) (h : Hi) : R (Option T × (Option T → A)) :=
  ArrayT.getMut (SizedVebKey.cardinality Hi) a (SizedVebKey.index h)

/-- src/collection/array.rs:101-110 -/
def create (h : Hi) (tree : T) : R (ArrayOf Hi A) := do
  let array : A ← ArrayT.create (SizedVebKey.cardinality Hi)
  let (_, put) ← slotMut array h
  pure ⟨put (some tree), 1⟩
/-- src/collection/array.rs:112-114 -/
def get (c : ArrayOf Hi A) (h : Hi) : R (Option T) := slot c.array h
/-- src/collection/array.rs:116-118 -/
def getMut (c : ArrayOf Hi A) (h : Hi) : R (Option (T × (T → ArrayOf Hi A))) := do
  match (← slotMut c.array h) with
  | (none, _) => pure none
  | (some t, put) => pure (some (t, fun u => { c with array := put (some u) }))
/-- src/collection/array.rs:120-132 -/
def insertKey [VebTree T Lo V] (c : ArrayOf Hi A) (h : Hi) (lv : Lo × V) :
    R (ArrayOf Hi A × Result Hi (Hi × Option (Lo × V))) := do
  match (← slotMut c.array h) with
  | (none, put) =>
    let (_, put) ← slotMut (put none) h
    pure (⟨put (some (VebTree.fromMonad lv.1 lv.2)), ← addUsize c.count 1⟩, .Ok h)
  | (some t, put) =>
    let (t, o) ← VebTree.insert t lv.1 lv.2
    pure (⟨put (some t), c.count⟩, .Err (h, o))
/-- src/collection/array.rs:139-162; `take` leaves `None` behind -/
def removeKey (c : ArrayOf Hi A) (h : Hi) (r : T → R (Option T × (Lo × V))) :
    R (Option (ArrayOf Hi A × Bool) × (Lo × V)) := do
  let (o, put) ← slotMut c.array h
  let array := put none
  let t ← expect "array should contain tree at key index" o
  let (t, val) ← r t
  let removed := t.isNone
  let count ← if removed then subUsize c.count 1 else pure c.count
  let (_, put) ← slotMut array h
  if count = 0 then pure (none, val) else pure (some (⟨put t, count⟩, removed), val)
/-- src/collection/array.rs:169-197; `take` leaves `None` behind also where there is none -/
def maybeRemoveKey (c : ArrayOf Hi A) (h : Hi) (r : T → R (Result (Option T × (Lo × V)) T)) :
    R (Result (Option (ArrayOf Hi A × Bool) × (Lo × V)) (ArrayOf Hi A)) := do
  let (o, put) ← slotMut c.array h
  let array := put none
  match o with
  | none => pure (.Err { c with array := array })
  | some t =>
    match (← r t) with
    | .Err t =>
      let (_, put) ← slotMut array h
      pure (.Err { c with array := put (some t) })
    | .Ok (t, val) =>
      let removed := t.isNone
      let count ← if removed then subUsize c.count 1 else pure c.count
      let (_, put) ← slotMut array h
      if count = 0 then pure (.Ok (none, val)) else pure (.Ok (some (⟨put t, count⟩, removed), val))

/-- `impl TreeCollection for ArrayTreeCollection`, src/collection/array.rs:93-198 -/
instance [VebTree T Lo V] : TreeCollection (ArrayOf Hi A) Hi T Lo V where
  create := create
  get := get
  getMut := getMut
  insertKey := insertKey
  removeKey := removeKey
  maybeRemoveKey := maybeRemoveKey

end ArrayOf
end Veb
