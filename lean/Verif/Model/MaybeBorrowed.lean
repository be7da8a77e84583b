import Verif.Model.Clone

/-!
`MaybeBorrowed`, src/key.rs:27-90, and `join` as the key types of the crate use it.  The rest of the model has the key
itself in place of a `MaybeBorrowed` of it (Verif/Model/Trait.lean); C54 is about what this leaves out.
-/

set_option autoImplicit false

namespace Veb

/-- `trait PartialEq<R> for L`. Simplification: comparing has no side effects. -/
class PartialEq (L R : Type) where
  eq : L → R → Bool

/-- `enum MaybeBorrowed`, src/key.rs:27-31. Simplification: a reference is the value it refers to. -/
inductive MaybeBorrowed (B : Type)
  | Borrowed (b : B)
  | Owned (b : B)

namespace MaybeBorrowed
variable {B L R : Type}

/-- `Deref::deref`, src/key.rs:79-88 -/
def deref : MaybeBorrowed B → B
  | Borrowed b => b
  | Owned b => b

/-- `PartialEq`, src/key.rs:33-41 -/
instance [PartialEq L R] : PartialEq (MaybeBorrowed L) (MaybeBorrowed R) where
  eq x y := PartialEq.eq x.deref y.deref

/-- `From<B>`, src/key.rs:43-48 -/
def ofVal (b : B) : MaybeBorrowed B := Owned b

/-- `From<&B>`, src/key.rs:49-54 -/
def ofRef (b : B) : MaybeBorrowed B := Borrowed b

/-- `into_or_clone`, src/key.rs:56-64 -/
def intoOrClone [Clone B] : MaybeBorrowed B → B
  | Borrowed b => clone b
  | Owned b => b

/-- `MaybeBorrowed::borrow`, src/key.rs:65-70. `Self::Borrowed(self)` dereferences `self`. -/
def borrow (x : MaybeBorrowed B) : MaybeBorrowed B := Borrowed x.deref

/-- `Borrow::borrow`, src/key.rs:72-77 -/
def borrowRef (x : MaybeBorrowed B) : B := x.deref

/-- derived `Clone`, src/key.rs:27: references are copied -/
instance [Clone B] : Clone (MaybeBorrowed B) where
  clone
    | Borrowed b => Borrowed b
    | Owned b => Owned (clone b)

end MaybeBorrowed

/-- `VebKey::join` with its arguments as the trait has them, src/key.rs:99.  All implementations of the crate that look at
their arguments (src/key.rs:154-156 … 722-726) first call `into_or_clone` on both or call another `join` with both as they
are, so that one definition stands for all. -/
def joinMB (K : Type) {Hi Lo : Type} [VebKey K Hi Lo] [Clone Hi] [Clone Lo] (hi : MaybeBorrowed Hi)
    (lo : MaybeBorrowed Lo) : K :=
  VebKey.join hi.intoOrClone lo.intoOrClone

end Veb
