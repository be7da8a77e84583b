import Verif.Model.ArrayOf

/-!
# Array types that are arrays

What is asked of an array type that a user gives to `ArrayTreeCollection`: an array stands for a function from indices
to optional trees, new ones have none, and reading and writing at the indices in `dom` do what their names say.  Nothing is
asked of other indices.
-/

set_option autoImplicit false

namespace Veb

/-- Arrays of type `A` stand for the functions given by `r`. -/
structure ArrayBy {A T : Type} (n : Nat) [ArrayT A n T] (dom : Nat → Prop) (r : A → (Nat → Option T) → Prop) : Prop where
  create : ∃ a : A, ArrayT.create n = .ok a ∧ r a fun _ => none
  get : ∀ (a : A) f i, r a f → dom i → ArrayT.get n a i = .ok (f i)
  getMut : ∀ (a : A) f i, r a f → dom i →
    ∃ put, ArrayT.getMut n a i = .ok (f i, put) ∧ ∀ o, r (put o) fun j => if j = i then o else f j

/-- The array type `A` behaves as an array at the indices in `dom`. -/
def IsArray (A : Type) {T : Type} (n : Nat) [ArrayT A n T] (dom : Nat → Prop) : Prop :=
  ∃ r : A → (Nat → Option T) → Prop, ArrayBy n dom r

/-- The model of the array collections of the crate, seen as a collection over any array type. -/
abbrev asArrayOf {Hi T : Type} (c : ArrayColl Hi T) : ArrayOf Hi (OptionArray T) := ⟨c.array, c.count⟩

end Veb
