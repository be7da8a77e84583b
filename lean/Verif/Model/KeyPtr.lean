import Verif.Model.Collection

/-!
`SizedVebKey` of the integers on every target: src/key.rs with the `cfg(target_pointer_width = …)` conditions.
`Verif.Model.Key` is the 64-bit target; here the width of `usize` is a parameter.
-/

namespace Veb

/-- The targets the crate distinguishes (`target_pointer_width`, src/key.rs:160, 207, 254-258, 309-314). -/
inductive Ptr where
  | p16 | p32 | p64 | p128
  deriving Repr, DecidableEq

namespace Ptr

/-- `usize::BITS` -/
def bits : Ptr → Nat
  | p16 => 16
  | p32 => 32
  | p64 => 64
  | p128 => 128

/-- The `cfg` conditions: `P.has w` if `uN` and `iN` of `w` bits implement `SizedVebKey` on this target.
8 bits: no condition, src/key.rs:366, 388; 16 bits: :309-314, 337-342; 32 bits: :254-258, 281-285; 64 bits: :207, 230;
128 bits: :160, 183 -/
def has (P : Ptr) (w : Nat) : Prop :=
  w = 8 ∨ (w = 16 ∧ (P = p128 ∨ P = p64 ∨ P = p32 ∨ P = p16)) ∨ (w = 32 ∧ (P = p128 ∨ P = p64 ∨ P = p32)) ∨
    (w = 64 ∧ (P = p128 ∨ P = p64)) ∨ (w = 128 ∧ P = p128)

/-- `x as usize` of an unsigned integer: truncates or zero-extends. -/
def asUsize (P : Ptr) {w : Nat} (x : U w) : Nat := (x.bits.setWidth P.bits).toNat
/-- `x as usize` of a signed integer: truncates or sign-extends. -/
def asUsizeS (P : Ptr) {w : Nat} (x : S w) : Nat := (x.bits.signExtend P.bits).toNat
/-- `Cardinality::USIZE`: `typenum` computes it bit by bit with `<<`, so numbers that do not fit wrap. -/
def typenumUsize (P : Ptr) (n : Nat) : Nat := n % 2 ^ P.bits
/-- `iN::wrapping_sub` -/
def wrappingSub {w : Nat} (x y : S w) : S w := ⟨x.bits - y.bits⟩

/-- `impl SizedVebKey for u8`, …, `u128`: src/key.rs:160-168, 207-215, 254-266, 309-322, 366-373 (the same code each
time) -/
def sizedU (P : Ptr) (w : Nat) : SizedVebKey (U w) where
  cardinalityConst := P.asUsize (U.lit (2 ^ w - 1) : U w)
  cardinality := 2 ^ w
  index x := P.asUsize x

/-- `impl SizedVebKey for i8`, …, `i128`: src/key.rs:183-191, 230-238, 281-293, 337-350, 388-395 (the same code each time,
except that `CARDINALITY` is `usize::MAX` for `i16`, :344, and `i32`, :287) -/
def sizedS (P : Ptr) (w : Nat) : SizedVebKey (S w) where
  cardinalityConst := if w = 16 ∨ w = 32 then 2 ^ P.bits - 1 else P.asUsize (U.lit (2 ^ w - 1) : U w)
  cardinality := 2 ^ w
  index x := P.asUsizeS (wrappingSub x S.MIN)

/-- The index type as an array on the target sees it: the length is `Cardinality::USIZE` on this target.  With this
instance `ArrayColl` is the array collection of a target of at most 64 bits (`OptionArray.create` wraps at 64 bits, which
then changes nothing).  Its counter of children keeps the 64-bit overflow check; there are never more children than
indices. -/
def seen (P : Ptr) {K : Type} (I : SizedVebKey K) : SizedVebKey K := { I with cardinality := P.typenumUsize I.cardinality }

end Ptr
end Veb
