import Verif.Model.Key

/-!
# Vocabulary for the key properties

The contract of the traits `VebKey`, `VebKeyRef` and `SizedVebKey`, written with the API only.
-/

set_option autoImplicit false

namespace Veb
open VebKey (splitVal join)

/-- `split_val` and `join` are inverse to each other. -/
def Inverse (K : Type) {Hi Lo : Type} [VebKey K Hi Lo] : Prop :=
  (∀ k : K, join (splitVal k).1 (splitVal k).2 = k) ∧
  (∀ (h : Hi) (l : Lo), splitVal (join h l : K) = (h, l))

/-- `split_val` and `join` are inverse to each other on keys satisfying `P` and halves satisfying `Q`. -/
def InverseOn (K : Type) {Hi Lo : Type} [VebKey K Hi Lo] (P : K → Prop) (QH : Hi → Prop) (QL : Lo → Prop) :
    Prop :=
  (∀ k : K, P k → QH (splitVal k).1 ∧ QL (splitVal k).2 ∧ join (splitVal k).1 (splitVal k).2 = k) ∧
  (∀ (h : Hi) (l : Lo), QH h → QL l → P (join h l : K) ∧ splitVal (join h l : K) = (h, l))

/-- Comparing pairs lexicographically, as Rust's `Ord for (A, B)`. -/
def lexCmp {A B : Type} [LinearOrder A] [LinearOrder B] (p q : A × B) : Ordering :=
  match cmp p.1 q.1 with
  | .eq => cmp p.2 q.2
  | o => o

/-- The documented contract of `VebKey`: `a.cmp(b) == (a.hi, a.lo).cmp((b.hi, b.lo))`. -/
def OrderPreserving (K : Type) {Hi Lo : Type} [LinearOrder K] [LinearOrder Hi] [LinearOrder Lo]
    [VebKey K Hi Lo] : Prop :=
  ∀ a b : K, cmp a b = lexCmp (splitVal a) (splitVal b)

/-- `split_ref` shows its closure what `split_val` returns. -/
def RefAgrees (K : Type) {Hi Lo : Type} [VebKey K Hi Lo] [VebKeyRef K Hi Lo] : Prop :=
  ∀ k : K, VebKeyRef.splitRef k = splitVal k

/-- `index` is below `Cardinality` and different keys have different indices. -/
def IndexOk (K : Type) [SizedVebKey K] (P : K → Prop) : Prop :=
  (∀ k : K, P k → SizedVebKey.index k < SizedVebKey.cardinality K) ∧
  (∀ a b : K, P a → P b → SizedVebKey.index a = SizedVebKey.index b → a = b)

/-- The value of a `U4` is in range. -/
def U4Ok (x : U4) : Prop := x.val.bits.toNat ≤ 15
/-- The value of a `U2` is in range. -/
def U2Ok (x : U2) : Prop := x.val.bits.toNat ≤ 3

mutual
/-- The `U4` values a user of the crate can obtain: conversions, operators, halves of a `u8` or `i8`, joins. -/
inductive ReachU4 : U4 → Prop
  | ofU8 (x : U 8) : ReachU4 (U4.ofU8 x)
  | ofU2 {x : U2} : ReachU2 x → ReachU4 (U4.ofU2 x)
  | bitor {x y : U4} : ReachU4 x → ReachU4 y → ReachU4 (x.bitor y)
  | shl {x y : U4} (n : Nat) : ReachU4 x → x.shl n = .ok y → ReachU4 y
  | shr {x y : U4} (n : Nat) : ReachU4 x → x.shr n = .ok y → ReachU4 y
  | hi (x : U 8) : ReachU4 (splitVal x).1
  | lo (x : U 8) : ReachU4 (splitVal x).2
  | hiS (x : S 8) : ReachU4 (splitVal x).1
  | loS (x : S 8) : ReachU4 (splitVal x).2
  | join {x y : U2} : ReachU2 x → ReachU2 y → ReachU4 (join x y)
/-- The `U2` values a user of the crate can obtain. -/
inductive ReachU2 : U2 → Prop
  | ofU8 (x : U 8) : ReachU2 (U2.ofU8 x)
  | ofU4 {x : U4} : ReachU4 x → ReachU2 (U2.ofU4 x)
  | bitor {x y : U2} : ReachU2 x → ReachU2 y → ReachU2 (x.bitor y)
  | shl {x y : U2} (n : Nat) : ReachU2 x → x.shl n = .ok y → ReachU2 y
  | shr {x y : U2} (n : Nat) : ReachU2 x → x.shr n = .ok y → ReachU2 y
  | hi {x : U4} : ReachU4 x → ReachU2 (splitVal x).1
  | lo {x : U4} : ReachU4 x → ReachU2 (splitVal x).2
  | join (x y : Bool) : ReachU2 (join x y)
end

end Veb
