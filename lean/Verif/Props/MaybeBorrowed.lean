import Verif.Model.MaybeBorrowed
import Verif.SpecClone
import Verif.Props.Clone
import Verif.SpecHist
import Verif.Proof.Hist

/-!
# C54: borrowed or owned makes no difference
-/

set_option autoImplicit false

namespace Veb.Props
open MaybeBorrowed

variable {B L R M : Type}

/-- **C54, `==`.** Two values are compared by what they refer to, borrowed or owned, also at different types. -/
theorem C54_eq [PartialEq L R] (l : L) (r : R) :
    PartialEq.eq (Borrowed l) (Borrowed r) = PartialEq.eq l r ∧ PartialEq.eq (Borrowed l) (Owned r) = PartialEq.eq l r ∧
    PartialEq.eq (Owned l) (Borrowed r) = PartialEq.eq l r ∧ PartialEq.eq (Owned l) (Owned r) = PartialEq.eq l r :=
  ⟨rfl, rfl, rfl, rfl⟩

/-- **C54, `Eq`.** `==` is an equivalence, as the derived `Eq` promises, if it is one on what is referred to … -/
theorem C54_equivalence [PartialEq B B] (h : Equivalence fun a b : B => PartialEq.eq a b = true) :
    Equivalence fun x y : MaybeBorrowed B => PartialEq.eq x y = true :=
  ⟨fun x => h.refl x.deref, fun {x y} => h.symm (x := x.deref) (y := y.deref),
   fun {x y z} => h.trans (x := x.deref) (y := y.deref) (z := z.deref)⟩

/-- … and only then. -/
theorem C54_equivalence_only [PartialEq B B] (h : Equivalence fun x y : MaybeBorrowed B => PartialEq.eq x y = true) :
    Equivalence fun a b : B => PartialEq.eq a b = true :=
  ⟨fun a => h.refl (Owned a), fun {a b} => h.symm (x := Owned a) (y := Owned b),
   fun {a b c} => h.trans (x := Owned a) (y := Owned b) (z := Owned c)⟩

/-- **C54, ways through.** Everything made from a value leads back to it, without `Clone`. -/
theorem C54_deref (b : B) (x : MaybeBorrowed B) :
    (ofVal b).deref = b ∧ (ofRef b).deref = b ∧ x.borrowRef = x.deref ∧ x.borrow.deref = x.deref ∧
    x.borrow.borrow = x.borrow := ⟨rfl, rfl, rfl, rfl, rfl⟩

/-- **C54, no clone.** `into_or_clone` does not clone an owned value. -/
theorem C54_owned [Clone B] (b : B) : (Owned b).intoOrClone = b := rfl

/-- **C54, conversions.** What `From` makes of a value is not cloned when it is taken over; what it makes of a reference is
cloned; and so is what `borrow` makes of either. -/
theorem C54_from [Clone B] (b : B) (x : MaybeBorrowed B) :
    (ofVal b).intoOrClone = b ∧ (ofRef b).intoOrClone = clone b ∧ x.borrow.intoOrClone = clone x.deref :=
  ⟨rfl, rfl, rfl⟩

/-- **C54, what is cloned.** Whatever `Clone` does: a clone of an owned value is a clone of the value, a clone of a reference
is the same reference. -/
theorem C54_cloned [Clone B] (b : B) :
    clone (Owned b) = Owned (clone b) ∧ clone (Borrowed b) = Borrowed b ∧ (clone (Owned b)).intoOrClone = clone b ∧
      (clone (Borrowed b)).intoOrClone = clone b :=
  ⟨rfl, rfl, rfl, rfl⟩

/-- **C54, `Clone`.** Cloning gives the same value back, for contents that obey the contract of `Clone`. -/
theorem C54_clone [Clone B] [LawfulClone B] (x : MaybeBorrowed B) :
    clone x = x ∧ x.intoOrClone = x.deref := by
  cases x <;> exact ⟨by simp [clone, LawfulClone.clone_eq], by simp [intoOrClone, deref, LawfulClone.clone_eq]⟩

/-- **C54, joining.** Keys joined from their halves are the same, borrowed or owned … -/
theorem C54_join {K Hi Lo : Type} [VebKey K Hi Lo] [Clone Hi] [Clone Lo] [LawfulClone Hi] [LawfulClone Lo]
    (hi : MaybeBorrowed Hi) (lo : MaybeBorrowed Lo) : joinMB K hi lo = VebKey.join hi.deref lo.deref := by
  rw [joinMB, (C54_clone hi).2, (C54_clone lo).2]

/-- … and a key is what its halves join to. -/
theorem C54_rejoin {K Hi Lo : Type} [LinearOrder K] [LinearOrder Hi] [LinearOrder Lo] [VebKey K Hi Lo] [VebKeyRef K Hi Lo]
    [Clone Hi] [Clone Lo] [LawfulClone Hi] [LawfulClone Lo] (h : GoodKey K Hi Lo) (k : K) :
    ∀ hi lo, hi.deref = (VebKey.splitVal k).1 → lo.deref = (VebKey.splitVal k).2 → joinMB K hi lo = k := by
  intro hi lo h1 h2
  rw [C54_join, h1, h2, h.rejoin]

/-- **C54, what a program can tell.** A program that only compares, dereferences, takes over and joins cannot tell two values
apart that refer to the same thing. -/
theorem C54_indistinguishable {K Lo : Type} [VebKey K B Lo] [Clone B] [LawfulClone B] [Clone Lo] [PartialEq B R]
    [PartialEq R B] {x y : MaybeBorrowed B} (h : x.deref = y.deref) :
    x.borrow = y.borrow ∧ x.intoOrClone = y.intoOrClone ∧ (∀ z : MaybeBorrowed R, PartialEq.eq x z = PartialEq.eq y z) ∧
    (∀ z : MaybeBorrowed R, PartialEq.eq z x = PartialEq.eq z y) ∧
    (∀ lo : MaybeBorrowed Lo, joinMB K x lo = joinMB K y lo) ∧ (clone x).deref = (clone y).deref := by
  refine ⟨congrArg Borrowed h, ?_, fun z => ?_, fun z => ?_, fun lo => ?_, ?_⟩
  · rw [(C54_clone x).2, (C54_clone y).2, h]
  · exact congrArg (PartialEq.eq · z.deref) h
  · exact congrArg (PartialEq.eq z.deref ·) h
  · rw [joinMB, joinMB, (C54_clone x).2, (C54_clone y).2, h]
  · rw [(C54_clone x).1, (C54_clone y).1, h]

/-- The contract of `Clone` is needed: with a clone that changes the value, `into_or_clone` tells borrowed from owned. -/
theorem C54_contract_needed : ∃ (B : Type) (_ : Clone B) (b : B), (Borrowed b).deref = (Owned b).deref ∧
    (Borrowed b).intoOrClone ≠ (Owned b).intoOrClone :=
  ⟨Nat, ⟨fun n => n + 1⟩, 0, rfl, by decide⟩

/-! ## Non-vacuity -/

/-- a key of 16 bits from a borrowed and an owned half -/
example : joinMB (U 16) (Borrowed (U.lit 3 : U 8)) (Owned (U.lit 7 : U 8)) = U.lit 775 := by decide +kernel
/-- the keys of the crate obey the contract of `Clone` and are good keys -/
example (k : U 32) (hi lo : MaybeBorrowed (U 16)) (h1 : hi.deref = (VebKey.splitVal k).1)
    (h2 : lo.deref = (VebKey.splitVal k).2) : joinMB (U 32) hi lo = k := C54_rejoin goodKey k hi lo h1 h2
/-- equality of numbers is an equivalence -/
instance : PartialEq Nat Nat := ⟨fun a b => decide (a = b)⟩
example : Equivalence fun x y : MaybeBorrowed Nat => PartialEq.eq x y = true :=
  C54_equivalence ⟨fun a => by simp [PartialEq.eq], fun {a b} h => by simp_all [PartialEq.eq],
    fun {a b c} h h' => by simp_all [PartialEq.eq]⟩
/-- `==` can fail: what the other theorems equate is not always the same -/
example : PartialEq.eq (Borrowed 1) (Owned 2) = false ∧ PartialEq.eq (Borrowed 2) (Owned 2) = true := by decide
/-- a clone that changes the value shows which one was cloned -/
example : ∃ c : Clone Nat, (@clone _ (@MaybeBorrowed.instClone _ c) (Owned 1)).deref = 2 ∧
    (@clone _ (@MaybeBorrowed.instClone _ c) (Borrowed 1)).deref = 1 := ⟨⟨fun n => n + 1⟩, rfl, rfl⟩

end Veb.Props
