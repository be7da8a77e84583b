import Verif.Model.KeyPtr
import Verif.Proof.KeyProps

/-!
Lemmas for `Verif.Props.KeyPtr`.
-/

set_option autoImplicit false

namespace Veb.Ptr

theorem has_pos {P : Ptr} {w : Nat} (h : P.has w) : 0 < w := by
  rcases h with rfl | ⟨rfl, -⟩ | ⟨rfl, -⟩ | ⟨rfl, -⟩ | ⟨rfl, -⟩ <;> decide

theorem has_le {P : Ptr} {w : Nat} (h : P.has w) : w ≤ P.bits := by
  rcases h with rfl | ⟨rfl, h⟩ | ⟨rfl, h⟩ | ⟨rfl, h⟩ | ⟨rfl, h⟩
  · cases P <;> decide
  all_goals cases P <;> simp_all [bits]

theorem asUsize_eq {P : Ptr} {w : Nat} (h : w ≤ P.bits) (x : U w) : P.asUsize x = x.bits.toNat := by
  rw [asUsize, BitVec.toNat_setWidth, Nat.mod_eq_of_lt]
  exact lt_of_lt_of_le x.bits.isLt (Nat.pow_le_pow_right (by decide) h)

theorem wrappingSub_eq {w : Nat} (hw : 0 < w) (x : S w) : (wrappingSub x S.MIN).bits = (x.absDiff S.MIN).bits := by
  simp only [wrappingSub, S.absDiff, if_neg (S.not_lt_min hw x)]

/-- index of a signed integer as wide as `usize` -/
theorem indexS_full {P : Ptr} (x : S P.bits) (hw : 0 < P.bits) :
    P.asUsizeS (wrappingSub x S.MIN) = (x.absDiff S.MIN).bits.toNat := by
  rw [asUsizeS, wrappingSub_eq hw, BitVec.signExtend_eq]

theorem indexS_nonneg {P : Ptr} {w : Nat} (hw : 0 < w) (hw' : w < P.bits) (x : S w) (hx : 0 ≤ x.bits.toInt) :
    (P.asUsizeS (wrappingSub x S.MIN) : Int) = 2 ^ P.bits - 2 ^ (w - 1) + x.bits.toInt := by
  have h1 := S.absDiff_toNat hw x
  have h2 : x.bits.toInt < 2 ^ (w - 1) := BitVec.toInt_lt
  obtain ⟨n, rfl⟩ : ∃ n, w = n + 1 := ⟨w - 1, by omega⟩
  simp only [Nat.add_sub_cancel] at h1 h2 ⊢
  have e : (((2 : Nat) ^ n : Nat) : Int) = (2 : Int) ^ n := by push_cast; rfl
  have e' : (((2 : Nat) ^ P.bits : Nat) : Int) = (2 : Int) ^ P.bits := by push_cast; rfl
  have h3 : (x.absDiff S.MIN).bits.msb = true := by
    rw [BitVec.msb_eq_true_iff_two_mul_ge, pow_succ]
    omega
  rw [asUsizeS, wrappingSub_eq hw, BitVec.toNat_signExtend, h3]
  have h5 := (x.absDiff S.MIN).toNat_lt
  have h6 : (2:Nat) ^ (n+1) ≤ 2 ^ P.bits := Nat.pow_le_pow_right (by decide) (by omega)
  simp only [if_true, BitVec.toNat_setWidth]
  rw [Nat.mod_eq_of_lt (lt_of_lt_of_le h5 h6)]
  have h7 : 2 ^ (n+1) = 2 * 2 ^ n := by rw [pow_succ]; ring
  omega

theorem indexS_neg {P : Ptr} {w : Nat} (hw : 0 < w) (hw' : w ≤ P.bits) (x : S w) (hx : x.bits.toInt < 0) :
    (P.asUsizeS (wrappingSub x S.MIN) : Int) = 2 ^ (w - 1) + x.bits.toInt := by
  have h1 := S.absDiff_toNat hw x
  have h3 : (x.absDiff S.MIN).bits.msb = false := by
    rw [BitVec.msb_eq_false_iff_two_mul_lt]
    obtain ⟨n, rfl⟩ : ∃ n, w = n + 1 := ⟨w - 1, by omega⟩
    simp only [Nat.add_sub_cancel] at h1
    have e : (((2 : Nat) ^ n : Nat) : Int) = (2 : Int) ^ n := by push_cast; rfl
    rw [pow_succ]
    omega
  rw [asUsizeS, wrappingSub_eq hw, BitVec.toNat_signExtend, h3]
  have h5 := (x.absDiff S.MIN).toNat_lt
  have h6 : (2:Nat) ^ w ≤ 2 ^ P.bits := Nat.pow_le_pow_right (by decide) hw'
  simp only [Bool.false_eq_true, if_false, BitVec.toNat_setWidth]
  rw [Nat.mod_eq_of_lt (lt_of_lt_of_le h5 h6)]
  omega

end Veb.Ptr
