import Verif.SpecNumber
import Verif.Proof.ByteSet

/-!
Bits and numbers.
-/

set_option autoImplicit false

namespace Veb.Number
open Words ByteSet

theorem testBit_number (a : Words) (n : Nat) : a.number.testBit n = a.bitAt n := by
  rw [number, Nat.add_comm, Nat.testBit_two_pow_mul_add _ a.w0.isLt]
  rfl

theorem number_lt (a : Words) : a.number < 2 ^ 256 := by
  have h0 := a.w0.isLt
  have h1 := a.w1.isLt
  rw [number]
  norm_num at h0 h1 ⊢
  omega

theorem number_zero {a : Words} : a.number = 0 ↔ a = ⟨0#128, 0#128⟩ := by
  constructor
  · intro h
    by_contra hc
    obtain ⟨n, hn⟩ := words_ne_zero.1 hc
    rw [← testBit_number, h, Nat.zero_testBit] at hn
    cases hn
  · rintro rfl; rfl

theorem ones_eq (m n : Nat) (h : n < 2 ^ m) : ones n = (List.range m).countP n.testBit := by
  induction m generalizing n with
  | zero =>
    have : n = 0 := by simpa using h
    subst this
    simp [ones]
  | succ m ih =>
    rw [List.range_succ_eq_map, List.countP_cons, List.countP_map]
    have e : n.testBit ∘ Nat.succ = (n / 2).testBit := by
      funext i
      simp [Nat.testBit_succ]
    rw [e, ← ih (n / 2) (by rw [Nat.pow_succ] at h; omega), Nat.testBit_zero]
    rw [ones]
    split
    · next h0 => subst h0; rw [ones]; simp
    · rcases Nat.mod_two_eq_zero_or_one n with h | h
      · simp [h]
      · simp [h]
        omega

theorem isLowest {r n : Nat} (h1 : n.testBit r = true) (h2 : ∀ j, n.testBit j = true → r ≤ j) : IsLowest r n := by
  refine ⟨n / 2 ^ r, ?_, ?_⟩
  · simpa [Nat.testBit_eq_decide_div_mod_eq] using h1
  · have : n % 2 ^ r = 0 := by
      apply Nat.eq_of_testBit_eq
      intro i
      rw [Nat.testBit_mod_two_pow, Nat.zero_testBit]
      by_cases hi : i < r
      · cases hb : n.testBit i with
        | false => simp
        | true => exact absurd (h2 i hb) (by omega)
      · simp [hi]
    have := Nat.div_add_mod n (2 ^ r)
    omega

theorem isHighest {r n : Nat} (h1 : n.testBit r = true) (h2 : ∀ j, n.testBit j = true → j ≤ r) : IsHighest r n := by
  refine ⟨Nat.ge_two_pow_of_testBit h1, ?_⟩
  apply Nat.lt_pow_two_of_testBit
  intro i hi
  cases hb : n.testBit i with
  | false => rfl
  | true => exact absurd (h2 i hb) (by omega)

theorem parts (n k : Nat) : n = 2 ^ (k + 1) * (n / 2 ^ (k + 1)) + 2 ^ k * (n / 2 ^ k % 2) + n % 2 ^ k := by
  have h1 := Nat.div_add_mod n (2 ^ k)
  have h2 := Nat.div_add_mod (n / 2 ^ k) 2
  rw [Nat.div_div_eq_div_mul, ← Nat.pow_succ] at h2
  have h3 : 2 ^ k * (n / 2 ^ k) = 2 ^ k * (2 * (n / 2 ^ (k + 1)) + n / 2 ^ k % 2) := by rw [h2]
  rw [Nat.mul_add, ← Nat.mul_assoc, ← Nat.pow_succ] at h3
  rw [Nat.succ_eq_add_one] at h3
  omega

/-- numbers that differ in one bit -/
theorem add_bit {n n' k : Nat} (h : ∀ j, n'.testBit j = (n.testBit j || decide (j = k))) (h0 : n.testBit k = false) :
    n' = n + 2 ^ k := by
  have h1 : n' / 2 ^ (k + 1) = n / 2 ^ (k + 1) := by
    apply Nat.eq_of_testBit_eq
    intro i
    rw [Nat.testBit_div_two_pow, Nat.testBit_div_two_pow, h]
    have : ¬ i + (k + 1) = k := by omega
    simp [this]
  have h2 : n' % 2 ^ k = n % 2 ^ k := by
    apply Nat.eq_of_testBit_eq
    intro i
    rw [Nat.testBit_mod_two_pow, Nat.testBit_mod_two_pow, h]
    by_cases hi : i < k
    · have : ¬ i = k := by omega
      simp [this]
    · simp [hi]
  have h3 : n' / 2 ^ k % 2 = 1 := by
    have := h k
    simpa [Nat.testBit_eq_decide_div_mod_eq] using this
  have h4 : n / 2 ^ k % 2 = 0 := by
    have : ¬ n / 2 ^ k % 2 = 1 := by simpa [Nat.testBit_eq_decide_div_mod_eq] using h0
    omega
  have e1 := parts n k
  have e2 := parts n' k
  rw [h1, h2, h3] at e2
  rw [h4] at e1
  omega

theorem same_bits {n n' : Nat} (h : ∀ j, n'.testBit j = n.testBit j) : n' = n := Nat.eq_of_testBit_eq h

theorem present_iff (s : ByteSet) (k : U 8) : s.isPresent k = true ↔ s.words.number / 2 ^ nat k % 2 = 1 := by
  rw [isPresent_eq, ← testBit_number, Nat.testBit_eq_decide_div_mod_eq, decide_eq_true_eq]

theorem number_set (s : ByteSet) (k : U 8) :
    (s.setBit k).words.number = if s.isPresent k then s.words.number else s.words.number + 2 ^ nat k := by
  have h : ∀ j, (s.setBit k).words.number.testBit j = (s.words.number.testBit j || decide (j = nat k)) := by
    intro j
    rw [testBit_number, testBit_number, setBit, bitAt_arraySetBit]
  rw [isPresent_eq, ← testBit_number]
  split
  · next hp =>
    apply same_bits
    intro j
    rw [h]
    by_cases hj : j = nat k
    · subst hj; simp [hp]
    · simp [hj]
  · next hp => exact add_bit h (by simpa using hp)

theorem number_unset (s : ByteSet) (k : U 8) :
    (s.unsetBit k).words.number + (if s.isPresent k then 2 ^ nat k else 0) = s.words.number := by
  have h : ∀ j, (s.unsetBit k).words.number.testBit j = (s.words.number.testBit j && !decide (j = nat k)) := by
    intro j
    rw [testBit_number, testBit_number, bitAt_unsetBit]
  rw [isPresent_eq, ← testBit_number]
  split
  · next hp =>
    symm
    apply add_bit
    · intro j
      rw [h]
      by_cases hj : j = nat k
      · subst hj; simp [hp]
      · simp [hj]
    · simp [h]
  · next hp =>
    rw [Nat.add_zero]
    apply same_bits
    intro j
    rw [h]
    by_cases hj : j = nat k
    · subst hj; simpa using hp
    · simp [hj]

theorem number_and (m : Words) (s : ByteSet) (n : Nat) :
    (andWords m s).number.testBit n = (m.number.testBit n && s.words.number.testBit n) := by
  rw [testBit_number, testBit_number, testBit_number, bitAt_and]

theorem number_lower (i : U 8) : (maskLower i).number = 2 ^ nat i - 1 := by
  apply same_bits
  intro j
  rw [testBit_number, bitAt_maskLower, Nat.testBit_two_pow_sub_one]

theorem number_higher (i : U 8) : (maskHigher i).number + 2 ^ (nat i + 1) = 2 ^ 256 := by
  have hi := nat_lt i
  have e : (maskHigher i).number = (2 ^ (255 - nat i) - 1) * 2 ^ (nat i + 1) := by
    apply same_bits
    intro j
    rw [testBit_number, Nat.testBit_mul_two_pow, Nat.testBit_two_pow_sub_one]
    by_cases hj : j < 256
    · rw [bitAt_maskHigher _ _ hj]
      by_cases h1 : nat i < j <;> simp <;> omega
    · have : (maskHigher i).bitAt j = false := by
        by_contra hc
        exact hj (bitAt_lt (by simpa using hc))
      rw [this]
      simp
      omega
  rw [e, Nat.sub_mul, Nat.one_mul, ← Nat.pow_add, show 255 - nat i + (nat i + 1) = 256 by omega]
  have : 2 ^ (nat i + 1) ≤ 2 ^ 256 := Nat.pow_le_pow_right (by decide) (by omega)
  omega

theorem len_ones (v : Words) : arrayLen v = ones v.number := by
  rw [ones_eq 256 _ (number_lt v), arrayLen_eq]
  congr 1
  funext n
  rw [testBit_number]

theorem below_ones (s : ByteSet) (k : U 8) : s.countBelow k = ones (s.words.number % 2 ^ nat k) := by
  rw [ones_eq (nat k) _ (Nat.mod_lt _ (Nat.two_pow_pos _)), countBelow_eq]
  apply List.countP_congr
  intro n hn
  rw [List.mem_range] at hn
  rw [Nat.testBit_mod_two_pow, testBit_number]
  simp [hn]

theorem word_ones (x : Word) : countOnes x = ones x.toNat := by
  rw [ones_eq 128 _ x.isLt]
  rfl

theorem word_trailing {x : Word} (h : x ≠ 0#128) : IsLowest (trailingZeros x) x.toNat := by
  obtain ⟨-, h1, h2⟩ := trailingZeros_spec h
  exact isLowest h1 h2

theorem word_leading {x : Word} (h : x ≠ 0#128) : leadingZeros x ≤ 127 ∧ IsHighest (127 - leadingZeros x) x.toNat := by
  obtain ⟨h0, h1, h2⟩ := leadingZeros_spec h
  exact ⟨h0, isHighest h1 h2⟩

theorem number_below (s : ByteSet) (k : U 8) : (andWords (maskLower k) s).number = s.words.number % 2 ^ nat k := by
  apply same_bits
  intro j
  rw [number_and, number_lower, Nat.testBit_two_pow_sub_one, Nat.testBit_mod_two_pow]

theorem number_above (s : ByteSet) (k : U 8) :
    (andWords (maskHigher k) s).number = s.words.number / 2 ^ (nat k + 1) * 2 ^ (nat k + 1) := by
  apply same_bits
  intro j
  rw [number_and, Nat.testBit_mul_two_pow, Nat.testBit_div_two_pow, testBit_number, testBit_number]
  by_cases hj : j < 256
  · rw [bitAt_maskHigher _ _ hj]
    by_cases h1 : nat k < j
    · have : nat k + 1 ≤ j := h1
      rw [Nat.sub_add_cancel this, testBit_number]
      simp [h1, this]
    · have : ¬ nat k + 1 ≤ j := by omega
      simp [h1, this]
  · have : s.words.bitAt j = false := by
      by_contra hc
      exact hj (bitAt_lt (by simpa using hc))
    have hk := nat_lt k
    rw [Nat.sub_add_cancel (by omega), testBit_number, this]
    simp

theorem lowest_number {s : ByteSet} (h : s.words.number ≠ 0) : ∃ k, s.lowest = .ok k ∧ IsLowest (nat k) s.words.number := by
  obtain ⟨k, h1, h2, h3⟩ := lowest_ok s fun e => h (number_zero.2 e)
  exact ⟨k, h1, isLowest (by rw [testBit_number, h2]) fun j hj => h3 j (by rw [← testBit_number, hj])⟩

theorem highest_number {s : ByteSet} (h : s.words.number ≠ 0) :
    ∃ k, s.highest = .ok k ∧ IsHighest (nat k) s.words.number := by
  obtain ⟨k, h1, h2, h3⟩ := highest_ok s fun e => h (number_zero.2 e)
  exact ⟨k, h1, isHighest (by rw [testBit_number, h2]) fun j hj => h3 j (by rw [← testBit_number, hj])⟩

theorem fromArray_zero {v : Words} (h : v.number = 0) : fromArray v = none := by
  rw [fromArray, if_pos (number_zero.1 h)]

theorem fromArray_some {v : Words} (h : v.number ≠ 0) : fromArray v = some ⟨v⟩ := by
  rw [fromArray, if_neg fun e => h (number_zero.2 e)]

end Veb.Number
