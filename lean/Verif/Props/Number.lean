import Verif.Proof.Number

/-!
# C77: `ByteSet` as a number

The words of a `ByteSet` are a number of 256 bits.  Its operations, and those of `u128` it is made of, are described by
arithmetic; also on the empty array, which no history of calls produces (C08).
-/

set_option autoImplicit false

namespace Veb.Props
open ByteSet

/-- **C77, `count_ones`** is the sum of the binary digits. -/
theorem C77_count_ones (x : Word) : countOnes x = ones x.toNat := Number.word_ones x

/-- **C77, `trailing_zeros`** is the exponent of the greatest power of two that divides the word, and 128 for zero. -/
theorem C77_trailing_zeros (x : Word) :
    (x.toNat = 0 → trailingZeros x = 128) ∧ (x.toNat ≠ 0 → IsLowest (trailingZeros x) x.toNat) := by
  refine ⟨fun h => ?_, fun h => Number.word_trailing fun e => h (by rw [e]; rfl)⟩
  have : x = 0#128 := BitVec.eq_of_toNat_eq h
  subst this
  decide +kernel

/-- **C77, `leading_zeros`**: taken from 127 it is the exponent of the greatest power of two that is not above the word;
128 for zero. -/
theorem C77_leading_zeros (x : Word) : (x.toNat = 0 → leadingZeros x = 128) ∧
    (x.toNat ≠ 0 → ∃ r, leadingZeros x + r = 127 ∧ IsHighest r x.toNat) := by
  refine ⟨fun h => ?_, fun h => ?_⟩
  · have : x = 0#128 := BitVec.eq_of_toNat_eq h
    subst this
    decide +kernel
  · obtain ⟨h1, h2⟩ := Number.word_leading (x := x) fun e => h (by rw [e]; rfl)
    exact ⟨_, by omega, h2⟩

/-- **C77, `checked_shr`** divides by a power of two, unless the distance is 128 or more. -/
theorem C77_checked_shr (x : Word) (n : Nat) :
    (checkedShr x n).map BitVec.toNat = if n < 128 then some (x.toNat / 2 ^ n) else none := by
  unfold checkedShr
  split <;> simp [Nat.shiftRight_eq_div_pow]

/-- **C77, `checked_shl`** multiplies by a power of two and drops what is 2^128 or more, unless the distance is 128 or more. -/
theorem C77_checked_shl (x : Word) (n : Nat) :
    (checkedShl x n).map BitVec.toNat = if n < 128 then some (x.toNat * 2 ^ n % 2 ^ 128) else none := by
  unfold checkedShl
  split <;> simp [Nat.shiftLeft_eq]

/-- **C77, every number below 2^256 stands for exactly one pair of words.** -/
theorem C77_words (n : Nat) (h : n < 2 ^ 256) : ∃! a : Words, a.number = n := by
  refine ⟨⟨BitVec.ofNat 128 n, BitVec.ofNat 128 (n / 2 ^ 128)⟩, ?_, fun b hb => ?_⟩
  · simp only [Words.number, BitVec.toNat_ofNat]
    norm_num at h ⊢
    omega
  · obtain ⟨b0, b1⟩ := b
    have h0 := b0.isLt
    have h1 := b1.isLt
    subst hb
    congr 1
    · apply BitVec.eq_of_toNat_eq
      simp only [Words.number, BitVec.toNat_ofNat]
      norm_num at h0 h1 ⊢
      omega
    · apply BitVec.eq_of_toNat_eq
      simp only [Words.number, BitVec.toNat_ofNat]
      norm_num at h0 h1 ⊢
      omega

/-- **C77, the masks**: `mask_lower(i)` has the bits below `i`, `mask_higher(i)` those above. -/
theorem C77_masks (i : U 8) :
    (maskLower i).number + 1 = 2 ^ nat i ∧ (maskHigher i).number + 2 ^ (nat i + 1) = 2 ^ 256 := by
  refine ⟨?_, Number.number_higher i⟩
  rw [Number.number_lower]
  have := Nat.two_pow_pos (nat i)
  omega

/-- **C77, one bit**: `is_present` reads a binary digit, `set_bit` and `unset_bit` add and subtract a power of two if
necessary, `from_monad` is one. -/
theorem C77_bits (s : ByteSet) (k : U 8) :
    (s.isPresent k = true ↔ s.words.number / 2 ^ nat k % 2 = 1) ∧
    (s.setBit k).words.number = (if s.isPresent k then s.words.number else s.words.number + 2 ^ nat k) ∧
    (s.unsetBit k).words.number = (if s.isPresent k then s.words.number - 2 ^ nat k else s.words.number) ∧
    (fromMonad k ()).words.number = 2 ^ nat k := by
  refine ⟨Number.present_iff s k, Number.number_set s k, ?_, ?_⟩
  · have := Number.number_unset s k
    split
    · simp_all
      omega
    · simp_all
  · have h := Number.number_set ⟨⟨0#128, 0#128⟩⟩ k
    have hp : ¬ isPresent ⟨⟨0#128, 0#128⟩⟩ k = true := by
      rw [Number.present_iff]
      simp [Words.number]
    rw [if_neg hp] at h
    exact h.trans (by simp [Words.number])

/-- **C77, counting**: `array_len` sums the digits, `count_below` those below a place. -/
theorem C77_counts (s : ByteSet) (k : U 8) :
    arrayLen s.words = ones s.words.number ∧ s.countBelow k = ones (s.words.number % 2 ^ nat k) :=
  ⟨Number.len_ones _, Number.below_ones s k⟩

/-- **C77, the ends** of an array that is not zero, and its length. -/
theorem C77_ends (s : ByteSet) (h : s.words.number ≠ 0) :
    s.len = .ok (ones s.words.number) ∧
    (∃ r, s.lowest = .ok r ∧ IsLowest (nat r) s.words.number) ∧
    (∃ r, s.highest = .ok r ∧ IsHighest (nat r) s.words.number) := by
  refine ⟨?_, Number.lowest_number h, Number.highest_number h⟩
  have h0 : arrayLen s.words ≠ 0 := fun e => h (Number.number_zero.2 (arrayLen_zero.1 e))
  simp only [len]
  rw [if_neg h0, Number.len_ones]
  rfl

/-- **C77, the neighbours** are the ends of the part of the number below and above. -/
theorem C77_neighbours (s : ByteSet) (k : U 8) :
    (let n := s.words.number % 2 ^ nat k
     (n = 0 → s.predecessor k = .ok none) ∧
     (n ≠ 0 → ∃ r, s.predecessor k = .ok (some (r, ())) ∧ IsHighest (nat r) n)) ∧
    let n := s.words.number / 2 ^ (nat k + 1) * 2 ^ (nat k + 1)
    (n = 0 → s.successor k = .ok none) ∧
    (n ≠ 0 → ∃ r, s.successor k = .ok (some (r, ())) ∧ IsLowest (nat r) n) := by
  simp only
  rw [← Number.number_below, ← Number.number_above]
  refine ⟨⟨fun h => ?_, fun h => ?_⟩, fun h => ?_, fun h => ?_⟩
  · simp only [predecessor]
    rw [Number.fromArray_zero h]
    rfl
  · obtain ⟨r, h1, h2⟩ := Number.highest_number (s := ⟨andWords (maskLower k) s⟩) h
    refine ⟨r, ?_, h2⟩
    simp only [predecessor]
    rw [Number.fromArray_some h]
    simp only [h1]
    rfl
  · simp only [successor]
    rw [Number.fromArray_zero h]
    rfl
  · obtain ⟨r, h1, h2⟩ := Number.lowest_number (s := ⟨andWords (maskHigher k) s⟩) h
    refine ⟨r, ?_, h2⟩
    simp only [successor]
    rw [Number.fromArray_some h]
    simp only [h1]
    rfl

/-- **C77, the empty array**: `from_array` refuses it; if there were a `ByteSet` with it, `len`, `lowest` and `highest` would
panic. -/
theorem C77_empty (v : Words) : (fromArray v = none ↔ v.number = 0) ∧ (∀ s, fromArray v = some s → s.words = v) ∧
    (v.number = 0 → len ⟨v⟩ = .error (.expect "ByteSet should never be empty") ∧ lowest ⟨v⟩ = .error .debugAssert ∧
      highest ⟨v⟩ = .error .debugAssert) := by
  refine ⟨⟨fun h => ?_, Number.fromArray_zero⟩, fun s h => ?_, fun h => ?_⟩
  · by_contra hc
    rw [Number.fromArray_some hc] at h
    cases h
  · by_cases h0 : v.number = 0
    · rw [Number.fromArray_zero h0] at h; cases h
    · rw [Number.fromArray_some h0] at h; cases h; rfl
  · rw [Number.number_zero.1 h]
    exact ⟨by decide +kernel, by decide +kernel, by decide +kernel⟩

/-! ## Cases -/

example : countOnes 6#128 = 2 ∧ trailingZeros 6#128 = 1 ∧ leadingZeros 6#128 = 125 ∧ ones 6 = 2 ∧ IsLowest 1 6 ∧ IsHighest 2 6 :=
  ⟨by decide +kernel, by decide +kernel, by decide +kernel, by decide +kernel, ⟨3, rfl, rfl⟩, by decide, by decide⟩
example : checkedShr 6#128 1 = some 3#128 ∧ checkedShr 6#128 128 = none ∧ checkedShl 6#128 127 = some 0#128 := by decide +kernel
/-- the bits 3 and 200 -/
example : let s : ByteSet := ⟨⟨8#128, 1#128 <<< 72⟩⟩
    s.words.number = 2 ^ 3 + 2 ^ 200 ∧ s.len = .ok 2 ∧ s.lowest = .ok (U.lit 3) ∧ s.highest = .ok (U.lit 200) ∧
    s.predecessor (U.lit 200) = .ok (some (U.lit 3, ())) ∧ s.successor (U.lit 3) = .ok (some (U.lit 200, ())) ∧
    s.successor (U.lit 200) = .ok none ∧ s.countBelow (U.lit 200) = 1 := by decide +kernel

end Veb.Props
