import Verif.Model.ByteSet
import Verif.Proof.KeyLaws
import Verif.Proof.SLLemmas

/-!
`ByteSet` is lawful: everything is reduced to "bit `n` is set".
-/

namespace Veb

/-- Bit `n` of the pair of words. -/
def Words.bitAt (v : Words) (n : Nat) : Bool := if n < 128 then v.w0.getLsbD n else v.w1.getLsbD (n - 128)

namespace ByteSet
open Words

theorem bitAt_lt {v : Words} {n : Nat} (h : v.bitAt n = true) : n < 256 := by
  by_contra hc
  rw [bitAt, if_neg (by omega), BitVec.getLsbD_of_ge _ _ (by omega)] at h
  cases h

theorem word_ne_zero {w : Word} : w ≠ 0#128 ↔ ∃ n, n < 128 ∧ w.getLsbD n = true := by
  constructor
  · intro h
    by_contra hc
    push Not at hc
    apply h
    apply BitVec.eq_of_getLsbD_eq
    intro i hi
    simpa using hc i hi
  · rintro ⟨n, _, h⟩ rfl
    simp at h

theorem words_ne_zero {v : Words} : v ≠ ⟨0#128, 0#128⟩ ↔ ∃ n, v.bitAt n = true := by
  obtain ⟨a, b⟩ := v
  constructor
  · intro h
    by_cases ha : a = 0#128
    · have hb : b ≠ 0#128 := fun hb => h (by rw [ha, hb])
      obtain ⟨n, hn, h⟩ := word_ne_zero.1 hb
      refine ⟨128 + n, ?_⟩
      rw [bitAt, if_neg (by omega)]
      simpa using h
    · obtain ⟨n, hn, h⟩ := word_ne_zero.1 ha
      exact ⟨n, by rw [bitAt, if_pos hn]; exact h⟩
  · rintro ⟨n, h⟩ e
    cases e
    unfold bitAt at h
    split at h <;> simp at h

theorem words_ext {v v' : Words} (h : ∀ n, n < 256 → v.bitAt n = v'.bitAt n) : v = v' := by
  obtain ⟨a, b⟩ := v
  obtain ⟨a', b'⟩ := v'
  congr 1
  · apply BitVec.eq_of_getLsbD_eq
    intro i hi
    have := h i (by omega)
    simpa [bitAt, hi] using this
  · apply BitVec.eq_of_getLsbD_eq
    intro i hi
    have := h (128 + i) (by omega)
    simpa [bitAt] using this

theorem nat_lt (k : U 8) : nat k < 256 := k.toNat_lt

theorem getLsbD_bit (k : U 8) (n : Nat) : (bit k).getLsbD n = decide (n = nat k % 128) := by
  have : nat k % 128 < 128 := Nat.mod_lt _ (by decide)
  rw [bit, ← BitVec.twoPow_eq, BitVec.getLsbD_twoPow]
  simp [this, eq_comm]

theorem isPresent_eq (s : ByteSet) (k : U 8) : s.isPresent k = s.words.bitAt (nat k) := by
  have hk := nat_lt k
  have key : ∀ w : Word, decide (w &&& bit k ≠ 0#128) = w.getLsbD (nat k % 128) := by
    intro w
    rw [Bool.eq_iff_iff, decide_eq_true_eq, word_ne_zero]
    simp only [BitVec.getLsbD_and, getLsbD_bit, Bool.and_eq_true, decide_eq_true_eq]
    constructor
    · rintro ⟨n, _, h, rfl⟩
      exact h
    · intro h
      exact ⟨_, Nat.mod_lt _ (by decide), h, rfl⟩
  rw [isPresent, key, Words.get, bitAt]
  by_cases h : nat k < 128
  · rw [if_pos h, if_pos (Nat.div_eq_of_lt h), Nat.mod_eq_of_lt h]
  · rw [if_neg h, if_neg (show ¬ nat k / 128 = 0 by omega), show nat k % 128 = nat k - 128 by omega]

theorem bitAt_set (v : Words) (k : U 8) (f : Word → Word) (g : Bool → Bool → Bool)
    (hf : ∀ w n, n < 128 → (f w).getLsbD n = g (w.getLsbD n) (decide (n = nat k % 128)))
    (hg : ∀ b, g b false = b) (n : Nat) (hn : n < 256) :
    (v.set (nat k / 128) (f (v.get (nat k / 128)))).bitAt n = g (v.bitAt n) (decide (n = nat k)) := by
  have hk := nat_lt k
  unfold Words.set Words.get bitAt
  by_cases h : nat k < 128
  · rw [if_pos (Nat.div_eq_of_lt h), if_pos (Nat.div_eq_of_lt h)]
    by_cases hn' : n < 128
    · rw [if_pos hn', if_pos hn', hf _ _ hn', Nat.mod_eq_of_lt h]
    · have : n ≠ nat k := by omega
      simp [hn', this, hg]
  · have h0 : ¬ nat k / 128 = 0 := by omega
    rw [if_neg h0, if_neg h0]
    by_cases hn' : n < 128
    · have : n ≠ nat k := by omega
      simp [hn', this, hg]
    · rw [if_neg hn', if_neg hn', hf _ _ (by omega)]
      have e : (n - 128 = nat k % 128) = (n = nat k) := by
        apply propext
        omega
      simp only [e]

theorem bitAt_arraySetBit (v : Words) (k : U 8) (n : Nat) :
    (arraySetBit v k).bitAt n = (v.bitAt n || decide (n = nat k)) := by
  by_cases hn : n < 256
  · refine bitAt_set v k (fun w => w ||| bit k) (· || ·) ?_ (by simp) n hn
    intro w n _
    simp [getLsbD_bit]
  · have h1 : (arraySetBit v k).bitAt n = false := by
      by_contra h; exact hn (bitAt_lt (by simpa using h))
    have h2 : v.bitAt n = false := by by_contra h; exact hn (bitAt_lt (by simpa using h))
    have := nat_lt k
    have h3 : n ≠ nat k := by omega
    simp [h1, h2, h3]

theorem bitAt_unsetBit (s : ByteSet) (k : U 8) (n : Nat) :
    (s.unsetBit k).words.bitAt n = (s.words.bitAt n && !decide (n = nat k)) := by
  by_cases hn : n < 256
  · refine bitAt_set s.words k (fun w => w &&& ~~~ bit k) (fun a b => a && !b) ?_ (by simp) n hn
    intro w n hn
    rw [BitVec.getLsbD_and, BitVec.getLsbD_not, getLsbD_bit]
    simp [hn]
  · have h1 : (s.unsetBit k).words.bitAt n = false := by
      by_contra h; exact hn (bitAt_lt (by simpa using h))
    have h2 : s.words.bitAt n = false := by by_contra h; exact hn (bitAt_lt (by simpa using h))
    simp [h1, h2]

theorem bitAt_zero (n : Nat) : (⟨0#128, 0#128⟩ : Words).bitAt n = false := by
  unfold bitAt; split <;> simp

theorem bitAt_and (m : Words) (s : ByteSet) (n : Nat) :
    (andWords m s).bitAt n = (m.bitAt n && s.words.bitAt n) := by
  unfold bitAt andWords
  split <;> simp

theorem bitAt_maskLower (i : U 8) (n : Nat) : (maskLower i).bitAt n = decide (n < nat i) := by
  have hi := nat_lt i
  simp only [maskLower, bitAt, checkedShr, wordMax]
  by_cases hn : n < 128
  · rw [if_pos hn]
    by_cases h : 128 - nat i < 128
    · rw [if_pos h]
      simp only [Option.getD_some, BitVec.getLsbD_ushiftRight, BitVec.getLsbD_allOnes, decide_eq_decide]
      omega
    · rw [if_neg h]
      have : nat i = 0 := by omega
      simp [this]
  · rw [if_neg hn]
    by_cases h : 256 - nat i < 128
    · rw [if_pos h]
      simp only [Option.getD_some, BitVec.getLsbD_ushiftRight, BitVec.getLsbD_allOnes, decide_eq_decide]
      omega
    · rw [if_neg h]
      have : ¬ n < nat i := by omega
      simp [this]

theorem bitAt_maskHigher (i : U 8) (n : Nat) (hn : n < 256) :
    (maskHigher i).bitAt n = decide (nat i < n) := by
  have hi := nat_lt i
  rw [maskHigher, bitAt, checkedShl, checkedShl, wordMax]
  by_cases hn' : n < 128
  · rw [if_pos hn']
    by_cases h : 1 + nat i < 128
    · rw [if_pos h]
      simp only [Option.getD_some, BitVec.getLsbD_shiftLeft, BitVec.getLsbD_allOnes, hn', decide_true,
        Bool.true_and]
      rw [Bool.eq_iff_iff]
      simp only [Bool.and_eq_true, Bool.not_eq_true', decide_eq_true_eq, decide_eq_false_iff_not]
      omega
    · rw [if_neg h]
      have : ¬ nat i < n := by omega
      simp [this]
  · rw [if_neg hn']
    by_cases h : nat i - 127 < 128
    · rw [if_pos h]
      simp only [Option.getD_some, BitVec.getLsbD_shiftLeft, BitVec.getLsbD_allOnes]
      rw [Bool.eq_iff_iff]
      simp only [Bool.and_eq_true, Bool.not_eq_true', decide_eq_true_eq, decide_eq_false_iff_not]
      omega
    · rw [if_neg h]
      have : ¬ nat i < n := by omega
      simp [this]

theorem countP_range_add (p : Nat → Bool) (a b : Nat) :
    (List.range (a + b)).countP p = (List.range a).countP p + (List.range b).countP (fun i => p (a + i)) := by
  rw [List.range_add, List.countP_append, List.countP_map]
  rfl

theorem arrayLen_eq (v : Words) : arrayLen v = (List.range 256).countP v.bitAt := by
  have h1 : countOnes v.w0 = (List.range 128).countP v.bitAt := by
    apply List.countP_congr
    intro n hn
    rw [List.mem_range] at hn
    rw [bitAt, if_pos hn]
  have h2 : countOnes v.w1 = (List.range 128).countP (fun i => v.bitAt (128 + i)) := by
    apply List.countP_congr
    intro n _
    rw [bitAt, if_neg (by omega), Nat.add_sub_cancel_left]
  rw [arrayLen, h1, h2, ← countP_range_add]

/-- number of set bits below `k` -/
theorem countBelow_eq (s : ByteSet) (k : U 8) : s.countBelow k = (List.range (nat k)).countP s.words.bitAt := by
  obtain ⟨d, hd⟩ : ∃ d, 256 = nat k + d := ⟨256 - nat k, by have := nat_lt k; omega⟩
  rw [countBelow, arrayLen_eq, hd, countP_range_add]
  have h2 : (List.range d).countP (fun i => (andWords (maskLower k) s).bitAt (nat k + i)) = 0 := by
    rw [List.countP_eq_zero]
    intro n _
    simp [bitAt_and, bitAt_maskLower]
  rw [h2, Nat.add_zero]
  apply List.countP_congr
  intro n hn
  rw [List.mem_range] at hn
  simp [bitAt_and, bitAt_maskLower, hn]

theorem arrayLen_zero {v : Words} : arrayLen v = 0 ↔ v = ⟨0#128, 0#128⟩ := by
  rw [arrayLen_eq, List.countP_eq_zero]
  constructor
  · intro h
    by_contra hc
    obtain ⟨n, hn⟩ := words_ne_zero.1 hc
    exact h n (List.mem_range.2 (bitAt_lt hn)) hn
  · rintro rfl n _
    simp [bitAt_zero]

/-! ### lowest and highest -/

theorem trailingZeros_spec {w : Word} (h : w ≠ 0#128) :
    trailingZeros w < 128 ∧ w.getLsbD (trailingZeros w) = true ∧
      ∀ n, w.getLsbD n = true → trailingZeros w ≤ n := by
  obtain ⟨m, hm, hb⟩ := word_ne_zero.1 h
  rcases hf : (List.range 128).find? (fun i => w.getLsbD i) with _ | n
  · exact absurd hb (List.find?_eq_none.1 hf m (List.mem_range.2 hm))
  · rw [trailingZeros, hf, Option.getD_some]
    rw [List.find?_range_eq_some] at hf
    obtain ⟨h1, h2, h3⟩ := hf
    refine ⟨List.mem_range.1 h2, h1, fun j hj => ?_⟩
    by_contra hc
    have := h3 j (by omega)
    simp [hj] at this

theorem leadingZeros_spec {w : Word} (h : w ≠ 0#128) :
    leadingZeros w ≤ 127 ∧ w.getLsbD (127 - leadingZeros w) = true ∧
      ∀ n, w.getLsbD n = true → n ≤ 127 - leadingZeros w := by
  obtain ⟨m, hm, hb⟩ := word_ne_zero.1 h
  rcases hf : (List.range 128).find? (fun i => w.getLsbD (127 - i)) with _ | n
  · have := List.find?_eq_none.1 hf (127 - m) (List.mem_range.2 (by omega))
    rw [show 127 - (127 - m) = m by omega] at this
    exact absurd hb this
  · rw [leadingZeros, hf, Option.getD_some]
    rw [List.find?_range_eq_some] at hf
    obtain ⟨h1, h2, h3⟩ := hf
    rw [List.mem_range] at h2
    refine ⟨by omega, h1, fun j hj => ?_⟩
    by_contra hc
    have hj128 : j < 128 := by
      by_contra hc'
      rw [BitVec.getLsbD_of_ge _ _ (by omega)] at hj
      cases hj
    have := h3 (127 - j) (by omega)
    rw [show 127 - (127 - j) = j by omega] at this
    simp [hj] at this

theorem natLit {n : Nat} (h : n < 256) : nat (U.lit n : U 8) = n := by
  simp [U.lit, nat, Nat.mod_eq_of_lt h]

theorem lowest_ok (s : ByteSet) (h : s.words ≠ ⟨0#128, 0#128⟩) :
    ∃ k, s.lowest = .ok k ∧ s.words.bitAt (nat k) = true ∧ ∀ n, s.words.bitAt n = true → nat k ≤ n := by
  obtain ⟨⟨a, b⟩⟩ := s
  by_cases ha : a = 0#128
  · have hb : b ≠ 0#128 := fun hb => h (by rw [ha, hb])
    obtain ⟨h1, h2, h3⟩ := trailingZeros_spec hb
    refine ⟨U.lit (128 + trailingZeros b), by simp [lowest, ha, hb], ?_⟩
    rw [natLit (by omega)]
    refine ⟨by simpa [bitAt] using h2, fun n hn => ?_⟩
    unfold bitAt at hn
    split at hn
    · simp [ha] at hn
    · have := h3 _ hn
      omega
  · obtain ⟨h1, h2, h3⟩ := trailingZeros_spec ha
    refine ⟨U.lit (trailingZeros a), by simp [lowest, ha], ?_⟩
    rw [natLit (by omega)]
    refine ⟨by simpa [bitAt, h1] using h2, fun n hn => ?_⟩
    unfold bitAt at hn
    split at hn
    · exact h3 _ hn
    · omega

theorem highest_ok (s : ByteSet) (h : s.words ≠ ⟨0#128, 0#128⟩) :
    ∃ k, s.highest = .ok k ∧ s.words.bitAt (nat k) = true ∧ ∀ n, s.words.bitAt n = true → n ≤ nat k := by
  obtain ⟨⟨a, b⟩⟩ := s
  by_cases hb : b = 0#128
  · have ha : a ≠ 0#128 := fun ha => h (by rw [ha, hb])
    obtain ⟨h1, h2, h3⟩ := leadingZeros_spec ha
    refine ⟨U.lit (127 - leadingZeros a), by simp [highest, ha, hb, subUsize, h1], ?_⟩
    rw [natLit (by omega)]
    have h4 : 127 - leadingZeros a < 128 := by omega
    refine ⟨by simpa [bitAt, h4] using h2, fun n hn => ?_⟩
    unfold bitAt at hn
    split at hn
    · exact h3 _ hn
    · simp [hb] at hn
  · obtain ⟨h1, h2, h3⟩ := leadingZeros_spec hb
    have h0 : leadingZeros b ≤ 255 := by omega
    refine ⟨U.lit (255 - leadingZeros b), by simp [highest, hb, subUsize, h0], ?_⟩
    rw [natLit (by omega)]
    have h4 : ¬ 255 - leadingZeros b < 128 := by omega
    have h5 : 255 - leadingZeros b - 128 = 127 - leadingZeros b := by omega
    refine ⟨by simpa [bitAt, h4, h5] using h2, fun n hn => ?_⟩
    unfold bitAt at hn
    split at hn
    · omega
    · have := h3 _ hn
      omega

/-! ### the contents -/

/-- the set of bytes whose bit is set -/
def abs (s : ByteSet) : Map (U 8) Unit := fun k => if s.words.bitAt (nat k) then some () else none

def Inv (s : ByteSet) : Prop := s.words ≠ ⟨0#128, 0#128⟩

theorem mem_abs {s : ByteSet} {k : U 8} : s.abs.Mem k ↔ s.words.bitAt (nat k) = true := by
  simp [Map.mem_iff, abs]

theorem abs_some {s : ByteSet} {k : U 8} : s.abs k = some () ↔ s.words.bitAt (nat k) = true := by
  simp [abs]

theorem abs_eq {s : ByteSet} {M : Map (U 8) Unit} (h : ∀ k, s.words.bitAt (nat k) = true ↔ M.Mem k) :
    s.abs = M := by
  funext k
  have := h k
  rcases hm : M k with _ | u
  · simp only [Map.mem_iff, hm, reduceCtorEq, exists_false, iff_false] at this
    simp [abs, this]
  · have h2 := this.2 (Map.mem_of hm)
    simp [abs, h2]

theorem inv_iff {s : ByteSet} : s.Inv ↔ ∃ k, s.abs.Mem k := by
  rw [Inv, words_ne_zero]
  constructor
  · rintro ⟨n, hn⟩
    exact ⟨U.lit n, mem_abs.2 (by rw [natLit (bitAt_lt hn)]; exact hn)⟩
  · rintro ⟨k, hk⟩
    exact ⟨_, mem_abs.1 hk⟩

theorem of_nat (n : Nat) (hn : n < 256) : ∃ k : U 8, nat k = n := ⟨U.lit n, natLit hn⟩

/-- the elements in ascending order -/
def elems (v : Words) : List (U 8 × Unit) := ((List.range 256).filter v.bitAt).map fun n => (U.lit n, ())

theorem lists (s : ByteSet) : SL.Lists (elems s.words) s.abs := by
  refine ⟨?_, fun k u => ?_⟩
  · refine List.pairwise_map.2 ?_
    refine List.Pairwise.filter _ ?_
    refine List.Pairwise.imp_of_mem ?_ List.pairwise_lt_range
    intro a b ha hb h
    rw [List.mem_range] at ha hb
    show nat _ < nat _
    rw [natLit ha, natLit hb]
    exact h
  · simp only [elems, List.mem_map, List.mem_filter, List.mem_range, Prod.mk.injEq, and_true]
    rw [show s.abs k = some u ↔ s.abs k = some () from Iff.rfl, abs_some]
    constructor
    · rintro ⟨n, ⟨h1, h2⟩, rfl⟩
      rw [natLit h1]
      exact h2
    · intro h
      exact ⟨nat k, ⟨nat_lt k, h⟩, U.ext' (natLit (nat_lt k))⟩

theorem arrayLen_card (s : ByteSet) : arrayLen s.words = s.abs.card := by
  rw [(lists s).card, arrayLen_eq, elems, List.length_map, List.countP_eq_length_filter]

theorem arrayLen_one (s : ByteSet) : arrayLen s.words = 1 ↔ s.abs.IsSingle := by
  rw [← (lists s).length_one, ← (lists s).card, arrayLen_card]

theorem len_ok {s : ByteSet} (I : s.Inv) : s.len = .ok s.abs.card := by
  have h : arrayLen s.words ≠ 0 := fun h => I (arrayLen_zero.1 h)
  simp [len, expect, h, ← arrayLen_card]

theorem isMonad_ok {s : ByteSet} (I : s.Inv) : s.isMonad = .ok (decide (s.abs.card = 1)) := by
  simp [isMonad, len_ok I]

theorem card_one {s : ByteSet} : s.abs.card = 1 ↔ s.abs.IsSingle := by
  rw [← arrayLen_card, arrayLen_one]

theorem abs_setBit (s : ByteSet) (k : U 8) : (s.setBit k).abs = s.abs.upd k (some ()) := by
  apply abs_eq
  intro j
  rw [Map.mem_upd_some, mem_abs]
  show (arraySetBit s.words k).bitAt (nat j) = true ↔ _
  rw [bitAt_arraySetBit]
  simp only [Bool.or_eq_true, decide_eq_true_eq]
  constructor
  · rintro (h | h)
    · exact .inr h
    · exact .inl (U.ext' h)
  · rintro (rfl | h)
    · exact .inr rfl
    · exact .inl h

theorem abs_unsetBit (s : ByteSet) (k : U 8) : (s.unsetBit k).abs = s.abs.upd k none := by
  apply abs_eq
  intro j
  rw [Map.mem_upd_none, mem_abs, bitAt_unsetBit]
  simp only [Bool.and_eq_true, Bool.not_eq_true', decide_eq_false_iff_not]
  constructor
  · rintro ⟨h1, h2⟩
    exact ⟨fun e => h2 (by rw [e]), h1⟩
  · rintro ⟨h1, h2⟩
    exact ⟨h2, fun e => h1 (U.ext' e)⟩

theorem abs_fromMonad (k : U 8) : (fromMonad k ()).abs = Map.single k () := by
  apply abs_eq
  intro j
  rw [Map.mem_single]
  show (arraySetBit ⟨0#128, 0#128⟩ k).bitAt (nat j) = true ↔ _
  rw [bitAt_arraySetBit, bitAt_zero]
  simp only [Bool.false_or, decide_eq_true_eq]
  exact ⟨U.ext', fun e => by rw [e]⟩

theorem min_ok {s : ByteSet} (I : s.Inv) : ∃ k, s.lowest = .ok k ∧ s.abs.IsMin (k, ()) := by
  obtain ⟨k, h1, h2, h3⟩ := lowest_ok s I
  exact ⟨k, h1, abs_some.2 h2, fun j hj => h3 _ (mem_abs.1 hj)⟩

theorem max_ok {s : ByteSet} (I : s.Inv) : ∃ k, s.highest = .ok k ∧ s.abs.IsMax (k, ()) := by
  obtain ⟨k, h1, h2, h3⟩ := highest_ok s I
  exact ⟨k, h1, abs_some.2 h2, fun j hj => h3 _ (mem_abs.1 hj)⟩

theorem lower_bit (s : ByteSet) (k : U 8) (n : Nat) :
    (andWords (maskLower k) s).bitAt n = true ↔ n < nat k ∧ s.words.bitAt n = true := by
  rw [bitAt_and, bitAt_maskLower]
  simp

theorem higher_bit (s : ByteSet) (k : U 8) (n : Nat) :
    (andWords (maskHigher k) s).bitAt n = true ↔ nat k < n ∧ s.words.bitAt n = true := by
  rw [bitAt_and]
  constructor
  · intro h
    rw [Bool.and_eq_true] at h
    rw [bitAt_maskHigher _ _ (bitAt_lt h.2)] at h
    simpa using h
  · intro h
    rw [bitAt_maskHigher _ _ (bitAt_lt h.2)]
    simpa using h

/-- `predecessor` before wrapping -/
theorem pred_cases (s : ByteSet) (k : U 8) :
    (fromArray (andWords (maskLower k) s) = none ∧ s.abs.IsPred k none) ∨
    ∃ v j, fromArray (andWords (maskLower k) s) = some v ∧ v.highest = .ok j ∧
      s.abs.IsPred k (some (j, ())) := by
  by_cases h : andWords (maskLower k) s = ⟨0#128, 0#128⟩
  · left
    refine ⟨by simp [fromArray, h], fun j hj hlt => ?_⟩
    have := (lower_bit s k (nat j)).2 ⟨hlt, mem_abs.1 hj⟩
    rw [h, bitAt_zero] at this
    cases this
  · right
    obtain ⟨j, h1, h2, h3⟩ := highest_ok ⟨andWords (maskLower k) s⟩ h
    have h2' := (lower_bit s k _).1 h2
    exact ⟨_, j, by rw [fromArray, if_neg h], h1, abs_some.2 h2'.2, h2'.1,
      fun i hi hlt => h3 _ ((lower_bit s k _).2 ⟨hlt, mem_abs.1 hi⟩)⟩

theorem succ_cases (s : ByteSet) (k : U 8) :
    (fromArray (andWords (maskHigher k) s) = none ∧ s.abs.IsSucc k none) ∨
    ∃ v j, fromArray (andWords (maskHigher k) s) = some v ∧ v.lowest = .ok j ∧
      s.abs.IsSucc k (some (j, ())) := by
  by_cases h : andWords (maskHigher k) s = ⟨0#128, 0#128⟩
  · left
    refine ⟨by simp [fromArray, h], fun j hj hlt => ?_⟩
    have := (higher_bit s k (nat j)).2 ⟨hlt, mem_abs.1 hj⟩
    rw [h, bitAt_zero] at this
    cases this
  · right
    obtain ⟨j, h1, h2, h3⟩ := lowest_ok ⟨andWords (maskHigher k) s⟩ h
    have h2' := (higher_bit s k _).1 h2
    exact ⟨_, j, by rw [fromArray, if_neg h], h1, abs_some.2 h2'.2, h2'.1,
      fun i hi hlt => h3 _ ((higher_bit s k _).2 ⟨hlt, mem_abs.1 hi⟩)⟩

theorem put_ok {s : ByteSet} (I : s.Inv) {k : U 8} (h : s.abs.Mem k) : PutOk Inv abs s k (fun _ => s) := by
  intro _
  refine ⟨I, ?_⟩
  obtain ⟨⟨⟩, hv⟩ := Map.mem_iff.1 h
  funext j
  rw [Map.upd_apply]
  split
  · rename_i e; rw [e, hv]
  · rfl

theorem single_of_mem {s : ByteSet} {k : U 8} (hs : s.abs.IsSingle) (h : s.abs.Mem k) :
    s.abs.upd k none = Map.empty := by
  obtain ⟨j, _, hu⟩ := hs
  funext i
  rw [Map.upd_apply]
  split
  · rfl
  · rename_i hne
    by_contra hc
    exact hne ((hu i hc).trans (hu k h).symm)

theorem unset_ok {s : ByteSet} {k : U 8} (hs : ¬ s.abs.IsSingle) (h : s.abs.Mem k) :
    RemOk Inv abs (s.abs.upd k none) (some (s.unsetBit k)) := by
  refine ⟨?_, abs_unsetBit s k⟩
  rw [inv_iff, abs_unsetBit]
  by_contra hc
  push Not at hc
  exact hs ⟨k, h, fun j hj => by
    by_contra hne
    exact hc j ((Map.mem_upd_none _ _ _).2 ⟨hne, hj⟩)⟩

instance : LawfulVebTree ByteSet (U 8) Unit where
  Inv := Inv
  abs := abs
  Safe _ _ := True
  nonempty s I := inv_iff.1 I
  finite s I := (lists s).finite
  fromMonad k v := by
    have := abs_fromMonad k
    refine ⟨?_, this⟩
    rw [inv_iff]
    exact ⟨k, by rw [show (VebTree.fromMonad k v : ByteSet).abs = _ from this]; exact (Map.mem_single _ _ _).2 rfl⟩
  isMonad s I := ⟨_, isMonad_ok I, by rw [decide_eq_true_eq, card_one]⟩
  lenHint s I := by
    refine ⟨_, some s.abs.card, ?_, le_rfl, ?_⟩
    · show lenHint s = _
      simp [lenHint, len_ok I]
    · rintro _ ⟨⟩; rfl
  intoMonad s I := by
    obtain ⟨k, h1, h2⟩ := min_ok I
    by_cases h : s.abs.IsSingle
    · left
      refine ⟨k, (), ?_, ?_⟩
      · show intoMonad s = _
        simp [intoMonad, isMonad_ok I, card_one.2 h, h1]
      · refine Map.eq_single h2.1 fun j hj => ?_
        obtain ⟨i, _, hu⟩ := h
        rw [hu j hj, hu k (Map.mem_of h2.1)]
    · right
      refine ⟨?_, h⟩
      show intoMonad s = _
      simp [intoMonad, isMonad_ok I, mt card_one.1 h]
  minVal s I := by
    obtain ⟨k, h1, h2⟩ := min_ok I
    exact ⟨_, by show minVal s = _; simp [minVal, h1], h2⟩
  minValMut s I := by
    obtain ⟨k, h1, h2⟩ := min_ok I
    exact ⟨_, by show minValMut s = _; simp [minValMut, h1]; rfl, h2, put_ok I (Map.mem_of h2.1)⟩
  maxVal s I := by
    obtain ⟨k, h1, h2⟩ := max_ok I
    exact ⟨_, by show maxVal s = _; simp [maxVal, h1], h2⟩
  maxValMut s I := by
    obtain ⟨k, h1, h2⟩ := max_ok I
    exact ⟨_, by show maxValMut s = _; simp [maxValMut, h1]; rfl, h2, put_ok I (Map.mem_of h2.1)⟩
  find s k I := by
    show find s k = _
    simp only [find, isPresent_eq, abs]
    split <;> rfl
  findMut s k I := by
    by_cases h : s.words.bitAt (nat k) = true
    · refine ⟨_, by show findMut s k = _; simp [findMut, isPresent_eq, h]; rfl, ?_, ?_⟩
      · simp [abs, h]
      · rintro _ _ _ ⟨⟩
        exact put_ok I (mem_abs.2 h)
    · refine ⟨none, by show findMut s k = _; simp [findMut, isPresent_eq, h], ?_, ?_⟩
      · simp [abs, h]
      · simp
  predecessor s k I := by
    rcases pred_cases s k with ⟨h1, h2⟩ | ⟨v, j, h1, h2, h3⟩
    · exact ⟨_, by show predecessor s k = _; simp [predecessor, h1], h2⟩
    · exact ⟨_, by show predecessor s k = _; simp [predecessor, h1, h2], h3⟩
  predecessorMut s k I := by
    rcases pred_cases s k with ⟨h1, h2⟩ | ⟨v, j, h1, h2, h3⟩
    · exact ⟨none, by show predecessorMut s k = _; simp [predecessorMut, h1], h2, by simp⟩
    · refine ⟨some (j, (), fun _ => s), by show predecessorMut s k = _; simp [predecessorMut, h1, h2], h3, ?_⟩
      rintro _ _ _ ⟨⟩
      exact put_ok I (Map.mem_of h3.1)
  successor s k I := by
    rcases succ_cases s k with ⟨h1, h2⟩ | ⟨v, j, h1, h2, h3⟩
    · exact ⟨_, by show successor s k = _; simp [successor, h1], h2⟩
    · exact ⟨_, by show successor s k = _; simp [successor, h1, h2], h3⟩
  successorMut s k I := by
    rcases succ_cases s k with ⟨h1, h2⟩ | ⟨v, j, h1, h2, h3⟩
    · exact ⟨none, by show successorMut s k = _; simp [successorMut, h1], h2, by simp⟩
    · refine ⟨some (j, (), fun _ => s), by show successorMut s k = _; simp [successorMut, h1, h2], h3, ?_⟩
      rintro _ _ _ ⟨⟩
      exact put_ok I (Map.mem_of h3.1)
  insert s k v I _ := by
    by_cases h : s.words.bitAt (nat k) = true
    · refine ⟨s, ?_, I, (put_ok I (mem_abs.2 h) v).2⟩
      show insert s k v = _
      simp [insert, isPresent_eq, h, abs]
    · refine ⟨s.setBit k, ?_, ?_, abs_setBit s k⟩
      · show insert s k v = _
        simp [insert, isPresent_eq, h, abs]
      · rw [inv_iff, abs_setBit]
        exact ⟨k, by simp [Map.mem_upd_some]⟩
  remove_none s k I h := by
    show remove s k = _
    have : s.words.bitAt (nat k) = false := by simpa [abs] using h
    simp [remove, isPresent_eq, this]
  remove_some s k v I h := by
    have hb : s.words.bitAt (nat k) = true := abs_some.1 h
    by_cases hs : s.abs.IsSingle
    · refine ⟨none, ?_, single_of_mem hs (Map.mem_of h)⟩
      show remove s k = _
      simp [remove, isPresent_eq, hb, isMonad_ok I, card_one.2 hs]
    · refine ⟨_, ?_, unset_ok hs (Map.mem_of h)⟩
      show remove s k = _
      simp [remove, isPresent_eq, hb, isMonad_ok I, mt card_one.1 hs]
  removeMin s I := by
    obtain ⟨k, h1, h2⟩ := min_ok I
    by_cases hs : s.abs.IsSingle
    · refine ⟨none, (k, ()), ?_, h2, single_of_mem hs (Map.mem_of h2.1)⟩
      show removeMin s = _
      simp [removeMin, h1, isMonad_ok I, card_one.2 hs]
    · refine ⟨_, (k, ()), ?_, h2, unset_ok hs (Map.mem_of h2.1)⟩
      show removeMin s = _
      simp [removeMin, h1, isMonad_ok I, mt card_one.1 hs]
  removeMax s I := by
    obtain ⟨k, h1, h2⟩ := max_ok I
    by_cases hs : s.abs.IsSingle
    · refine ⟨none, (k, ()), ?_, h2, single_of_mem hs (Map.mem_of h2.1)⟩
      show removeMax s = _
      simp [removeMax, h1, isMonad_ok I, card_one.2 hs]
    · refine ⟨_, (k, ()), ?_, h2, unset_ok hs (Map.mem_of h2.1)⟩
      show removeMax s = _
      simp [removeMax, h1, isMonad_ok I, mt card_one.1 hs]

instance : MonoSafe ByteSet (U 8) Unit := ⟨fun _ _ _ _ => trivial, fun _ _ _ _ _ => trivial⟩

end ByteSet
end Veb
