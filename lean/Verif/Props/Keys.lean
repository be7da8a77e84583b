import Verif.Proof.KeyProps

/-!
# Properties of the key types: C01 – C07

Vocabulary: `Verif/SpecKey.lean`.  The statements use only the key API of the model (`splitVal`,
`splitRef`, `join`, `index`, `cmp`).
-/

set_option autoImplicit false

namespace Veb.Props
open VebKey (splitVal join)

/-! ## C01 integer keys: split and join are inverse -/

/-- **C01.** For every integer key type, `join` undoes `split_val` and `split_val` undoes `join`, for all
keys and all halves.  The halves of `u8` and `i8` are `U4`s, which hold values up to 15 (C05). -/
theorem C01_integer_keys_roundtrip :
    InverseOn (U 8) (fun _ => True) U4Ok U4Ok ∧ Inverse (U 16) ∧ Inverse (U 32) ∧ Inverse (U 64) ∧
    Inverse (U 128) ∧
    InverseOn (S 8) (fun _ => True) U4Ok U4Ok ∧ Inverse (S 16) ∧ Inverse (S 32) ∧ Inverse (S 64) ∧
    Inverse (S 128) := by
  have h16 : Inverse (U 16) := inverse_of_nat rfl (fun _ => rfl) (fun _ _ => rfl)
  have h32 : Inverse (U 32) := inverse_of_nat rfl (fun _ => rfl) (fun _ _ => rfl)
  have h64 : Inverse (U 64) := inverse_of_nat rfl (fun _ => rfl) (fun _ _ => rfl)
  have h128 : Inverse (U 128) := inverse_of_nat rfl (fun _ => rfl) (fun _ _ => rfl)
  exact ⟨inverseOn_u8, h16, h32, h64, h128, inverseOn_i8,
    inverse_signed (by decide) (fun _ => rfl) (fun _ _ => rfl) h16,
    inverse_signed (by decide) (fun _ => rfl) (fun _ _ => rfl) h32,
    inverse_signed (by decide) (fun _ => rfl) (fun _ _ => rfl) h64,
    inverse_signed (by decide) (fun _ => rfl) (fun _ _ => rfl) h128⟩

/-- The two halves of a key are really its high and low digits. -/
example : splitVal (U.lit 0x1234 : U 16) = (U.lit 0x12, U.lit 0x34) := by decide
/-- The hypotheses of the `u8` case are met by, e.g., the halves 15 and 0. -/
example : U4Ok (U4.ofU8 (U.lit 15)) ∧ U4Ok (U4.ofU8 (U.lit 0)) := by unfold U4Ok; decide

/-! ## C02 integer keys: splitting preserves the order -/

/-- **C02.** For every integer key type and all `a`, `b`: `a.cmp(b)` is the lexicographic comparison of
the halves. -/
theorem C02_integer_keys_order :
    OrderPreserving (U 8) ∧ OrderPreserving (U 16) ∧ OrderPreserving (U 32) ∧ OrderPreserving (U 64) ∧
    OrderPreserving (U 128) ∧
    OrderPreserving (S 8) ∧ OrderPreserving (S 16) ∧ OrderPreserving (S 32) ∧ OrderPreserving (S 64) ∧
    OrderPreserving (S 128) :=
  ⟨orderPreserving _, orderPreserving _, orderPreserving _, orderPreserving _, orderPreserving _,
   orderPreserving _, orderPreserving _, orderPreserving _, orderPreserving _, orderPreserving _⟩

/-- The order compared is the numeric one: unsigned for `U`, signed for `S`. -/
theorem C02_numeric_order (w : Nat) :
    (∀ a b : U w, a < b ↔ a.bits.toNat < b.bits.toNat) ∧
    (∀ a b : S w, a < b ↔ a.bits.toInt < b.bits.toInt) :=
  ⟨fun _ _ => Iff.rfl, fun _ _ => Iff.rfl⟩

/-- -1 < 0 although its bit pattern is greater; the halves are ordered accordingly. -/
example : (⟨-1⟩ : S 16) < ⟨0⟩ ∧ (splitVal (⟨-1⟩ : S 16)).1 < (splitVal (⟨0⟩ : S 16)).1 := by decide

/-! ## C03 array keys -/

/-- **C03.** Over every totally ordered element type, the array keys of each supported length split and
join inversely and in lexicographic order. -/
theorem C03_array_keys (T : Type) [LinearOrder T] :
    (Inverse (Arr T 2) ∧ OrderPreserving (Arr T 2)) ∧ (Inverse (Arr T 3) ∧ OrderPreserving (Arr T 3)) ∧
    (Inverse (Arr T 4) ∧ OrderPreserving (Arr T 4)) ∧ (Inverse (Arr T 5) ∧ OrderPreserving (Arr T 5)) ∧
    (Inverse (Arr T 6) ∧ OrderPreserving (Arr T 6)) ∧ (Inverse (Arr T 7) ∧ OrderPreserving (Arr T 7)) ∧
    (Inverse (Arr T 8) ∧ OrderPreserving (Arr T 8)) ∧ (Inverse (Arr T 16) ∧ OrderPreserving (Arr T 16)) :=
  ⟨⟨inverse_arr2, orderPreserving _⟩, ⟨inverse_arr3, orderPreserving _⟩, ⟨inverse_arr4, orderPreserving _⟩,
   ⟨inverse_arr5, orderPreserving _⟩, ⟨inverse_arr6, orderPreserving _⟩, ⟨inverse_arr7, orderPreserving _⟩,
   ⟨inverse_arr8, orderPreserving _⟩, ⟨inverse_arr16, orderPreserving _⟩⟩

/-- A concrete split: `[1,2,3]` into `1` and `[2,3]`. -/
example : splitVal (⟨[1, 2, 3], rfl⟩ : Arr Nat 3) = (1, ⟨[2, 3], rfl⟩) := by decide
example : (⟨[1, 2, 3], rfl⟩ : Arr Nat 3) < ⟨[1, 3, 0], rfl⟩ := by decide

/-! ## C04 splitting by reference -/

/-- **C04.** `split_ref` shows the closure exactly the pair `split_val` returns, for every key type. -/
theorem C04_split_ref_agrees (T : Type) [LinearOrder T] :
    RefAgrees Unit ∧
    (RefAgrees (U 8) ∧ RefAgrees (U 16) ∧ RefAgrees (U 32) ∧ RefAgrees (U 64) ∧ RefAgrees (U 128)) ∧
    (RefAgrees (S 8) ∧ RefAgrees (S 16) ∧ RefAgrees (S 32) ∧ RefAgrees (S 64) ∧ RefAgrees (S 128)) ∧
    (RefAgrees U4 ∧ RefAgrees U2) ∧
    (RefAgrees (Arr T 2) ∧ RefAgrees (Arr T 3) ∧ RefAgrees (Arr T 4) ∧ RefAgrees (Arr T 5) ∧
     RefAgrees (Arr T 6) ∧ RefAgrees (Arr T 7) ∧ RefAgrees (Arr T 8) ∧ RefAgrees (Arr T 16)) := by
  refine ⟨?_, ⟨?_, ?_, ?_, ?_, ?_⟩, ⟨?_, ?_, ?_, ?_, ?_⟩, ⟨?_, fun _ => rfl⟩, ?_, ?_, ?_, ?_, ?_, ?_, ?_, ?_⟩ <;>
    exact LawfulVebKey.ref_eq

/-! ## C05 `U4` and `U2` stay in range -/

/-- **C05 (range).** Every `U4` (`U2`) a user can obtain holds at most 15 (at most 3). -/
theorem C05_range : (∀ x, ReachU4 x → x.val.bits.toNat ≤ 15) ∧ (∀ x, ReachU2 x → x.val.bits.toNat ≤ 3) :=
  ⟨fun _ h => h.ok, fun _ h => h.ok⟩

/-- **C05 (conversion).** Converting a `u8` keeps the low bits. -/
theorem C05_low_bits (x : U 8) :
    (U4.ofU8 x).val.bits.toNat = x.bits.toNat % 16 ∧ (U2.ofU8 x).val.bits.toNat = x.bits.toNat % 4 :=
  ⟨U4.ofU8_toNat x, U2.ofU8_toNat x⟩

/-- **C05 (inverse and order).** On values in range, the splits and joins of `u8`, `U4` and `U2` are
inverse and preserve the order. -/
theorem C05_split_join :
    InverseOn (U 8) (fun _ => True) U4Ok U4Ok ∧ OrderPreserving (U 8) ∧
    InverseOn U4 U4Ok U2Ok U2Ok ∧ OrderPreserving U4 ∧
    InverseOn U2 U2Ok (fun _ => True) (fun _ => True) ∧
    (∀ a b : U2, U2Ok a → U2Ok b → cmp a b = lexCmp (splitVal a) (splitVal b)) :=
  ⟨inverseOn_u8, orderPreserving _, inverseOn_u4, orderPreserving _, inverseOn_u2,
   fun _ _ => lexCmp_u2⟩

/-- A reachable, non-trivial `U4`: `U4::from(0xAB) << 1` is `0x6`. -/
example : ∃ x, ReachU4 x ∧ x.val.bits.toNat = 6 :=
  ⟨U4.ofU8 (U.lit 6), .shl 1 (.ofU8 (U.lit 0xAB)) (by decide), by decide⟩
/-- All sixteen values are reachable, so the bound 15 is the best possible. -/
example : ∃ x, ReachU4 x ∧ x.val.bits.toNat = 15 := ⟨_, .ofU8 (U.lit 0xFF), by decide⟩
example : ∃ x, ReachU2 x ∧ x.val.bits.toNat = 3 := ⟨_, .hi (.ofU8 (U.lit 0xFF)), by decide⟩

/-! ## C06 the index of a sized key -/

/-- The full claim of C06: every `SizedVebKey` type has indices below `Cardinality`, without collisions. -/
def C06_full : Prop :=
  IndexOk Unit (fun _ => True) ∧ IndexOk U2 U2Ok ∧ IndexOk U4 U4Ok ∧
  IndexOk (U 8) (fun _ => True) ∧ IndexOk (U 16) (fun _ => True) ∧ IndexOk (U 32) (fun _ => True) ∧
  IndexOk (U 64) (fun _ => True) ∧
  IndexOk (S 8) (fun _ => True) ∧ IndexOk (S 16) (fun _ => True) ∧ IndexOk (S 32) (fun _ => True) ∧
  IndexOk (S 64) (fun _ => True)

/-- **C06, the part that holds**: `()`, `U2`, `U4`, all unsigned integers, `i64`; missing: `i8`, `i16` and
`i32`, which are refuted by `C06_refuted` and described exactly by `C06_signed_index`. -/
theorem C06_index_partial :
    IndexOk Unit (fun _ => True) ∧ IndexOk U2 U2Ok ∧ IndexOk U4 U4Ok ∧
    IndexOk (U 8) (fun _ => True) ∧ IndexOk (U 16) (fun _ => True) ∧ IndexOk (U 32) (fun _ => True) ∧
    IndexOk (U 64) (fun _ => True) ∧ IndexOk (S 64) (fun _ => True) := by
  refine ⟨⟨fun _ _ => Nat.one_pos, fun _ _ _ _ _ => rfl⟩,
    ⟨fun k hk => Nat.lt_succ_of_le hk, fun a b _ _ h => U2.val_inj (U.ext' h)⟩,
    ⟨fun k hk => Nat.lt_succ_of_le hk, fun a b _ _ h => U4.val_inj (U.ext' h)⟩,
    ⟨fun k _ => k.toNat_lt, fun a b _ _ h => U.ext' h⟩,
    ⟨fun k _ => k.toNat_lt, fun a b _ _ h => U.ext' h⟩,
    ⟨fun k _ => k.toNat_lt, fun a b _ _ h => U.ext' h⟩,
    ⟨fun k _ => k.toNat_lt, fun a b _ _ h => U.ext' h⟩,
    indexOk_i64⟩

/-- **C06 refuted** for `i8`, `i16` and `i32`: the index of 0 is out of bounds. -/
theorem C06_refuted :
    ¬ IndexOk (S 8) (fun _ => True) ∧ ¬ IndexOk (S 16) (fun _ => True) ∧ ¬ IndexOk (S 32) (fun _ => True) := by
  refine ⟨fun h => absurd (h.1 ⟨0⟩ trivial) ?_, fun h => absurd (h.1 ⟨0⟩ trivial) ?_,
    fun h => absurd (h.1 ⟨0⟩ trivial) ?_⟩ <;> decide

/-- The full claim is false of the code. -/
theorem C06_full_refuted : ¬ C06_full := fun h => C06_refuted.1 h.2.2.2.2.2.2.2.1

/-- **C06, exactly when** the index of an `i8`, `i16` or `i32` is in bounds: for the negative keys, and then
it is the distance from `MIN`. -/
theorem C06_signed_index :
    (∀ x : S 8, SizedVebKey.index x < SizedVebKey.cardinality (S 8) ↔ x.bits.toInt < 0) ∧
    (∀ x : S 16, SizedVebKey.index x < SizedVebKey.cardinality (S 16) ↔ x.bits.toInt < 0) ∧
    (∀ x : S 32, SizedVebKey.index x < SizedVebKey.cardinality (S 32) ↔ x.bits.toInt < 0) ∧
    (∀ x : S 8, x.bits.toInt < 0 → (SizedVebKey.index x : Int) = x.bits.toInt - (-2 ^ 7)) ∧
    (∀ x : S 16, x.bits.toInt < 0 → (SizedVebKey.index x : Int) = x.bits.toInt - (-2 ^ 15)) ∧
    (∀ x : S 32, x.bits.toInt < 0 → (SizedVebKey.index x : Int) = x.bits.toInt - (-2 ^ 31)) := by
  have key : ∀ {w : Nat} (hw : 0 < w) (_ : w ≤ 32) (x : S w), x.indexWrap < 2 ^ w ↔ x.bits.toInt < 0 := by
    intro w hw hw' x
    constructor
    · intro h
      by_contra hn
      have h1 := S.indexWrap_nonneg hw (by omega) x (by omega)
      have h2 : (2:Nat) ^ w ≤ 2 ^ 32 := Nat.pow_le_pow_right (by decide) hw'
      have h3 : (2:Nat) ^ (w - 1) ≤ 2 ^ 32 := Nat.pow_le_pow_right (by decide) (by omega)
      omega
    · intro h
      have h1 := S.indexWrap_neg hw (by omega) x h
      have h2 : (2:Nat) ^ (w - 1) ≤ 2 ^ w := Nat.pow_le_pow_right (by decide) (by omega)
      have e : (((2 : Nat) ^ (w - 1) : Nat) : Int) = (2 : Int) ^ (w - 1) := by push_cast; rfl
      omega
  refine ⟨key (by decide) (by decide), key (by decide) (by decide), key (by decide) (by decide),
    fun x h => ?_, fun x h => ?_, fun x h => ?_⟩
  · have := S.indexWrap_neg (by decide) (by decide) x h
    rw [show SizedVebKey.index x = x.indexWrap from rfl, this]; norm_num
  · have := S.indexWrap_neg (by decide) (by decide) x h
    rw [show SizedVebKey.index x = x.indexWrap from rfl, this]; norm_num
  · have := S.indexWrap_neg (by decide) (by decide) x h
    rw [show SizedVebKey.index x = x.indexWrap from rfl, this]; norm_num

/-- Concrete indices: `i8::MIN` has index 0 and -1 has index 127; 0 has index 2^64 - 128. -/
example : SizedVebKey.index (⟨-128⟩ : S 8) = 0 ∧ SizedVebKey.index (⟨-1⟩ : S 8) = 127 ∧
    SizedVebKey.index (⟨0⟩ : S 8) = 2 ^ 64 - 128 := by decide

/-! ## C07 the constant `CARDINALITY` -/

/-- The full claim of C07. -/
def C07_full : Prop :=
  ∀ c ∈ [(SizedVebKey.cardinalityConst Unit, SizedVebKey.cardinality Unit),
         (SizedVebKey.cardinalityConst U2, SizedVebKey.cardinality U2),
         (SizedVebKey.cardinalityConst U4, SizedVebKey.cardinality U4),
         (SizedVebKey.cardinalityConst (U 8), SizedVebKey.cardinality (U 8)),
         (SizedVebKey.cardinalityConst (U 16), SizedVebKey.cardinality (U 16)),
         (SizedVebKey.cardinalityConst (U 32), SizedVebKey.cardinality (U 32)),
         (SizedVebKey.cardinalityConst (U 64), SizedVebKey.cardinality (U 64)),
         (SizedVebKey.cardinalityConst (S 8), SizedVebKey.cardinality (S 8)),
         (SizedVebKey.cardinalityConst (S 16), SizedVebKey.cardinality (S 16)),
         (SizedVebKey.cardinalityConst (S 32), SizedVebKey.cardinality (S 32)),
         (SizedVebKey.cardinalityConst (S 64), SizedVebKey.cardinality (S 64))], c.1 = c.2

/-- **C07, the part that holds**: the constant is right for `()` only; every other type is refuted by
`C07_refuted`. -/
theorem C07_cardinality_partial : SizedVebKey.cardinalityConst Unit = SizedVebKey.cardinality Unit := rfl

/-- **C07 refuted** for every type but `()`: the constant is one less than the number of values, and for
`i16` and `i32` it is `usize::MAX`. -/
theorem C07_refuted :
    SizedVebKey.cardinalityConst U2 + 1 = SizedVebKey.cardinality U2 ∧
    SizedVebKey.cardinalityConst U4 + 1 = SizedVebKey.cardinality U4 ∧
    SizedVebKey.cardinalityConst (U 8) + 1 = SizedVebKey.cardinality (U 8) ∧
    SizedVebKey.cardinalityConst (U 16) + 1 = SizedVebKey.cardinality (U 16) ∧
    SizedVebKey.cardinalityConst (U 32) + 1 = SizedVebKey.cardinality (U 32) ∧
    SizedVebKey.cardinalityConst (U 64) + 1 = SizedVebKey.cardinality (U 64) ∧
    SizedVebKey.cardinalityConst (S 8) + 1 = SizedVebKey.cardinality (S 8) ∧
    SizedVebKey.cardinalityConst (S 64) + 1 = SizedVebKey.cardinality (S 64) ∧
    SizedVebKey.cardinalityConst (S 16) = 2 ^ 64 - 1 ∧ SizedVebKey.cardinality (S 16) = 2 ^ 16 ∧
    SizedVebKey.cardinalityConst (S 32) = 2 ^ 64 - 1 ∧ SizedVebKey.cardinality (S 32) = 2 ^ 32 := by
  decide

theorem C07_full_refuted : ¬ C07_full := by unfold C07_full; decide

/-- The type-level `Cardinality` is the number of values, so it is the constant that is wrong. -/
theorem C07_cardinality_counts :
    Nat.card (U 8) = SizedVebKey.cardinality (U 8) ∧ Nat.card (U 16) = SizedVebKey.cardinality (U 16) ∧
    Nat.card (U 32) = SizedVebKey.cardinality (U 32) ∧ Nat.card (U 64) = SizedVebKey.cardinality (U 64) ∧
    Nat.card (S 8) = SizedVebKey.cardinality (S 8) ∧ Nat.card (S 16) = SizedVebKey.cardinality (S 16) ∧
    Nat.card (S 32) = SizedVebKey.cardinality (S 32) ∧ Nat.card (S 64) = SizedVebKey.cardinality (S 64) ∧
    Nat.card { x : U4 // U4Ok x } = SizedVebKey.cardinality U4 ∧
    Nat.card { x : U2 // U2Ok x } = SizedVebKey.cardinality U2 :=
  ⟨card_U 8, card_U 16, card_U 32, card_U 64, card_S 8, card_S 16, card_S 32, card_S 64, card_U4, card_U2⟩

end Veb.Props
