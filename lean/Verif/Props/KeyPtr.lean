import Verif.Proof.KeyPtr
import Verif.Props.NoPanic

/-!
# C45: sized keys and arrays on every target

`SizedVebKey` is implemented under `cfg(target_pointer_width = …)` conditions.  C06, C07, C14 and C25 look at the 64-bit
target; here the width of `usize` is 16, 32, 64 or 128 bits.  `P.has w` is the `cfg` condition.
-/

set_option autoImplicit false

namespace Veb.Props

open Ptr

/-- The full claim of C45: on every target each integer with a `SizedVebKey` implementation has distinct indices below
the length of an array (`Cardinality::USIZE`), and that length is `CARDINALITY`. -/
def C45_full : Prop :=
  ∀ (P : Ptr) (w : Nat), P.has w →
    (@IndexOk (U w) (P.seen (P.sizedU w)) (fun _ => True) ∧ @IndexOk (S w) (P.seen (P.sizedS w)) (fun _ => True)) ∧
    (P.typenumUsize (2 ^ w) = (P.sizedU w).cardinalityConst ∧ P.typenumUsize (2 ^ w) = (P.sizedS w).cardinalityConst)

/-- **C45, indices of the unsigned integers**: on every target where they are implemented the index is the value, distinct
for distinct keys and below `Cardinality` (not always below the length of an array, see `C45_length`). -/
theorem C45_unsigned (P : Ptr) (w : Nat) (h : P.has w) :
    @IndexOk (U w) (P.sizedU w) (fun _ => True) ∧ ∀ x : U w, (P.sizedU w).index x = x.bits.toNat := by
  have e : ∀ x : U w, (P.sizedU w).index x = x.bits.toNat := asUsize_eq (has_le h)
  exact ⟨⟨fun k _ => (e k).trans_lt k.toNat_lt, fun a b _ _ hab => U.ext' ((e a).symm.trans (hab.trans (e b)))⟩, e⟩

/-- **C45, indices of the signed integers**: the contract holds exactly if the integer is as wide as `usize`. -/
theorem C45_signed (P : Ptr) (w : Nat) (h : P.has w) :
    @IndexOk (S w) (P.sizedS w) (fun _ => True) ↔ w = P.bits := by
  have hw := has_pos h
  have hle := has_le h
  constructor
  · intro hi
    by_contra hne
    have h1 := hi.1 ⟨0⟩ trivial
    have h2 := indexS_nonneg (P := P) hw (by omega) (⟨0#w⟩ : S w) (by simp)
    have h3 : P.asUsizeS (wrappingSub (⟨0#w⟩ : S w) S.MIN) < 2 ^ w := h1
    obtain ⟨n, rfl⟩ : ∃ n, w = n + 1 := ⟨w - 1, by omega⟩
    have h4 : (2:Nat) ^ (n + 1 + 1) ≤ 2 ^ P.bits := Nat.pow_le_pow_right (by decide) (by omega)
    have e : (((2 : Nat) ^ n : Nat) : Int) = (2 : Int) ^ n := by push_cast; rfl
    have e' : (((2 : Nat) ^ P.bits : Nat) : Int) = (2 : Int) ^ P.bits := by push_cast; rfl
    have h5 : 0 < 2 ^ n := Nat.pow_pos (by decide)
    simp only [Nat.add_sub_cancel, BitVec.toInt_zero] at h2
    rw [pow_succ, pow_succ] at h4
    rw [pow_succ] at h3
    omega
  · rintro rfl
    have e : ∀ x : S P.bits, (P.sizedS P.bits).index x = (x.absDiff S.MIN).bits.toNat := fun x => indexS_full x hw
    refine ⟨fun k _ => (e k).trans_lt (k.absDiff S.MIN).toNat_lt, fun a b _ _ hab => ?_⟩
    have := U.ext' ((e a).symm.trans (hab.trans (e b)))
    rw [← S.ofU_absDiff hw a, ← S.ofU_absDiff hw b, this]

/-- **C45, exactly which signed keys are in bounds**: on a target with a wider `usize` the negative ones, whose index is
the distance from `MIN`; the indices of the others lie at the far end of the `usize` range.  All indices are distinct. -/
theorem C45_signed_index (P : Ptr) (w : Nat) (h : P.has w) (hlt : w < P.bits) (x : S w) :
    ((P.sizedS w).index x < 2 ^ w ↔ x.bits.toInt < 0) ∧
    (x.bits.toInt < 0 → ((P.sizedS w).index x : Int) = 2 ^ (w - 1) + x.bits.toInt) ∧
    (0 ≤ x.bits.toInt → ((P.sizedS w).index x : Int) = 2 ^ P.bits - 2 ^ (w - 1) + x.bits.toInt) ∧
    (∀ y, (P.sizedS w).index x = (P.sizedS w).index y → x = y) := by
  have hw := has_pos h
  have hle := has_le h
  have hn := fun (x : S w) hx => indexS_neg (P := P) hw hle x hx
  have hp := fun (x : S w) hx => indexS_nonneg (P := P) hw hlt x hx
  have hd : ∀ x : S w, (P.sizedS w).index x = P.asUsizeS (wrappingSub x S.MIN) := fun _ => rfl
  have lo : ∀ x : S w, -2 ^ (w - 1) ≤ x.bits.toInt := fun x => BitVec.le_toInt x.bits
  have hi : ∀ x : S w, x.bits.toInt < 2 ^ (w - 1) := fun x => BitVec.toInt_lt
  simp only [hd]
  obtain ⟨n, rfl⟩ : ∃ n, w = n + 1 := ⟨w - 1, by omega⟩
  simp only [Nat.add_sub_cancel] at hn hp lo hi ⊢
  have h4 : (2:Nat) ^ (n + 1 + 1) ≤ 2 ^ P.bits := Nat.pow_le_pow_right (by decide) (by omega)
  have e : (((2 : Nat) ^ n : Nat) : Int) = (2 : Int) ^ n := by push_cast; rfl
  have e' : (((2 : Nat) ^ P.bits : Nat) : Int) = (2 : Int) ^ P.bits := by push_cast; rfl
  have h5 : 0 < 2 ^ n := Nat.pow_pos (by decide)
  rw [pow_succ, pow_succ] at h4
  refine ⟨⟨fun h => ?_, fun h => ?_⟩, hn x, hp x, fun y hxy => ?_⟩
  · by_contra hc
    have := hp x (by omega)
    rw [pow_succ] at h
    omega
  · have := hn x h
    rw [pow_succ]
    omega
  · refine S.toInt_inj ?_
    show x.bits.toInt = y.bits.toInt
    have := lo x; have := lo y; have := hi x; have := hi y
    rcases lt_or_ge x.bits.toInt 0 with a | a <;> rcases lt_or_ge y.bits.toInt 0 with b | b
    · have := hn x a; have := hn y b; omega
    · have := hn x a; have := hp y b; omega
    · have := hp x a; have := hn y b; omega
    · have := hp x a; have := hp y b; omega

/-- **C45, the length of an array** is the number of keys exactly if `usize` is wider than the key; for a key as wide as
`usize` it is 0. -/
theorem C45_length (P : Ptr) (w : Nat) (h : P.has w) :
    (P.typenumUsize (2 ^ w) = 2 ^ w ↔ w < P.bits) ∧ (P.typenumUsize (2 ^ w) = 0 ↔ w = P.bits) := by
  have hle := has_le h
  have h0 : 0 < 2 ^ w := Nat.pow_pos (by decide)
  rcases Nat.lt_or_ge w P.bits with hlt | hge
  · have e : P.typenumUsize (2 ^ w) = 2 ^ w := Nat.mod_eq_of_lt (Nat.pow_lt_pow_right (by decide) hlt)
    rw [e]
    exact ⟨⟨fun _ => hlt, fun _ => rfl⟩, ⟨fun x => absurd x (by omega), fun x => absurd x (by omega)⟩⟩
  · have : w = P.bits := by omega
    subst this
    have e : P.typenumUsize (2 ^ P.bits) = 0 := Nat.mod_self _
    rw [e]
    exact ⟨⟨fun x => absurd x (by omega), fun x => absurd x (by omega)⟩, ⟨fun _ => rfl, fun _ => rfl⟩⟩

/-- **C45, the constant `CARDINALITY`** is one less than the number of keys, except for `i16` and `i32`, where it is
`usize::MAX`; so it is the number of keys for no integer on any target. -/
theorem C45_constant (P : Ptr) (w : Nat) (h : P.has w) :
    (P.sizedU w).cardinalityConst + 1 = 2 ^ w ∧
    (P.sizedS w).cardinalityConst + 1 = (if w = 16 ∨ w = 32 then 2 ^ P.bits else 2 ^ w) := by
  have hle := has_le h
  have h0 : 0 < 2 ^ w := Nat.pow_pos (by decide)
  have h0' : 0 < 2 ^ P.bits := Nat.pow_pos (by decide)
  have e : P.asUsize (U.lit (2 ^ w - 1) : U w) + 1 = 2 ^ w := by
    rw [asUsize_eq hle, U.lit, BitVec.toNat_ofNat, Nat.mod_eq_of_lt (by omega)]
    omega
  refine ⟨e, ?_⟩
  show (if w = 16 ∨ w = 32 then 2 ^ P.bits - 1 else P.asUsize (U.lit (2 ^ w - 1) : U w)) + 1 = _
  split
  · omega
  · exact e

/-- **C45 refuted**, already by `u8` and its constant on the 64-bit target; `C45_constant`, `C45_signed` and `C45_length`
say for each target and integer what is wrong. -/
theorem C45_full_refuted : ¬ C45_full := by
  intro h
  have h1 := (h .p64 8 (Or.inl rfl)).2.1
  exact absurd h1 (by decide)

/-- **C45, arrays that work**: on a target of up to 64 bits an array indexed by an unsigned integer narrower than `usize`
behaves as a partial map.  Missing of the full claim: signed integers (`C45_signed`) and integers as wide as `usize`
(`C45_array_refuted`). -/
theorem C45_array_partial (P : Ptr) (hP : P.bits ≤ 64) (w : Nat) (h : P.has w) (hlt : w < P.bits) :
    @GoodIndex (U w) (P.seen (P.sizedU w)) ∧
    ∀ (T Lo V : Type) [VebTree T Lo V] (ops : List (COp (U w) T Lo V)),
      letI : SizedVebKey (U w) := P.seen (P.sizedU w)
      RunsLikeCollection (ArrayColl (U w) T) (.expect "array should contain tree at key index") ops := by
  let i : SizedVebKey (U w) := P.seen (P.sizedU w)
  have g : GoodIndex (U w) := by
    obtain ⟨⟨h1, h2⟩, -⟩ := C45_unsigned P w h
    have e : P.typenumUsize (2 ^ w) = 2 ^ w := (C45_length P w h).1.2 hlt
    refine ⟨fun k => ?_, fun a b => h2 a b trivial trivial, ?_⟩
    · exact (h1 k trivial).trans_eq e.symm
    · refine e.le.trans ?_
      have : 2 ^ w < 2 ^ 64 := Nat.pow_lt_pow_right (by decide) (by omega)
      exact Nat.le_of_lt_succ this
  exact ⟨g, fun T Lo V _ ops => C14_array_collection_partial g ops⟩

/-- **C45, arrays that do not work**: an array indexed by an integer as wide as `usize` is empty, so no collection can be
created at any key. -/
theorem C45_array_refuted (P : Ptr) (w : Nat) (h : w = P.bits) {T Lo V : Type} [VebTree T Lo V] :
    (∀ (k : U w) (t : T), letI : SizedVebKey (U w) := P.seen (P.sizedU w)
      (TreeCollection.create k t : R (ArrayColl (U w) T)) = .error .index) ∧
    (∀ (k : S w) (t : T), letI : SizedVebKey (S w) := P.seen (P.sizedS w)
      (TreeCollection.create k t : R (ArrayColl (S w) T)) = .error .index) := by
  subst h
  have e : P.typenumUsize (2 ^ P.bits) = 0 := Nat.mod_self _
  constructor
  · intro k t
    let i : SizedVebKey (U P.bits) := P.seen (P.sizedU P.bits)
    show ArrayColl.create k t = _
    have e' : OptionArray.typenumUsize (SizedVebKey.cardinality (U P.bits)) = 0 := by
      show OptionArray.typenumUsize (P.typenumUsize (2 ^ P.bits)) = 0
      rw [e]; rfl
    simp only [ArrayColl.create, OptionArray.put, OptionArray.create, e', Nat.not_lt_zero, if_false]
    rfl
  · intro k t
    let i : SizedVebKey (S P.bits) := P.seen (P.sizedS P.bits)
    show ArrayColl.create k t = _
    have e' : OptionArray.typenumUsize (SizedVebKey.cardinality (S P.bits)) = 0 := by
      show OptionArray.typenumUsize (P.typenumUsize (2 ^ P.bits)) = 0
      rw [e]; rfl
    simp only [ArrayColl.create, OptionArray.put, OptionArray.create, e', Nat.not_lt_zero, if_false]
    rfl

/-- **C45, the predefined types.** On targets of up to 64 bits: the 16-bit types are trees of the crate, to which all
theorems about `CrateTree` apply, on every target; the 32-bit types if `usize` has at least 32 bits; the 64-bit types if
it has 64. -/
theorem C45_predefined_partial (P : Ptr) (hP : P.bits ≤ 64) (V : Type) :
    letI : SizedVebKey (U 8) := P.seen (P.sizedU 8)
    letI : SizedVebKey (U 16) := P.seen (P.sizedU 16)
    letI : SizedVebKey (U 32) := P.seen (P.sizedU 32)
    (CrateTree (Set16 (U 16)) (U 16) Unit safe16 ∧ CrateTree (Map16 (U 16) V) (U 16) V safe16) ∧
    (32 ≤ P.bits →
      CrateTree (Set32 (U 32)) (U 32) Unit safe32 ∧ CrateTree (Map32 (U 32) V) (U 32) V safe32) ∧
    (64 ≤ P.bits →
      CrateTree (Set64 (U 64)) (U 64) Unit safe64 ∧ CrateTree (Map64 (U 64) V) (U 64) V safe64) := by
  let i8 : SizedVebKey (U 8) := P.seen (P.sizedU 8)
  let i16 : SizedVebKey (U 16) := P.seen (P.sizedU 16)
  let i32 : SizedVebKey (U 32) := P.seen (P.sizedU 32)
  have g8 : GoodIndex (U 8) := (C45_array_partial P hP 8 (Or.inl rfl) (by cases P <;> decide)).1
  have a16 : CrateTree (Set16 (U 16)) (U 16) Unit safe16 := .tree goodKey .byteSet .byteSet (.array g8)
  have b16 : CrateTree (Map16 (U 16) V) (U 16) V safe16 := .tree goodKey .byteSet .byteMap (.array g8)
  have k32 : 32 ≤ P.bits →
      CrateTree (Set32 (U 32)) (U 32) Unit safe32 ∧ CrateTree (Map32 (U 32) V) (U 32) V safe32 := fun h => by
    have g16 : GoodIndex (U 16) := (C45_array_partial P hP 16
      (by cases P <;> simp [has] at h ⊢) (by omega)).1
    exact ⟨.tree goodKey a16 a16 (.array g16), .tree goodKey a16 b16 (.array g16)⟩
  refine ⟨⟨a16, b16⟩, k32, fun h => ?_⟩
  have g32 : GoodIndex (U 32) := (C45_array_partial P hP 32
    (by cases P <;> simp [has, bits] at h ⊢) (by omega)).1
  obtain ⟨a32, b32⟩ := k32 (by omega)
  exact ⟨.tree goodKey a32 a32 (.array g32), .tree goodKey a32 b32 (.array g32)⟩

/-- **C45 refuted for the predefined types**: on a 32-bit target the 64-bit types (arrays indexed by `u32`), and on a
16-bit target the 32-bit types (arrays indexed by `u16`), panic at the third of any three ascending keys. -/
theorem C45_refuted {V : Type} (va vb vc : V) :
    (letI : SizedVebKey (U 8) := p32.seen (p32.sizedU 8)
     letI : SizedVebKey (U 16) := p32.seen (p32.sizedU 16)
     letI : SizedVebKey (U 32) := p32.seen (p32.sizedU 32)
     ∀ a b c : U 64, a < b → b < c →
       Exec.run (none : Option (Map64 (U 64) V)) [.insert a va, .insert b vb, .insert c vc] = .error .index ∧
       Exec.run (none : Option (Set64 (U 64))) [.insert a (), .insert b (), .insert c ()] = .error .index) ∧
    (letI : SizedVebKey (U 8) := p16.seen (p16.sizedU 8)
     letI : SizedVebKey (U 16) := p16.seen (p16.sizedU 16)
     ∀ a b c : U 32, a < b → b < c →
       Exec.run (none : Option (Map32 (U 32) V)) [.insert a va, .insert b vb, .insert c vc] = .error .index ∧
       Exec.run (none : Option (Set32 (U 32))) [.insert a (), .insert b (), .insert c ()] = .error .index) := by
  constructor
  · let i8 : SizedVebKey (U 8) := p32.seen (p32.sizedU 8)
    let i16 : SizedVebKey (U 16) := p32.seen (p32.sizedU 16)
    let i32 : SizedVebKey (U 32) := p32.seen (p32.sizedU 32)
    intro a b c h1 h2
    exact ⟨C25_third_insert_panics va vb vc h1 h2 fun t => (C45_array_refuted p32 32 rfl).1 _ t,
      C25_third_insert_panics () () () h1 h2 fun t => (C45_array_refuted p32 32 rfl).1 _ t⟩
  · let i8 : SizedVebKey (U 8) := p16.seen (p16.sizedU 8)
    let i16 : SizedVebKey (U 16) := p16.seen (p16.sizedU 16)
    intro a b c h1 h2
    exact ⟨C25_third_insert_panics va vb vc h1 h2 fun t => (C45_array_refuted p16 16 rfl).1 _ t,
      C25_third_insert_panics () () () h1 h2 fun t => (C45_array_refuted p16 16 rfl).1 _ t⟩

/-- **C45**, the integers with an index on a target are those of at least 8 bits that are no wider than `usize`. -/
theorem C45_which (P : Ptr) (w : Nat) : P.has w ↔ w ∈ [8, 16, 32, 64, 128] ∧ w ≤ P.bits := by
  cases P <;> simp only [has, bits, List.mem_cons, List.not_mem_nil, or_false] <;> constructor <;> intro h <;> simp at h ⊢ <;> omega

/-- **C45**, the 64-bit target is the one of C06 and C07. -/
theorem C45_agrees :
    (∀ x : U 8, SizedVebKey.index x = (p64.sizedU 8).index x) ∧ (∀ x : U 16, SizedVebKey.index x = (p64.sizedU 16).index x) ∧
    (∀ x : U 32, SizedVebKey.index x = (p64.sizedU 32).index x) ∧
    (∀ x : U 64, SizedVebKey.index x = (p64.sizedU 64).index x) ∧
    (∀ x : S 8, SizedVebKey.index x = (p64.sizedS 8).index x) ∧ (∀ x : S 16, SizedVebKey.index x = (p64.sizedS 16).index x) ∧
    (∀ x : S 32, SizedVebKey.index x = (p64.sizedS 32).index x) ∧
    (∀ x : S 64, SizedVebKey.index x = (p64.sizedS 64).index x) ∧
    [SizedVebKey.cardinalityConst (U 8), SizedVebKey.cardinalityConst (U 16), SizedVebKey.cardinalityConst (U 32),
      SizedVebKey.cardinalityConst (U 64)] =
      [(p64.sizedU 8).cardinalityConst, (p64.sizedU 16).cardinalityConst, (p64.sizedU 32).cardinalityConst,
        (p64.sizedU 64).cardinalityConst] ∧
    [SizedVebKey.cardinalityConst (S 8), SizedVebKey.cardinalityConst (S 16), SizedVebKey.cardinalityConst (S 32),
      SizedVebKey.cardinalityConst (S 64)] =
      [(p64.sizedS 8).cardinalityConst, (p64.sizedS 16).cardinalityConst, (p64.sizedS 32).cardinalityConst,
        (p64.sizedS 64).cardinalityConst] := by
  have e : ∀ {w : Nat} (h : w ≤ 64) (x : U w), x.bits.toNat = p64.asUsize x := fun h x => (asUsize_eq h x).symm
  exact ⟨e (by decide), e (by decide), e (by decide), e (by decide), fun _ => rfl, fun _ => rfl, fun _ => rfl,
    fun _ => rfl, by decide, by decide⟩

/-! Non-vacuity. -/

example : p16.has 16 ∧ ¬ p16.has 32 ∧ p32.has 32 ∧ p64.has 64 ∧ ¬ p64.has 128 ∧ p128.has 128 := by
  simp [has]
/-- `i32` on a 32-bit target: right indices, but an empty array -/
example : (p32.sizedS 32).index ⟨0⟩ = 2 ^ 31 ∧ p32.typenumUsize (2 ^ 32) = 0 := by decide
example : (p32.sizedS 8).index ⟨0⟩ = 2 ^ 32 - 128 ∧ (p32.sizedS 8).index ⟨-1⟩ = 127 := by decide
example : (U.lit 1 : U 64) < U.lit 2 ∧ (U.lit 2 : U 64) < U.lit 3 := by decide

end Veb.Props
