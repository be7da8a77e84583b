import Verif.Model.Key
import Verif.Proof.Lawful
import Mathlib.Data.List.Lex
import Mathlib.Tactic.Ring

/-!
The key types are lawful: integers, `U4`, `()` and arrays.
-/

set_option linter.unusedSectionVars false

namespace Veb

theorem U.ext' {w : Nat} {a b : U w} (h : a.bits.toNat = b.bits.toNat) : a = b := U.toNat_inj h
theorem S.ext' {w : Nat} {a b : S w} (h : a.bits.toInt = b.bits.toInt) : a = b := S.toInt_inj h
theorem U.toNat_lt {w : Nat} (a : U w) : a.bits.toNat < 2 ^ w := a.bits.isLt

/-! ### splitting an unsigned integer in the middle -/

section
variable {w h : Nat}

theorem U.hi_toNat (hw : w = h + h) (x : U w) : ((x.shr h).cast h).bits.toNat = x.bits.toNat / 2 ^ h := by
  have : x.bits.toNat / 2 ^ h < 2 ^ h := by
    rw [Nat.div_lt_iff_lt_mul (Nat.two_pow_pos _), ← pow_add, ← hw]
    exact x.toNat_lt
  simp [U.shr, U.cast, Nat.shiftRight_eq_div_pow, Nat.mod_eq_of_lt this]

theorem U.lo_toNat (x : U w) : (x.cast h).bits.toNat = x.bits.toNat % 2 ^ h := by
  simp [U.cast]

theorem U.join_toNat (hw : w = h + h) (hi lo : U h) :
    (((hi.cast w).shl h).or (lo.cast w)).bits.toNat = hi.bits.toNat * 2 ^ h + lo.bits.toNat := by
  subst hw
  have h1 : hi.bits.toNat < 2 ^ (h + h) :=
    lt_of_lt_of_le hi.toNat_lt (Nat.pow_le_pow_right (by decide) (Nat.le_add_right _ _))
  have h2 : lo.bits.toNat < 2 ^ (h + h) :=
    lt_of_lt_of_le lo.toNat_lt (Nat.pow_le_pow_right (by decide) (Nat.le_add_right _ _))
  have h3 : hi.bits.toNat * 2 ^ h < 2 ^ (h + h) := by
    rw [pow_add]
    exact Nat.mul_lt_mul_of_pos_right hi.toNat_lt (Nat.two_pow_pos _)
  simp only [U.or, U.shl, U.cast, BitVec.toNat_or, BitVec.toNat_shiftLeft, BitVec.toNat_setWidth,
    Nat.mod_eq_of_lt h1, Nat.mod_eq_of_lt h2]
  rw [Nat.shiftLeft_eq, Nat.mod_eq_of_lt h3, ← Nat.shiftLeft_eq,
    ← Nat.shiftLeft_add_eq_or_of_lt lo.toNat_lt, Nat.shiftLeft_eq]

end

theorem div_mod_lt_iff (b x y : Nat) :
    x < y ↔ x / b < y / b ∨ x / b = y / b ∧ x % b < y % b := by
  have ex := Nat.div_add_mod x b
  have ey := Nat.div_add_mod y b
  rcases Nat.eq_zero_or_pos b with rfl | hb
  · simp
  have mx := Nat.mod_lt x hb
  have my := Nat.mod_lt y hb
  constructor
  · intro h
    have := Nat.div_le_div_right (c := b) h.le
    rcases this.lt_or_eq with h1 | h1
    · exact .inl h1
    · refine .inr ⟨h1, ?_⟩
      rw [h1] at ex
      omega
  · rintro (h | ⟨h1, h2⟩)
    · by_contra hc
      exact absurd (Nat.div_le_div_right (c := b) (not_lt.1 hc)) (not_le.2 h)
    · rw [h1] at ex
      omega

/-- A key is lawful if splitting is division with remainder on an order-embedding into the naturals. -/
theorem LawfulVebKey.ofNat {K Hi Lo : Type} [LinearOrder K] [LinearOrder Hi] [LinearOrder Lo]
    [VebKey K Hi Lo] [VebKeyRef K Hi Lo] (f : K → Nat) (fh : Hi → Nat) (fl : Lo → Nat) (b : Nat)
    (lt : ∀ x y, x < y ↔ f x < f y) (lth : ∀ x y, x < y ↔ fh x < fh y) (ltl : ∀ x y, x < y ↔ fl x < fl y)
    (hi : ∀ x, fh (VebKey.splitVal x).1 = f x / b) (lo : ∀ x, fl (VebKey.splitVal x).2 = f x % b)
    (join : ∀ x : K, f (VebKey.join (VebKey.splitVal x).1 (VebKey.splitVal x).2) =
      fh (VebKey.splitVal x).1 * b + fl (VebKey.splitVal x).2)
    (ref : ∀ k : K, VebKeyRef.splitRef k = VebKey.splitVal k) : LawfulVebKey K Hi Lo where
  join_split k := by
    have : f (VebKey.join (VebKey.splitVal k).1 (VebKey.splitVal k).2) = f k := by
      rw [join, hi, lo]; exact Nat.div_add_mod' _ _
    apply le_antisymm <;> rw [← not_lt, lt] <;> omega
  ref_eq := ref
  lt_iff x y := by
    have inj : (VebKey.splitVal x).1 = (VebKey.splitVal y).1 ↔
        fh (VebKey.splitVal x).1 = fh (VebKey.splitVal y).1 := by
      refine ⟨fun h => by rw [h], fun h => ?_⟩
      apply le_antisymm <;> rw [← not_lt, lth] <;> omega
    rw [lt, div_mod_lt_iff b, lth, ltl, inj, hi, hi, lo, lo]

instance : LawfulVebKey (U 128) (U 64) (U 64) :=
  .ofNat (fun x => x.bits.toNat) (fun x => x.bits.toNat) (fun x => x.bits.toNat) (2 ^ 64)
    U.lt_iff U.lt_iff U.lt_iff (U.hi_toNat rfl) U.lo_toNat (fun _ => U.join_toNat rfl _ _) (fun _ => rfl)
instance : LawfulVebKey (U 64) (U 32) (U 32) :=
  .ofNat (fun x => x.bits.toNat) (fun x => x.bits.toNat) (fun x => x.bits.toNat) (2 ^ 32)
    U.lt_iff U.lt_iff U.lt_iff (U.hi_toNat rfl) U.lo_toNat (fun _ => U.join_toNat rfl _ _) (fun _ => rfl)
instance : LawfulVebKey (U 32) (U 16) (U 16) :=
  .ofNat (fun x => x.bits.toNat) (fun x => x.bits.toNat) (fun x => x.bits.toNat) (2 ^ 16)
    U.lt_iff U.lt_iff U.lt_iff (U.hi_toNat rfl) U.lo_toNat (fun _ => U.join_toNat rfl _ _) (fun _ => rfl)
instance : LawfulVebKey (U 16) (U 8) (U 8) :=
  .ofNat (fun x => x.bits.toNat) (fun x => x.bits.toNat) (fun x => x.bits.toNat) (2 ^ 8)
    U.lt_iff U.lt_iff U.lt_iff (U.hi_toNat rfl) U.lo_toNat (fun _ => U.join_toNat rfl _ _) (fun _ => rfl)

/-! ### `u8` and `U4` -/

theorem U.shr_toNat {w : Nat} (x : U w) (n : Nat) : (x.shr n).bits.toNat = x.bits.toNat / 2 ^ n := by
  simp [U.shr, Nat.shiftRight_eq_div_pow]

theorem U4.max_toNat : U4.MAX.bits.toNat = 15 := by decide
theorem U2.max_toNat : U2.MAX.bits.toNat = 3 := by decide

theorem U4.ofU8_toNat (x : U 8) : (U4.ofU8 x).val.bits.toNat = x.bits.toNat % 16 := by
  simp only [U4.ofU8, U.and, BitVec.toNat_and, U4.max_toNat]
  exact Nat.and_two_pow_sub_one_eq_mod _ 4

theorem U2.ofU8_toNat (x : U 8) : (U2.ofU8 x).val.bits.toNat = x.bits.toNat % 4 := by
  simp only [U2.ofU8, U.and, BitVec.toNat_and, U2.max_toNat]
  exact Nat.and_two_pow_sub_one_eq_mod _ 2

/-- `(hi << n) | lo` on bytes, when nothing overflows and the parts do not overlap -/
theorem U.shl_or_toNat (hi lo : U 8) (n : Nat) (h1 : hi.bits.toNat * 2 ^ n < 256) (h2 : lo.bits.toNat < 2 ^ n) :
    ((hi.shl n).or lo).bits.toNat = hi.bits.toNat * 2 ^ n + lo.bits.toNat := by
  simp only [U.or, U.shl, BitVec.toNat_or, BitVec.toNat_shiftLeft]
  rw [Nat.shiftLeft_eq, Nat.mod_eq_of_lt h1, ← Nat.shiftLeft_eq, ← Nat.shiftLeft_add_eq_or_of_lt h2]

theorem u8_hi (x : U 8) : (VebKey.splitVal x).1.val.bits.toNat = x.bits.toNat / 2 ^ 4 := U.shr_toNat x 4
theorem u8_lo (x : U 8) : (VebKey.splitVal x).2.val.bits.toNat = x.bits.toNat % 2 ^ 4 := U4.ofU8_toNat x
theorem u8_join (hi lo : U4) (h1 : hi.val.bits.toNat < 16) (h2 : lo.val.bits.toNat < 16) :
    (VebKey.join hi lo : U 8).bits.toNat = hi.val.bits.toNat * 2 ^ 4 + lo.val.bits.toNat :=
  U.shl_or_toNat _ _ 4 (by omega) h2

theorem u4_hi (x : U4) : (VebKey.splitVal x).1.val.bits.toNat = x.val.bits.toNat / 2 ^ 2 := U.shr_toNat x.val 2
theorem u4_lo (x : U4) : (VebKey.splitVal x).2.val.bits.toNat = x.val.bits.toNat % 2 ^ 2 :=
  U2.ofU8_toNat x.val
theorem u4_join (hi lo : U2) (h1 : hi.val.bits.toNat < 64) (h2 : lo.val.bits.toNat < 4) :
    (VebKey.join hi lo : U4).val.bits.toNat = hi.val.bits.toNat * 2 ^ 2 + lo.val.bits.toNat :=
  U.shl_or_toNat _ _ 2 (by omega) h2

instance : LawfulVebKey (U 8) U4 U4 :=
  .ofNat (fun x => x.bits.toNat) (fun x => x.val.bits.toNat) (fun x => x.val.bits.toNat) (2 ^ 4)
    U.lt_iff (fun _ _ => Iff.rfl) (fun _ _ => Iff.rfl) u8_hi u8_lo
    (fun x => u8_join _ _ (by rw [u8_hi]; have := x.toNat_lt; omega) (by rw [u8_lo]; omega)) (fun _ => rfl)

instance : LawfulVebKey U4 U2 U2 :=
  .ofNat (fun x => x.val.bits.toNat) (fun x => x.val.bits.toNat) (fun x => x.val.bits.toNat) (2 ^ 2)
    (fun _ _ => Iff.rfl) (fun _ _ => Iff.rfl) (fun _ _ => Iff.rfl) u4_hi u4_lo
    (fun x => u4_join _ _ (by rw [u4_hi]; have := x.val.toNat_lt; omega) (by rw [u4_lo]; omega)) (fun _ => rfl)

instance : LawfulVebKey Unit Unit Unit where
  join_split _ := rfl
  ref_eq _ := rfl
  lt_iff _ _ := by simp

/-! ### signed integers -/

theorem S.intMin_toInt {w : Nat} (hw : 0 < w) : (S.MIN (w := w)).bits.toInt = - 2 ^ (w - 1) := by
  simp [S.MIN, BitVec.toInt_intMin_of_pos hw]

theorem S.not_lt_min {w : Nat} (hw : 0 < w) (x : S w) : ¬ x < S.MIN := by
  rw [S.lt_iff, S.intMin_toInt hw, not_lt]
  have := BitVec.le_toInt x.bits
  exact this

theorem S.absDiff_toNat {w : Nat} (hw : 0 < w) (x : S w) :
    ((x.absDiff S.MIN).bits.toNat : Int) = x.bits.toInt + 2 ^ (w - 1) := by
  obtain ⟨n, rfl⟩ : ∃ n, w = n + 1 := ⟨w - 1, by omega⟩
  have hlt := x.bits.isLt
  rw [S.absDiff, if_neg (S.not_lt_min hw x)]
  have hp : (2 : Nat) ^ (n + 1) = 2 * 2 ^ n := by rw [pow_succ]; ring
  have hpos : 0 < 2 ^ n := Nat.two_pow_pos _
  rw [BitVec.toNat_sub, BitVec.toInt_eq_toNat_cond]
  have hm : (S.MIN (w := n + 1)).bits.toNat = 2 ^ n := by
    simp only [S.MIN, BitVec.toNat_intMin, Nat.add_sub_cancel]
    exact Nat.mod_eq_of_lt (by omega)
  rw [hm, Nat.add_sub_cancel]
  simp only [hp] at hlt ⊢
  push_cast
  have e : (((2 : Nat) ^ n : Nat) : Int) = (2 : Int) ^ n := by push_cast; rfl
  by_cases hc : 2 * x.bits.toNat < 2 * 2 ^ n
  · rw [if_pos hc]
    have h1 : ((2 * 2 ^ n - 2 ^ n + x.bits.toNat) % (2 * 2 ^ n) : Nat) = 2 ^ n + x.bits.toNat := by
      rw [Nat.mod_eq_of_lt] <;> omega
    have := congrArg (fun z : Nat => (z : Int)) h1
    push_cast at this
    omega
  · rw [if_neg hc]
    have h1 : ((2 * 2 ^ n - 2 ^ n + x.bits.toNat) % (2 * 2 ^ n) : Nat) = x.bits.toNat - 2 ^ n := by
      rw [show 2 * 2 ^ n - 2 ^ n + x.bits.toNat = (x.bits.toNat - 2 ^ n) + 2 * 2 ^ n by omega,
        Nat.add_mod_right, Nat.mod_eq_of_lt]
      omega
    have := congrArg (fun z : Nat => (z : Int)) h1
    push_cast at this
    omega

theorem S.absDiff_lt {w : Nat} (hw : 0 < w) (x y : S w) : x < y ↔ x.absDiff S.MIN < y.absDiff S.MIN := by
  rw [S.lt_iff, U.lt_iff]
  have h1 := S.absDiff_toNat hw x
  have h2 := S.absDiff_toNat hw y
  omega

theorem S.ofU_absDiff {w : Nat} (hw : 0 < w) (x : S w) : S.ofUWrappingAdd (x.absDiff S.MIN) S.MIN = x := by
  obtain ⟨x⟩ := x
  simp only [S.absDiff, if_neg (S.not_lt_min hw ⟨x⟩), S.ofUWrappingAdd, BitVec.sub_add_cancel]

theorem S.absDiff_ofU {w : Nat} (hw : 0 < w) (x : U w) : (S.ofUWrappingAdd x S.MIN).absDiff S.MIN = x := by
  obtain ⟨x⟩ := x
  simp only [S.absDiff, if_neg (S.not_lt_min hw _), S.ofUWrappingAdd, BitVec.add_sub_cancel]

/-- A signed key splits like the unsigned key at its distance from `MIN`. -/
theorem LawfulVebKey.signed {w : Nat} (hw : 0 < w) {Hi Lo : Type} [LinearOrder Hi] [LinearOrder Lo]
    [VebKey (U w) Hi Lo] [VebKeyRef (U w) Hi Lo] [L : LawfulVebKey (U w) Hi Lo]
    [VebKey (S w) Hi Lo] [VebKeyRef (S w) Hi Lo]
    (sp : ∀ x : S w, VebKey.splitVal x = VebKey.splitVal (x.absDiff S.MIN))
    (jn : ∀ hi lo, (VebKey.join hi lo : S w) = S.ofUWrappingAdd (VebKey.join hi lo) S.MIN)
    (ref : ∀ k : S w, VebKeyRef.splitRef k = VebKey.splitVal k) : LawfulVebKey (S w) Hi Lo where
  join_split k := by rw [jn, sp, L.join_split, S.ofU_absDiff hw]
  ref_eq := ref
  lt_iff x y := by rw [S.absDiff_lt hw, L.lt_iff, sp, sp]

instance : LawfulVebKey (S 128) (U 64) (U 64) :=
  .signed (by decide) (fun _ => rfl) (fun _ _ => rfl) (fun _ => rfl)
instance : LawfulVebKey (S 64) (U 32) (U 32) :=
  .signed (by decide) (fun _ => rfl) (fun _ _ => rfl) (fun _ => rfl)
instance : LawfulVebKey (S 32) (U 16) (U 16) :=
  .signed (by decide) (fun _ => rfl) (fun _ _ => rfl) (fun _ => rfl)
instance : LawfulVebKey (S 16) (U 8) (U 8) :=
  .signed (by decide) (fun _ => rfl) (fun _ _ => rfl) (fun _ => rfl)
instance : LawfulVebKey (S 8) U4 U4 :=
  .signed (by decide) (fun _ => rfl) (fun _ _ => rfl) (fun _ => rfl)

/-! ### arrays -/

section
variable {T : Type} [LinearOrder T]

theorem append_lt_append {a b : List T} (h : a.length = b.length) (c d : List T) :
    a ++ c < b ++ d ↔ a < b ∨ a = b ∧ c < d := by
  induction a generalizing b with
  | nil =>
    obtain rfl : b = [] := by simpa using h.symm
    simp
  | cons x a ih =>
    obtain _ | ⟨y, b⟩ := b
    · simp at h
    · simp only [List.length_cons, Nat.add_right_cancel_iff] at h
      simp only [List.cons_append, List.cons_lt_cons_iff, ih h, List.cons.injEq]
      tauto

theorem Arr.lt_iff {n : Nat} (x y : Arr T n) : x < y ↔ x.1 < y.1 := Iff.rfl

theorem Arr.split_lt {n h m : Nat} (hn : n = h + m) (hle : h ≤ n) (x y : Arr T n) :
    x < y ↔ x.take h hle < y.take h hle ∨ x.take h hle = y.take h hle ∧ x.drop h m hn < y.drop h m hn := by
  obtain ⟨x, hx⟩ := x
  obtain ⟨y, hy⟩ := y
  simp only [Arr.lt_iff, Arr.take, Arr.drop, Subtype.mk.injEq]
  conv_lhs => rw [← List.take_append_drop h x, ← List.take_append_drop h y]
  exact append_lt_append (by simp [hx, hy]) _ _

theorem Arr.dropLastN_eq {n m h : Nat} (hn : n = h + m) (hle : h ≤ n) (x : Arr T n) :
    x.dropLastN m h hn = x.take h hle := by
  obtain ⟨x, hx⟩ := x
  simp only [Arr.dropLastN, Arr.take, Subtype.mk.injEq]
  rw [List.drop_reverse, List.reverse_reverse]
  congr 1
  omega

theorem Arr.append_take_drop {h m : Nat} (x : Arr T (h + m)) :
    (x.take h (Nat.le_add_right h m)).append (x.drop h m rfl) = x := by
  obtain ⟨x, hx⟩ := x
  simp [Arr.append, Arr.take, Arr.drop]

theorem Arr.take_append {h m : Nat} (a : Arr T h) (b : Arr T m) :
    (a.append b).take h (Nat.le_add_right h m) = a := by
  obtain ⟨a, ha⟩ := a
  simp [Arr.append, Arr.take, ← ha]

theorem Arr.drop_append {h m : Nat} (a : Arr T h) (b : Arr T m) : (a.append b).drop h m rfl = b := by
  obtain ⟨a, ha⟩ := a
  simp [Arr.append, Arr.drop, ← ha]

instance : LawfulVebKey (Arr T 2) T T where
  join_split x := by
    obtain ⟨_ | ⟨a, _ | ⟨b, _ | _⟩⟩, h⟩ := x <;> simp at h
    rfl
  ref_eq _ := rfl
  lt_iff x y := by
    obtain ⟨_ | ⟨a, _ | ⟨b, _ | _⟩⟩, h⟩ := x <;> simp at h
    obtain ⟨_ | ⟨a', _ | ⟨b', _ | _⟩⟩, h⟩ := y <;> simp at h
    simp [VebKey.splitVal, Arr.at', List.cons_lt_cons_iff]

instance : LawfulVebKey (Arr T 3) T (Arr T 2) where
  join_split x := by
    obtain ⟨_ | ⟨a, l⟩, h⟩ := x <;> simp at h
    rfl
  ref_eq _ := rfl
  lt_iff x y := by
    obtain ⟨_ | ⟨a, l⟩, h⟩ := x <;> simp at h
    obtain ⟨_ | ⟨a', l'⟩, h⟩ := y <;> simp at h
    simp [VebKey.splitVal, Arr.at', Arr.drop, List.cons_lt_cons_iff]

instance : LawfulVebKey (Arr T 4) (Arr T 2) (Arr T 2) where
  join_split x := Arr.append_take_drop (h := 2) (m := 2) x
  ref_eq x := congrArg (·, _) (Arr.dropLastN_eq (h := 2) (m := 2) rfl (by decide) x)
  lt_iff := Arr.split_lt (h := 2) (m := 2) rfl (by decide)
instance : LawfulVebKey (Arr T 5) (Arr T 2) (Arr T 3) where
  join_split x := Arr.append_take_drop (h := 2) (m := 3) x
  ref_eq x := congrArg (·, _) (Arr.dropLastN_eq (h := 2) (m := 3) rfl (by decide) x)
  lt_iff := Arr.split_lt (h := 2) (m := 3) rfl (by decide)
instance : LawfulVebKey (Arr T 6) (Arr T 3) (Arr T 3) where
  join_split x := Arr.append_take_drop (h := 3) (m := 3) x
  ref_eq x := congrArg (·, _) (Arr.dropLastN_eq (h := 3) (m := 3) rfl (by decide) x)
  lt_iff := Arr.split_lt (h := 3) (m := 3) rfl (by decide)
instance : LawfulVebKey (Arr T 7) (Arr T 3) (Arr T 4) where
  join_split x := Arr.append_take_drop (h := 3) (m := 4) x
  ref_eq x := congrArg (·, _) (Arr.dropLastN_eq (h := 3) (m := 4) rfl (by decide) x)
  lt_iff := Arr.split_lt (h := 3) (m := 4) rfl (by decide)
instance : LawfulVebKey (Arr T 8) (Arr T 4) (Arr T 4) where
  join_split x := Arr.append_take_drop (h := 4) (m := 4) x
  ref_eq x := congrArg (·, _) (Arr.dropLastN_eq (h := 4) (m := 4) rfl (by decide) x)
  lt_iff := Arr.split_lt (h := 4) (m := 4) rfl (by decide)
instance : LawfulVebKey (Arr T 16) (Arr T 8) (Arr T 8) where
  join_split x := Arr.append_take_drop (h := 8) (m := 8) x
  ref_eq x := congrArg (·, _) (Arr.dropLastN_eq (h := 8) (m := 8) rfl (by decide) x)
  lt_iff := Arr.split_lt (h := 8) (m := 8) rfl (by decide)

end

/-! ### indices -/

theorem U.toNat_inj' {w : Nat} {a b : U w} (h : a.bits.toNat = b.bits.toNat) : a = b := U.toNat_inj h

instance : LawfulSizedKey Unit := ⟨fun _ => Nat.one_pos, fun _ _ _ => rfl, by decide⟩
instance : LawfulSizedKey (U 8) := ⟨fun k => k.toNat_lt, fun _ _ => U.ext', by decide⟩
instance : LawfulSizedKey (U 16) := ⟨fun k => k.toNat_lt, fun _ _ => U.ext', by decide⟩
instance : LawfulSizedKey (U 32) := ⟨fun k => k.toNat_lt, fun _ _ => U.ext', by decide⟩

end Veb
