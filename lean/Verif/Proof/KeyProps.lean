import Verif.Proof.KeyLaws
import Verif.SpecKey
import Mathlib.SetTheory.Cardinal.Finite

/-!
Helper lemmas for the key properties.
-/

set_option autoImplicit false

namespace Veb
open VebKey (splitVal join)

theorem inverse_of_nat {w h : Nat} [VebKey (U w) (U h) (U h)] [VebKeyRef (U w) (U h) (U h)]
    [L : LawfulVebKey (U w) (U h) (U h)] (hw : w = h + h)
    (s : ∀ x : U w, splitVal x = ((x.shr h).cast h, x.cast h))
    (j : ∀ hi lo : U h, (join hi lo : U w) = ((hi.cast w).shl h).or (lo.cast w)) : Inverse (U w) := by
  refine ⟨L.join_split, fun hi lo => ?_⟩
  have e := U.join_toNat hw hi lo
  rw [s, j]
  refine Prod.ext (U.ext' ?_) (U.ext' ?_)
  · rw [U.hi_toNat hw, e, Nat.mul_comm, Nat.mul_add_div (Nat.two_pow_pos _), Nat.div_eq_of_lt lo.toNat_lt]
    rfl
  · rw [U.lo_toNat, e, Nat.mul_comm, Nat.mul_add_mod, Nat.mod_eq_of_lt lo.toNat_lt]

theorem inverse_signed {w : Nat} (hw : 0 < w) {Hi Lo : Type} [VebKey (U w) Hi Lo] [VebKey (S w) Hi Lo]
    (sp : ∀ x : S w, splitVal x = splitVal (x.absDiff S.MIN))
    (jn : ∀ hi lo, (join hi lo : S w) = S.ofUWrappingAdd (join hi lo) S.MIN)
    (h : Inverse (U w)) : Inverse (S w) :=
  ⟨fun k => by rw [jn, sp, h.1, S.ofU_absDiff hw], fun hi lo => by rw [sp, jn, S.absDiff_ofU hw, h.2]⟩

theorem inverseOn_u8 : InverseOn (U 8) (fun _ => True) U4Ok U4Ok := by
  refine ⟨fun k _ => ⟨?_, ?_, LawfulVebKey.join_split k⟩, fun h l h1 h2 => ⟨trivial, ?_⟩⟩
  · have := k.toNat_lt
    rw [U4Ok, u8_hi]
    omega
  · rw [U4Ok, u8_lo]
    omega
  · have h1' : h.val.bits.toNat ≤ 15 := h1
    have h2' : l.val.bits.toNat ≤ 15 := h2
    have e := u8_join h l (by omega) (by omega)
    refine Prod.ext (U4.val_inj (U.ext' ?_)) (U4.val_inj (U.ext' ?_))
    · rw [u8_hi, e]; show _ = h.val.bits.toNat; omega
    · rw [u8_lo, e]; show _ = l.val.bits.toNat; omega

theorem inverseOn_i8 : InverseOn (S 8) (fun _ => True) U4Ok U4Ok := by
  refine ⟨fun k _ => ?_, fun h l h1 h2 => ⟨trivial, ?_⟩⟩
  · obtain ⟨a, b, _⟩ := inverseOn_u8.1 (k.absDiff S.MIN) trivial
    exact ⟨a, b, LawfulVebKey.join_split k⟩
  · show splitVal ((S.ofUWrappingAdd (join h l : U 8) S.MIN).absDiff S.MIN) = (h, l)
    rw [S.absDiff_ofU (by decide)]
    exact (inverseOn_u8.2 h l h1 h2).2

theorem inverseOn_u4 : InverseOn U4 U4Ok U2Ok U2Ok := by
  refine ⟨fun k hk => ⟨?_, ?_, LawfulVebKey.join_split k⟩, fun h l h1 h2 => ?_⟩
  · have hk : k.val.bits.toNat ≤ 15 := hk
    rw [U2Ok, u4_hi]
    omega
  · rw [U2Ok, u4_lo]
    omega
  · have h1' : h.val.bits.toNat ≤ 3 := h1
    have h2' : l.val.bits.toNat ≤ 3 := h2
    have e := u4_join h l (by omega) (by omega)
    refine ⟨?_, Prod.ext (U2.val_inj (U.ext' ?_)) (U2.val_inj (U.ext' ?_))⟩
    · rw [U4Ok, e]; omega
    · rw [u4_hi, e]; show _ = h.val.bits.toNat; omega
    · rw [u4_lo, e]; show _ = l.val.bits.toNat; omega

/-- the four values of a `U2` -/
theorem U2Ok.cases {x : U2} (h : U2Ok x) :
    x = ⟨U.lit 0⟩ ∨ x = ⟨U.lit 1⟩ ∨ x = ⟨U.lit 2⟩ ∨ x = ⟨U.lit 3⟩ := by
  have h : x.val.bits.toNat ≤ 3 := h
  have e : ∀ n, n < 256 → x.val.bits.toNat = n → x = ⟨U.lit n⟩ := by
    intro n hn hx
    apply U2.val_inj
    apply U.ext'
    rw [hx]
    simp only [U.lit, BitVec.toNat_ofNat]
    omega
  have : x.val.bits.toNat = 0 ∨ x.val.bits.toNat = 1 ∨ x.val.bits.toNat = 2 ∨ x.val.bits.toNat = 3 := by omega
  rcases this with h | h | h | h
  · exact .inl (e 0 (by decide) h)
  · exact .inr (.inl (e 1 (by decide) h))
  · exact .inr (.inr (.inl (e 2 (by decide) h)))
  · exact .inr (.inr (.inr (e 3 (by decide) h)))

theorem inverseOn_u2 : InverseOn U2 U2Ok (fun _ => True) (fun _ => True) := by
  refine ⟨fun k hk => ⟨trivial, trivial, ?_⟩, fun h l _ _ => ?_⟩
  · rcases hk.cases with rfl | rfl | rfl | rfl <;> decide
  · cases h <;> cases l <;> exact ⟨by unfold U2Ok; decide, by decide⟩

theorem lexCmp_u2 {a b : U2} (ha : U2Ok a) (hb : U2Ok b) : cmp a b = lexCmp (splitVal a) (splitVal b) := by
  rcases ha.cases with rfl | rfl | rfl | rfl <;> rcases hb.cases with rfl | rfl | rfl | rfl <;> decide

theorem orderPreserving (K : Type) {Hi Lo : Type} [LinearOrder K] [LinearOrder Hi] [LinearOrder Lo]
    [VebKey K Hi Lo] [VebKeyRef K Hi Lo] [L : LawfulVebKey K Hi Lo] : OrderPreserving K := by
  intro a b
  have h1 := L.lt_iff a b
  have h2 : a = b ↔ splitVal a = splitVal b :=
    ⟨fun h => by rw [h], fun h => by rw [← L.join_split a, h, L.join_split b]⟩
  rcases ha : splitVal a with ⟨ha1, ha2⟩
  rcases hb : splitVal b with ⟨hb1, hb2⟩
  rw [ha, hb] at h1 h2
  simp only [Prod.mk.injEq] at h2
  simp only [cmp, lexCmp, h1, h2]
  rcases lt_trichotomy ha1 hb1 with h | h | h
  · simp [h]
  · subst h; simp
  · simp [h.ne', h.not_gt]

theorem U4Ok.ofU8 (x : U 8) : U4Ok (U4.ofU8 x) := by rw [U4Ok, U4.ofU8_toNat]; omega
theorem U2Ok.ofU8 (x : U 8) : U2Ok (U2.ofU8 x) := by rw [U2Ok, U2.ofU8_toNat]; omega

theorem U4Ok.shl {x y : U4} {n : Nat} (h : x.shl n = .ok y) : U4Ok y := by
  unfold U4.shl shlU8 at h
  by_cases hn : n < 8
  · simp only [hn, if_true, R.ok_bind, R.pure_eq, Except.ok.injEq] at h
    exact h ▸ U4Ok.ofU8 _
  · simp only [hn, if_false] at h
    cases h
theorem U4Ok.shr {x y : U4} {n : Nat} (h : x.shr n = .ok y) : U4Ok y := by
  unfold U4.shr shrU8 at h
  by_cases hn : n < 8
  · simp only [hn, if_true, R.ok_bind, R.pure_eq, Except.ok.injEq] at h
    exact h ▸ U4Ok.ofU8 _
  · simp only [hn, if_false] at h
    cases h
theorem U2Ok.shl {x y : U2} {n : Nat} (h : x.shl n = .ok y) : U2Ok y := by
  unfold U2.shl shlU8 at h
  by_cases hn : n < 8
  · simp only [hn, if_true, R.ok_bind, R.pure_eq, Except.ok.injEq] at h
    exact h ▸ U2Ok.ofU8 _
  · simp only [hn, if_false] at h
    cases h
theorem U2Ok.shr {x y : U2} {n : Nat} (h : x.shr n = .ok y) : U2Ok y := by
  unfold U2.shr shrU8 at h
  by_cases hn : n < 8
  · simp only [hn, if_true, R.ok_bind, R.pure_eq, Except.ok.injEq] at h
    exact h ▸ U2Ok.ofU8 _
  · simp only [hn, if_false] at h
    cases h

mutual
theorem ReachU4.ok {x : U4} : ReachU4 x → U4Ok x
  | .ofU8 x => U4Ok.ofU8 x
  | .ofU2 h => le_trans (b := 3) h.ok (by decide)
  | .bitor _ _ => U4Ok.ofU8 _
  | .shl _ _ h => U4Ok.shl h
  | .shr _ _ h => U4Ok.shr h
  | .hi x => (inverseOn_u8.1 x trivial).1
  | .lo x => (inverseOn_u8.1 x trivial).2.1
  | .hiS x => (inverseOn_i8.1 x trivial).1
  | .loS x => (inverseOn_i8.1 x trivial).2.1
  | .join h1 h2 => (inverseOn_u4.2 _ _ h1.ok h2.ok).1
theorem ReachU2.ok {x : U2} : ReachU2 x → U2Ok x
  | .ofU8 x => U2Ok.ofU8 x
  | .ofU4 _ => U2Ok.ofU8 _
  | .bitor _ _ => U2Ok.ofU8 _
  | .shl _ _ h => U2Ok.shl h
  | .shr _ _ h => U2Ok.shr h
  | .hi h => (inverseOn_u4.1 _ h.ok).1
  | .lo h => (inverseOn_u4.1 _ h.ok).2.1
  | .join x y => (inverseOn_u2.2 x y trivial trivial).1
end

/-! ### arrays -/

section
variable {T : Type} [LinearOrder T]
theorem inverse_arr2 : Inverse (Arr T 2) := ⟨LawfulVebKey.join_split, fun _ _ => rfl⟩
theorem inverse_arr3 : Inverse (Arr T 3) := ⟨LawfulVebKey.join_split, fun h l => by
  refine Prod.ext rfl ?_
  exact Arr.drop_append (h := 1) (m := 2) ⟨[h], rfl⟩ l⟩
theorem inverse_arr4 : Inverse (Arr T 4) := ⟨LawfulVebKey.join_split, fun a b =>
  Prod.ext (Arr.take_append (h := 2) (m := 2) a b) (Arr.drop_append (h := 2) (m := 2) a b)⟩
theorem inverse_arr5 : Inverse (Arr T 5) := ⟨LawfulVebKey.join_split, fun a b =>
  Prod.ext (Arr.take_append (h := 2) (m := 3) a b) (Arr.drop_append (h := 2) (m := 3) a b)⟩
theorem inverse_arr6 : Inverse (Arr T 6) := ⟨LawfulVebKey.join_split, fun a b =>
  Prod.ext (Arr.take_append (h := 3) (m := 3) a b) (Arr.drop_append (h := 3) (m := 3) a b)⟩
theorem inverse_arr7 : Inverse (Arr T 7) := ⟨LawfulVebKey.join_split, fun a b =>
  Prod.ext (Arr.take_append (h := 3) (m := 4) a b) (Arr.drop_append (h := 3) (m := 4) a b)⟩
theorem inverse_arr8 : Inverse (Arr T 8) := ⟨LawfulVebKey.join_split, fun a b =>
  Prod.ext (Arr.take_append (h := 4) (m := 4) a b) (Arr.drop_append (h := 4) (m := 4) a b)⟩
theorem inverse_arr16 : Inverse (Arr T 16) := ⟨LawfulVebKey.join_split, fun a b =>
  Prod.ext (Arr.take_append (h := 8) (m := 8) a b) (Arr.drop_append (h := 8) (m := 8) a b)⟩
end

/-! ### indices of signed keys -/

theorem S.indexWrap_eq {w : Nat} (hw : 0 < w) (x : S w) :
    x.indexWrap = ((x.absDiff S.MIN).bits.signExtend 64).toNat := by
  simp only [S.indexWrap, S.absDiff, if_neg (S.not_lt_min hw x)]

theorem indexOk_i64 : IndexOk (S 64) (fun _ => True) := by
  have e : ∀ x : S 64, SizedVebKey.index x = (x.absDiff S.MIN).bits.toNat := by
    intro x
    show x.indexWrap = _
    rw [S.indexWrap_eq (by decide), BitVec.signExtend_eq]
  constructor
  · intro k _
    rw [e]
    exact (k.absDiff S.MIN).toNat_lt
  · intro a b _ _ h
    rw [e, e] at h
    have := U.ext' h
    rw [← S.ofU_absDiff (by decide) a, ← S.ofU_absDiff (by decide) b, this]

/-- The index of a signed key narrower than `usize`: right for negative keys, huge for the others. -/
theorem S.indexWrap_nonneg {w : Nat} (hw : 0 < w) (hw' : w < 64) (x : S w) (hx : 0 ≤ x.bits.toInt) :
    2 ^ 64 - 2 ^ (w - 1) ≤ x.indexWrap := by
  have h1 := S.absDiff_toNat hw x
  have h2 : x.bits.toInt < 2 ^ (w - 1) := BitVec.toInt_lt
  have h3 : (x.absDiff S.MIN).bits.msb = true := by
    rw [BitVec.msb_eq_true_iff_two_mul_ge]
    obtain ⟨n, rfl⟩ : ∃ n, w = n + 1 := ⟨w - 1, by omega⟩
    simp only [Nat.add_sub_cancel] at h1
    have e : (((2 : Nat) ^ n : Nat) : Int) = (2 : Int) ^ n := by push_cast; rfl
    rw [pow_succ]
    omega
  rw [S.indexWrap_eq hw, BitVec.toNat_signExtend, h3]
  obtain ⟨n, rfl⟩ : ∃ n, w = n + 1 := ⟨w - 1, by omega⟩
  simp only [Nat.add_sub_cancel] at h1 ⊢
  have e : (((2 : Nat) ^ n : Nat) : Int) = (2 : Int) ^ n := by push_cast; rfl
  have h4 : 2 ^ n ≤ (x.absDiff S.MIN).bits.toNat := by omega
  have h5 := (x.absDiff S.MIN).toNat_lt
  have h6 : (2:Nat) ^ (n+1) ≤ 2 ^ 64 := Nat.pow_le_pow_right (by decide) (by omega)
  simp only [if_true, BitVec.toNat_setWidth]
  rw [Nat.mod_eq_of_lt (lt_of_lt_of_le h5 h6)]
  have : 2 ^ (n+1) = 2 * 2 ^ n := by rw [pow_succ]; ring
  omega

theorem S.indexWrap_neg {w : Nat} (hw : 0 < w) (hw' : w < 64) (x : S w) (hx : x.bits.toInt < 0) :
    (x.indexWrap : Int) = x.bits.toInt + 2 ^ (w - 1) := by
  have h1 := S.absDiff_toNat hw x
  have h3 : (x.absDiff S.MIN).bits.msb = false := by
    rw [BitVec.msb_eq_false_iff_two_mul_lt]
    obtain ⟨n, rfl⟩ : ∃ n, w = n + 1 := ⟨w - 1, by omega⟩
    simp only [Nat.add_sub_cancel] at h1
    have e : (((2 : Nat) ^ n : Nat) : Int) = (2 : Int) ^ n := by push_cast; rfl
    rw [pow_succ]
    omega
  rw [S.indexWrap_eq hw, BitVec.toNat_signExtend, h3]
  have h5 := (x.absDiff S.MIN).toNat_lt
  have h6 : (2:Nat) ^ w ≤ 2 ^ 64 := Nat.pow_le_pow_right (by decide) (by omega)
  simp only [Bool.false_eq_true, if_false, BitVec.toNat_setWidth]
  rw [Nat.mod_eq_of_lt (lt_of_lt_of_le h5 h6)]
  omega

/-! ### counting values -/

theorem card_bitVec (w : Nat) : Nat.card (BitVec w) = 2 ^ w := by
  have e : BitVec w ≃ Fin (2 ^ w) :=
    ⟨BitVec.toFin, BitVec.ofFin, fun _ => rfl, fun _ => rfl⟩
  rw [Nat.card_congr e, Nat.card_fin]

theorem card_U (w : Nat) : Nat.card (U w) = 2 ^ w := by
  rw [← card_bitVec w]
  exact Nat.card_congr ⟨U.bits, U.mk, fun _ => rfl, fun _ => rfl⟩

theorem card_S (w : Nat) : Nat.card (S w) = 2 ^ w := by
  rw [← card_bitVec w]
  exact Nat.card_congr ⟨S.bits, S.mk, fun _ => rfl, fun _ => rfl⟩

/-- bytes at most `n` are as many as the numbers below `n + 1` -/
def leEquiv (n : Nat) (hn : n < 256) : { x : U 8 // x.bits.toNat ≤ n } ≃ Fin (n + 1) where
  toFun x := ⟨x.1.bits.toNat, Nat.lt_succ_of_le x.2⟩
  invFun i := ⟨U.lit i.1, by
    simp only [U.lit, BitVec.toNat_ofNat]
    rw [Nat.mod_eq_of_lt (by omega)]
    omega⟩
  left_inv x := by
    apply Subtype.ext
    apply U.ext'
    simp only [U.lit, BitVec.toNat_ofNat]
    exact Nat.mod_eq_of_lt x.1.toNat_lt
  right_inv i := by
    apply Fin.ext
    simp only [U.lit, BitVec.toNat_ofNat]
    exact Nat.mod_eq_of_lt (by omega)

theorem card_U4 : Nat.card { x : U4 // U4Ok x } = 2 ^ 4 := by
  have e : { x : U4 // U4Ok x } ≃ { x : U 8 // x.bits.toNat ≤ 15 } :=
    ⟨fun x => ⟨x.1.val, x.2⟩, fun x => ⟨⟨x.1⟩, x.2⟩, fun _ => rfl, fun _ => rfl⟩
  rw [Nat.card_congr (e.trans (leEquiv 15 (by decide))), Nat.card_fin]
  rfl

theorem card_U2 : Nat.card { x : U2 // U2Ok x } = 2 ^ 2 := by
  have e : { x : U2 // U2Ok x } ≃ { x : U 8 // x.bits.toNat ≤ 3 } :=
    ⟨fun x => ⟨x.1.val, x.2⟩, fun x => ⟨⟨x.1⟩, x.2⟩, fun _ => rfl, fun _ => rfl⟩
  rw [Nat.card_congr (e.trans (leEquiv 3 (by decide))), Nat.card_fin]
  rfl

end Veb
