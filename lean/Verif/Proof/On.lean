import Verif.SpecOn
import Verif.Proof.Same

/-!
Tree types whose keys are right on a part run like tree types over that part.
-/

set_option autoImplicit false
set_option linter.unusedSectionVars false
namespace Veb
open VebKey (splitVal join)

theorem CrateCollOn.shape {C' Hi' T' Lo' V Hi : Type} [LinearOrder Hi] [VebTree T' Lo' V]
    [TreeCollection C' Hi' T' Lo' V] {πh : Hi → Hi'} (h : CrateCollOn C' Hi' T' Lo' V Hi πh) :
    ∀ (T Lo : Type) [VebTree T Lo V], ∃ (C : Type) (_ : TreeCollection C Hi T Lo V),
      CrateColl C Hi T Lo V ∧ CollShape C Hi T Lo V C' Hi' T' Lo' V πh := by
  induction h with
  | @array Hi' T' Lo' V Hi _ _ _ _ πh h hx hn => intro T Lo _; exact ⟨ArrayColl Hi T, inferInstance, .array h, .array hx hn⟩
  | @crate C' Hi' T' Lo' V Hi _ _ _ _ πh hi h => intro T Lo _; exact ⟨HashMap Hi T, inferInstance, .hash, .crate hi .hash h⟩
  | box h ih => intro T Lo _; obtain ⟨C, _, h1, h2⟩ := ih T Lo; exact ⟨C, _, h1, .boxR h2⟩

theorem CrateTreeOn.shape {T' K' V K : Type} [LinearOrder K] [VebTree T' K' V] {π : K → K'}
    {safe : (K → Prop) → K → Prop} (h : CrateTreeOn T' K' V K π safe) :
    ∃ (T : Type) (_ : VebTree T K V), CrateTree T K V safe ∧ SameShape T K V T' K' V π id := by
  induction h with
  | @leaf T' K' V K _ _ _ π hm h => exact ⟨BTreeMap K V, inferInstance, .btreeMap, .mapped hm .btreeMap h⟩
  | box h ih => obtain ⟨T, _, h1, h2⟩ := ih; exact ⟨T, _, h1, .boxR h2⟩
  | sized h ih => obtain ⟨T, _, h1, h2⟩ := ih; exact ⟨SizedVebTree T, inferInstance, .sized h1, .sized h2⟩
  | @tree K' V S' C' Hi' Lo' T' K Hi Lo _ _ _ _ _ _ _ _ _ _ _ π πh πl safeS safeT hk hm hf hs ht hc ihs iht =>
    obtain ⟨S, _, s1, s2⟩ := ihs
    obtain ⟨T, _, t1, t2⟩ := iht
    obtain ⟨C, _, c1, c2⟩ := hc.shape T Lo
    exact ⟨Tree K V S C, inferInstance, .tree hk s1 t1 c1, .node hm hf s2 t2 c2⟩

theorem CrateTreeOn.mono {T' K' V K : Type} [LinearOrder K] [LinearOrder K'] [VebTree T' K' V] {π : K → K'}
    {safe : (K → Prop) → K → Prop} (h : CrateTreeOn T' K' V K π safe) : Function.Injective π :=
  let ⟨_, _, _, h2⟩ := h.shape
  h2.injective

/-! ## The values in range -/

theorem lt_of_lexCmp {A B K : Type} [LinearOrder A] [LinearOrder B] [LinearOrder K] {a b : K} {p q : A × B}
    (h : cmp a b = lexCmp p q) : a < b ↔ p.1 < q.1 ∨ p.1 = q.1 ∧ p.2 < q.2 := by
  have h1 : a < b ↔ cmp a b = .lt := by
    unfold cmp
    split
    · rename_i e; exact ⟨fun _ => rfl, fun _ => e⟩
    · rename_i e; exact ⟨fun h => absurd h e, fun h => by split at h <;> cases h⟩
  rw [h1, h, lexCmp]
  rcases lt_trichotomy p.1 q.1 with h2 | h2 | h2
  · simp [cmp, h2]
  · simp only [cmp, h2, lt_irrefl, if_false, if_true, true_and, false_or]
    split
    · rename_i e; exact ⟨fun _ => e, fun _ => rfl⟩
    · rename_i e; exact ⟨fun h => (by split at h <;> cases h), fun h => absurd h e⟩
  · simp [cmp, h2.not_gt, h2.ne']

theorem goodKey_byte : GoodKey Byte Nib Nib where
  rejoin k := Byte.raw_inj (LawfulVebKey.join_split k.raw)
  ref _ := rfl
  order a b := by
    refine (LawfulVebKey.lt_iff a.raw b.raw).trans (or_congr Iff.rfl (and_congr ?_ Iff.rfl))
    exact ⟨fun e => Nib.raw_inj e, fun e => congrArg Nib.raw e⟩
theorem goodKey_sbyte : GoodKey SByte Nib Nib where
  rejoin k := SByte.raw_inj (LawfulVebKey.join_split k.raw)
  ref _ := rfl
  order a b := by
    refine (LawfulVebKey.lt_iff a.raw b.raw).trans (or_congr Iff.rfl (and_congr ?_ Iff.rfl))
    exact ⟨fun e => Nib.raw_inj e, fun e => congrArg Nib.raw e⟩
theorem goodKey_nib : GoodKey Nib Crumb Crumb where
  rejoin k := Nib.raw_inj (LawfulVebKey.join_split k.raw)
  ref _ := rfl
  order a b := by
    refine (LawfulVebKey.lt_iff a.raw b.raw).trans (or_congr Iff.rfl (and_congr ?_ Iff.rfl))
    exact ⟨fun e => Crumb.raw_inj e, fun e => congrArg Crumb.raw e⟩
theorem goodKey_crumb : GoodKey Crumb Bool Bool where
  rejoin k := Crumb.raw_inj (inverseOn_u2.1 k.raw k.2).2.2
  ref _ := rfl
  order a b := lt_of_lexCmp (a := a.raw) (b := b.raw) (lexCmp_u2 a.2 b.2)

theorem goodIndex_nib : GoodIndex Nib where
  lt k := Nat.lt_succ_of_le k.2
  inj a b e := Nib.raw_inj (U4.val_inj (U.ext' e))
  fits := by decide
theorem goodIndex_crumb : GoodIndex Crumb where
  lt k := Nat.lt_succ_of_le k.2
  inj a b e := Crumb.raw_inj (U2.val_inj (U.ext' e))
  fits := by decide

theorem forgets_byte : KeyForgets Byte.raw Nib.raw Nib.raw := ⟨fun _ => rfl, fun _ => LawfulVebKey.ref_eq _, fun _ _ => rfl⟩
theorem forgets_sbyte : KeyForgets SByte.raw Nib.raw Nib.raw :=
  ⟨fun _ => rfl, fun _ => LawfulVebKey.ref_eq _, fun _ _ => rfl⟩
theorem forgets_nib : KeyForgets Nib.raw Crumb.raw Crumb.raw :=
  ⟨fun _ => rfl, fun _ => LawfulVebKey.ref_eq _, fun _ _ => rfl⟩
theorem forgets_crumb : KeyForgets Crumb.raw (id : Bool → Bool) (id : Bool → Bool) :=
  ⟨fun _ => rfl, fun _ => rfl, fun _ _ => rfl⟩

theorem mono_byte : StrictMono Byte.raw := fun _ _ h => h
theorem mono_sbyte : StrictMono SByte.raw := fun _ _ h => h
theorem mono_nib : StrictMono Nib.raw := fun _ _ h => h
theorem mono_crumb : StrictMono Crumb.raw := fun _ _ h => h

end Veb
