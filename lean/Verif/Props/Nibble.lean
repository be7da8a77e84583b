import Verif.Proof.On
import Verif.Props.Same

/-!
# C56: trees over keys that are right on a part of their values: `u8`, `i8`, `U4`, `U2` and their halves
-/

set_option autoImplicit false
set_option linter.unusedSectionVars false

namespace Veb.Props

variable {T' K' V K : Type} [LinearOrder K] [LinearOrder K'] [VebTree T' K' V] {π : K → K'} {safe : (K → Prop) → K → Prop}

theorem opRename_id (ops : List (Op K V)) : ops.map (Op.rename π id) = ops.map (Op.forget π) := by rw [Op.rename_id]

/-- the ordered map does not see how the keys are called -/
theorem sorted_forget (hm : StrictMono π) (ops : List (Op K V)) :
    (SL.run [] (ops.map (Op.forget π))).2 = (SL.run [] ops).2.map (Out.forget π) ∧
    (entries (ops.map (Op.forget π)) = [] ↔ entries ops = []) := by
  obtain ⟨S, hS⟩ := (SameShape.mapped (f := id) hm (.btreeMap (V := V)) (.btreeMap (V := V))).same
  obtain ⟨t, e, ht⟩ := C11_btreeMap_history K V ops
  obtain ⟨t', e', ht'⟩ := C11_btreeMap_history K' V (ops.map (Op.forget π))
  have h := hS.run ops (t := none) (t' := none) .none
  rw [opRename_id, Out.rename_id, e, e'] at h
  generalize hx : (SL.run [] (ops.map (Op.forget π))).2 = x at h ⊢
  cases h with
  | ok h =>
    refine ⟨h.2, ?_⟩
    rw [← ht, ← ht']
    have h := h.1
    dsimp only at h
    cases h with
    | none => exact ⟨fun _ => rfl, fun _ => rfl⟩
    | some h => exact ⟨fun e => (by cases e), fun e => (by cases e)⟩

/-- **C56.** A tree type whose keys are right on a part of their values runs like the ordered map on every history that
uses this part only and has safe insertions. -/
theorem C56_history (hm : StrictMono π) (h : CrateTreeOn T' K' V K π safe) (ops : List (Op K V))
    (hs : SL.SafeHist safe [] ops) : RunsLikeMap T' (ops.map (Op.forget π)) := by
  obtain ⟨T, _, h1, h2⟩ := h.shape
  obtain ⟨S, hS⟩ := h2.same
  obtain ⟨t, e, ht⟩ := C17_history_partial h1 ops hs
  obtain ⟨o1, o2⟩ := sorted_forget (V := V) hm ops
  have hr := hS.run ops (t := none) (t' := none) .none
  rw [opRename_id, Out.rename_id, e] at hr
  generalize hx : Exec.run (none : Option T') (ops.map (Op.forget π)) = x at hr
  cases hr with
  | @ok _ b h =>
    obtain ⟨t', os⟩ := b
    obtain ⟨hr, rfl⟩ := h
    refine ⟨t', by rw [hx, o1], ?_⟩
    rw [o2, ← ht]
    dsimp only at hr
    cases hr with
    | none => exact ⟨fun _ => rfl, fun _ => rfl⟩
    | some h => exact ⟨fun e => (by cases e), fun e => (by cases e)⟩

/-- **C56, panics.** It never panics, also after unsafe insertions, as long as at most `usize::MAX` entries are inserted. -/
theorem C56_no_panic (h : CrateTreeOn T' K' V K π safe) (ops : List (Op K V)) (hn : insertions ops ≤ usizeMax) :
    NeverPanics T' (ops.map (Op.forget π)) := by
  obtain ⟨T, _, h1, h2⟩ := h.shape
  obtain ⟨S, hS⟩ := h2.same
  obtain ⟨r, e⟩ := C25_no_panic_partial h1 ops hn
  have hr := hS.run ops (t := none) (t' := none) .none
  rw [opRename_id, e] at hr
  generalize hx : Exec.run (none : Option T') (ops.map (Op.forget π)) = x at hr
  cases hr with
  | ok h => exact ⟨_, hx⟩

/-- **C56, all histories.** On every history, and with iterators advanced in every way, it answers as a tree type of the
crate over the part answers, which all other theorems are about. -/
theorem C56_shape (h : CrateTreeOn T' K' V K π safe) :
    ∃ (T : Type) (_ : VebTree T K V), CrateTree T K V safe ∧
      (∀ ops : List (Op K V), Agree (fun os os' => os' = os.map (Out.forget π)) (outputs T ops)
        (outputs T' (ops.map (Op.forget π)))) ∧
      (∀ (ops : List (Op K V)) (ss : List Side), Agree (fun os os' => os' = os.map (Option.map fun e => (π e.1, e.2)))
        (itemsAfter T ops ss) (itemsAfter T' (ops.map (Op.forget π)) ss)) := by
  obtain ⟨T, _, h1, h2⟩ := h.shape
  exact ⟨T, _, h1, C46_shape h2, C46_iter h2⟩

/-! ## The key types of src/key.rs below 16 bits -/

/-- **C56, the keys.** On the values in range `u8` and `i8` are made of `U4` halves, `U4` of `U2` halves and `U2` of `bool`
halves as `VebKey` intends, and `U4` and `U2` are indices as `SizedVebKey` intends. -/
theorem C56_keys :
    (GoodKey Byte Nib Nib ∧ KeyForgets Byte.raw Nib.raw Nib.raw ∧ StrictMono Byte.raw) ∧
    (GoodKey SByte Nib Nib ∧ KeyForgets SByte.raw Nib.raw Nib.raw ∧ StrictMono SByte.raw) ∧
    (GoodKey Nib Crumb Crumb ∧ KeyForgets Nib.raw Crumb.raw Crumb.raw ∧ StrictMono Nib.raw) ∧
    (GoodKey Crumb Bool Bool ∧ KeyForgets Crumb.raw (id : Bool → Bool) (id : Bool → Bool) ∧ StrictMono Crumb.raw) ∧
    (GoodIndex Nib ∧ SizedVebKey.cardinality Nib = 16) ∧ (GoodIndex Crumb ∧ SizedVebKey.cardinality Crumb = 4) :=
  ⟨⟨goodKey_byte, forgets_byte, mono_byte⟩, ⟨goodKey_sbyte, forgets_sbyte, mono_sbyte⟩,
   ⟨goodKey_nib, forgets_nib, mono_nib⟩, ⟨goodKey_crumb, forgets_crumb, mono_crumb⟩,
   ⟨goodIndex_nib, rfl⟩, ⟨goodIndex_crumb, rfl⟩⟩

/-- **C56, the parts.** Every `u8` and `i8` is used; of `U4` and `U2` the values a user can obtain (C05). -/
theorem C56_used :
    Function.Bijective Byte.raw ∧ Function.Bijective SByte.raw ∧
    (∀ x, ReachU4 x → ∃ y : Nib, y.raw = x) ∧ (∀ x, ReachU2 x → ∃ y : Crumb, y.raw = x) :=
  ⟨⟨Byte.raw_inj, fun x => ⟨⟨x⟩, rfl⟩⟩, ⟨SByte.raw_inj, fun x => ⟨⟨x⟩, rfl⟩⟩, fun _ h => ⟨⟨_, h.ok⟩, rfl⟩,
   fun _ h => ⟨⟨_, h.ok⟩, rfl⟩⟩

/-- A tree of `U2` keys, children in a hash map of `bool`. -/
abbrev Tree2 (V : Type) := Tree U2 V (BTreeMap Bool Unit) (HashMap Bool (BTreeMap Bool V))
/-- A tree of `U4` keys, children in an array indexed by `U2`. -/
abbrev Tree4 (V : Type) := Tree U4 V (Tree2 Unit) (ArrayColl U2 (Tree2 V))
/-- A tree of `u8` or `i8` keys, children in an array indexed by `U4`. -/
abbrev Tree8 (K V : Type) := Tree K V (Tree4 Unit) (ArrayColl U4 (Tree4 V))

instance (V : Type) : VebTree (Tree2 V) U2 V := inferInstance
instance (V : Type) : VebTree (Tree4 V) U4 V := inferInstance

/-- safe insertions into a `Tree2` -/
abbrev safe2 : (Crumb → Prop) → Crumb → Prop := Tree.Safe always always
/-- safe insertions into a `Tree4` -/
abbrev safe4 : (Nib → Prop) → Nib → Prop := Tree.Safe safe2 safe2
/-- safe insertions into a `Tree8` -/
abbrev safe8 {K : Type} [LinearOrder K] [VebKey K Nib Nib] : (K → Prop) → K → Prop := Tree.Safe safe4 safe4

theorem tree2 (V : Type) : CrateTreeOn (Tree2 V) U2 V Crumb Crumb.raw safe2 :=
  .tree goodKey_crumb mono_crumb forgets_crumb (.leaf strictMono_id .btreeMap) (.leaf strictMono_id .btreeMap)
    (.crate Function.injective_id .hash)
theorem tree4 (V : Type) : CrateTreeOn (Tree4 V) U4 V Nib Nib.raw safe4 :=
  .tree goodKey_nib mono_nib forgets_nib (tree2 Unit) (tree2 V) (.array goodIndex_crumb (fun _ => rfl) rfl)
theorem tree8 (V : Type) : CrateTreeOn (Tree8 (U 8) V) (U 8) V Byte Byte.raw safe8 :=
  .tree goodKey_byte mono_byte forgets_byte (tree4 Unit) (tree4 V) (.array goodIndex_nib (fun _ => rfl) rfl)
theorem treeS8 (V : Type) : CrateTreeOn (Tree8 (S 8) V) (S 8) V SByte SByte.raw safe8 :=
  .tree goodKey_sbyte mono_sbyte forgets_sbyte (tree4 Unit) (tree4 V) (.array goodIndex_nib (fun _ => rfl) rfl)

theorem forget_surj (ops : List (Op (U 8) V)) : ∃ ops' : List (Op Byte V), ops'.map (Op.forget Byte.raw) = ops := by
  refine ⟨ops.map (Op.forget Byte.mk), ?_⟩
  rw [List.map_map]
  exact List.map_id'' (fun op => by cases op <;> rfl) ops
theorem forget_surjS (ops : List (Op (S 8) V)) : ∃ ops' : List (Op SByte V), ops'.map (Op.forget SByte.raw) = ops := by
  refine ⟨ops.map (Op.forget SByte.mk), ?_⟩
  rw [List.map_map]
  exact List.map_id'' (fun op => by cases op <;> rfl) ops

theorem insertions_forget (ops : List (Op K V)) : insertions (ops.map (Op.forget π)) = insertions ops := by
  rw [insertions, List.countP_map, insertions]
  congr 1
  funext op
  cases op <;> rfl

/-- **C56, eight bits split down to single bits.** A tree of `u8` (`i8`) keys over arrays indexed by `U4`, over trees of `U4`
keys over arrays indexed by `U2`, over trees of `U2` keys: it runs like the ordered map on every history with safe
insertions; and on no history, however unsafe and however long its insertions up to `usize::MAX`, is an array accessed out of
bounds or a missing child expected. -/
theorem C56_eight_bit (V : Type) :
    (∀ ops : List (Op Byte V), SL.SafeHist safe8 [] ops → RunsLikeMap (Tree8 (U 8) V) (ops.map (Op.forget Byte.raw))) ∧
    (∀ ops : List (Op SByte V), SL.SafeHist safe8 [] ops → RunsLikeMap (Tree8 (S 8) V) (ops.map (Op.forget SByte.raw))) ∧
    (∀ ops : List (Op (U 8) V), insertions ops ≤ usizeMax → NeverPanics (Tree8 (U 8) V) ops) ∧
    (∀ ops : List (Op (S 8) V), insertions ops ≤ usizeMax → NeverPanics (Tree8 (S 8) V) ops) := by
  refine ⟨fun ops => C56_history mono_byte (tree8 V) ops, fun ops => C56_history mono_sbyte (treeS8 V) ops,
    fun ops hn => ?_, fun ops hn => ?_⟩
  · obtain ⟨ops, rfl⟩ := forget_surj ops
    rw [insertions_forget] at hn
    exact C56_no_panic (tree8 V) ops hn
  · obtain ⟨ops, rfl⟩ := forget_surjS ops
    rw [insertions_forget] at hn
    exact C56_no_panic (treeS8 V) ops hn

/-- **C56, four and two bits.** So do the trees of `U4` and of `U2` keys inside, on the keys in range. -/
theorem C56_small (V : Type) :
    (∀ ops : List (Op Nib V), SL.SafeHist safe4 [] ops → RunsLikeMap (Tree4 V) (ops.map (Op.forget Nib.raw))) ∧
    (∀ ops : List (Op Crumb V), SL.SafeHist safe2 [] ops → RunsLikeMap (Tree2 V) (ops.map (Op.forget Crumb.raw))) ∧
    (∀ ops : List (Op Nib V), insertions ops ≤ usizeMax → NeverPanics (Tree4 V) (ops.map (Op.forget Nib.raw))) ∧
    (∀ ops : List (Op Crumb V), insertions ops ≤ usizeMax → NeverPanics (Tree2 V) (ops.map (Op.forget Crumb.raw))) :=
  ⟨fun ops => C56_history mono_nib (tree4 V) ops, fun ops => C56_history mono_crumb (tree2 V) ops,
   fun ops => C56_no_panic (tree4 V) ops, fun ops => C56_no_panic (tree2 V) ops⟩

/-- some keys of each half: 0x12, 0x80, 0x1F, 0xFE, 0x83 -/
def nibbleOps : List (Op Byte Nat) :=
  [.insert ⟨U.lit 0x12⟩ 1, .insert ⟨U.lit 0xFE⟩ 2, .insert ⟨U.lit 0x80⟩ 3, .insert ⟨U.lit 0x83⟩ 4, .insert ⟨U.lit 0x9F⟩ 5,
    .find ⟨U.lit 0x83⟩, .successor ⟨U.lit 0x83⟩, .remove ⟨U.lit 0x80⟩, .predecessor ⟨U.lit 0x83⟩, .removeMin, .minVal]

/-- the outputs of `Tree8` on these -/
example : (outputs (Tree8 (U 8) Nat) (nibbleOps.map (Op.forget Byte.raw))).toOption =
    some [.kv none, .kv none, .kv none, .kv none, .kv none, .kv (some (U.lit 0x83, 4)), .kv (some (U.lit 0x9F, 5)),
      .kv (some (U.lit 0x80, 3)), .kv (some (U.lit 0x12, 1)), .kv (some (U.lit 0x12, 1)), .kv (some (U.lit 0x83, 4))] := by
  decide +kernel

/-- **C56 is needed.** Outside the range it is false: an array indexed by `U4` has no slot for 16, and a `U2` holding 4 is not
what its halves join to. -/
theorem C56_out_of_range :
    (∃ x : U4, (TreeCollection.create (C := ArrayColl U4 (BTreeMap U4 Nat)) x ⟨[(x, 0)]⟩).isOk = false) ∧
    ∃ x : U2, VebKey.join (VebKey.splitVal x).1 (VebKey.splitVal x).2 ≠ x :=
  ⟨⟨⟨U.lit 16⟩, by decide⟩, ⟨⟨U.lit 4⟩, by decide⟩⟩

end Veb.Props
