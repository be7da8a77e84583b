import Verif.Props.Values

/-!
# C46: the representation of a tree cannot be observed

Unlike C17 this needs no restriction to safe histories: trees of the same shape are wrong in the same way.
-/

set_option autoImplicit false

namespace Veb.Props

variable {T K V T' K' : Type}

/-- **C46.** Trees of the same shape give the same outputs on every history, up to the naming of the keys; or both
panic. -/
theorem C46_shape [LinearOrder K] [LinearOrder K'] [VebTree T K V] [VebTree T' K' V] {π : K → K'}
    (h : SameShape T K V T' K' V π id) (ops : List (Op K V)) :
    Agree (fun os os' => os' = os.map (Out.forget π)) (outputs T ops) (outputs T' (ops.map (Op.forget π))) := by
  have := C47_values h ops
  rwa [Op.rename_id, Out.rename_id] at this

/-- **C46, iterators.** So do iterators over them, however they are advanced, whatever the histories before. -/
theorem C46_iter [LinearOrder K] [LinearOrder K'] [VebTree T K V] [VebTree T' K' V] {π : K → K'}
    (h : SameShape T K V T' K' V π id) (ops : List (Op K V)) (ss : List Side) :
    Agree (fun os os' => os' = os.map (Option.map fun e => (π e.1, e.2))) (itemsAfter T ops ss)
      (itemsAfter T' (ops.map (Op.forget π)) ss) := by
  have := C47_iter h ops ss
  rwa [Op.rename_id] at this

theorem agree_eq {α : Type} {x y : R α} (h : Agree (fun a b => b = a) x y) {a : α} (hx : x = .ok a) : y = x := by
  rcases h with ⟨a', b, e, e', rfl⟩ | ⟨p, q, e, e'⟩
  · rw [e, e']
  · rw [e] at hx; cases hx

/-- renaming by the identity changes nothing -/
theorem forget_id (ops : List (Op K V)) : ops.map (Op.forget id) = ops :=
  List.map_id'' (fun op => by cases op <;> rfl) ops
theorem out_forget_id (os : List (Out K V)) : os.map (Out.forget id) = os :=
  List.map_id'' (fun o => by cases o with | bool b => rfl | kv e => cases e <;> rfl) os

/-- **C46, exchanging leaves and collections.** If one of the types does not count entries (no `SizedVebTree`), the
outputs are equal on every history of any length; neither type panics. -/
theorem C46_representation [LinearOrder K] [VebTree T K V] [VebTree T' K V] (h : SameShape T K V T' K V id id)
    (hu : UncountedTree T K V) (ops : List (Op K V)) :
    outputs T' ops = outputs T ops ∧ NeverPanics T' ops := by
  have h1 := C46_shape h ops
  rw [forget_id] at h1
  simp only [out_forget_id] at h1
  obtain ⟨r, hr⟩ := C25_no_panic_uncounted_partial hu ops
  have h2 := agree_eq h1 (a := r.2) (by rw [outputs, hr]; rfl)
  refine ⟨h2, ?_⟩
  cases hx : Exec.run (none : Option T') ops with
  | ok r' => exact ⟨r', hx⟩
  | error e =>
    rw [outputs, outputs, hx, hr] at h2
    cases h2

/-- **C46, exchanging leaves and collections**, for all tree types and up to `usize::MAX` insertions. -/
theorem C46_representation_counted [LinearOrder K] [VebTree T K V] [VebTree T' K V] {safe : (K → Prop) → K → Prop}
    (h : SameShape T K V T' K V id id) (hu : CrateTree T K V safe) (ops : List (Op K V)) (hn : insertions ops ≤ usizeMax) :
    outputs T' ops = outputs T ops ∧ NeverPanics T' ops := by
  have h1 := C46_shape h ops
  rw [forget_id] at h1
  simp only [out_forget_id] at h1
  obtain ⟨r, hr⟩ := C25_no_panic_partial hu ops hn
  have h2 := agree_eq h1 (a := r.2) (by rw [outputs, hr]; rfl)
  refine ⟨h2, ?_⟩
  cases hx : Exec.run (none : Option T') ops with
  | ok r' => exact ⟨r', hx⟩
  | error e =>
    rw [outputs, outputs, hx, hr] at h2
    cases h2

/-! ## Signed keys -/

/-- a signed key as its distance from the least one -/
def dist {w : Nat} (x : S w) : U w := x.absDiff S.MIN

theorem dist_mono {w : Nat} (hw : 0 < w) : StrictMono (dist (w := w)) := fun x y h => (S.absDiff_lt hw x y).1 h

theorem dist_bij {w : Nat} (hw : 0 < w) : Function.Bijective (dist (w := w)) :=
  ⟨(dist_mono hw).injective, fun x => ⟨S.ofUWrappingAdd x S.MIN, S.absDiff_ofU hw x⟩⟩

/-- every predefined tree type over signed keys has the shape of the one over unsigned keys -/
theorem signedShape (V : Type) :
    (SameShape (Set16 (S 16)) (S 16) Unit (Set16 (U 16)) (U 16) Unit dist id ∧
     SameShape (Map16 (S 16) V) (S 16) V (Map16 (U 16) V) (U 16) V dist id) ∧
    (SameShape (Set32 (S 32)) (S 32) Unit (Set32 (U 32)) (U 32) Unit dist id ∧
     SameShape (Map32 (S 32) V) (S 32) V (Map32 (U 32) V) (U 32) V dist id) ∧
    (SameShape (Set64 (S 64)) (S 64) Unit (Set64 (U 64)) (U 64) Unit dist id ∧
     SameShape (Map64 (S 64) V) (S 64) V (Map64 (U 64) V) (U 64) V dist id) := by
  have k16 : KeyForgets (K := S 16) (K' := U 16) dist id id :=
    ⟨fun _ => rfl, fun _ => rfl, fun _ _ => (S.absDiff_ofU (by decide) _).symm⟩
  have k32 : KeyForgets (K := S 32) (K' := U 32) dist id id :=
    ⟨fun _ => rfl, fun _ => rfl, fun _ _ => (S.absDiff_ofU (by decide) _).symm⟩
  have k64 : KeyForgets (K := S 64) (K' := U 64) dist id id :=
    ⟨fun _ => rfl, fun _ => rfl, fun _ _ => (S.absDiff_ofU (by decide) _).symm⟩
  have i16 : KeyForgets (K := U 16) (K' := U 16) id id id := ⟨fun _ => rfl, fun _ => rfl, fun _ _ => rfl⟩
  have i32 : KeyForgets (K := U 32) (K' := U 32) id id id := ⟨fun _ => rfl, fun _ => rfl, fun _ _ => rfl⟩
  have s8 : SameShape Set8 (U 8) Unit Set8 (U 8) Unit id id := .leaf .byteSet .byteSet
  have m8 : SameShape (Map8 V) (U 8) V (Map8 V) (U 8) V id id := .leaf .byteMap .byteMap
  have inj : ∀ {A : Type}, Function.Injective (id : A → A) := fun {A} _ _ e => e
  have s16 : SameShape (Set16 (U 16)) (U 16) Unit (Set16 (U 16)) (U 16) Unit id id :=
    .tree strictMono_id inj i16 s8 s8 (.array goodIndex) (.array goodIndex)
  have m16 : SameShape (Map16 (U 16) V) (U 16) V (Map16 (U 16) V) (U 16) V id id :=
    .tree strictMono_id inj i16 s8 m8 (.array goodIndex) (.array goodIndex)
  have s32 : SameShape (Set32 (U 32)) (U 32) Unit (Set32 (U 32)) (U 32) Unit id id :=
    .tree strictMono_id inj i32 s16 s16 (.array goodIndex) (.array goodIndex)
  have m32 : SameShape (Map32 (U 32) V) (U 32) V (Map32 (U 32) V) (U 32) V id id :=
    .tree strictMono_id inj i32 s16 m16 (.array goodIndex) (.array goodIndex)
  exact ⟨⟨.tree (dist_mono (by decide)) inj k16 s8 s8 (.array goodIndex) (.array goodIndex),
      .tree (dist_mono (by decide)) inj k16 s8 m8 (.array goodIndex) (.array goodIndex)⟩,
    ⟨.tree (dist_mono (by decide)) inj k32 s16 s16 (.array goodIndex) (.array goodIndex),
      .tree (dist_mono (by decide)) inj k32 s16 m16 (.array goodIndex) (.array goodIndex)⟩,
    ⟨.tree (dist_mono (by decide)) inj k64 s32 s32 (.array goodIndex) (.array goodIndex),
      .tree (dist_mono (by decide)) inj k64 s32 m32 (.array goodIndex) (.array goodIndex)⟩⟩

theorem shape_eq [LinearOrder K] [LinearOrder K'] [VebTree T K V] [VebTree T' K' V] {π : K → K'}
    (h : SameShape T K V T' K' V π id) (hu : UncountedTree T K V) (ops : List (Op K V)) :
    outputs T' (ops.map (Op.forget π)) = (outputs T ops).map (List.map (Out.forget π)) := by
  obtain ⟨r, hr⟩ := C25_no_panic_uncounted_partial hu ops
  rcases C46_shape h ops with ⟨a, b, e, e', rfl⟩ | ⟨p, q, e, e'⟩
  · rw [e, e']; rfl
  · rw [outputs, hr] at e; cases e

/-- **C46, signed keys.** The predefined trees of `i16`, `i32` and `i64` keys behave on every history as those of `u16`,
`u32` and `u64` keys do, each key `x` read as `x - MIN`. -/
theorem C46_signed (V : Type) :
    ((∀ ops, outputs (Set16 (U 16)) (ops.map (Op.forget dist)) =
        (outputs (Set16 (S 16)) ops).map (List.map (Out.forget dist))) ∧
     (∀ ops, outputs (Map16 (U 16) V) (ops.map (Op.forget dist)) =
        (outputs (Map16 (S 16) V) ops).map (List.map (Out.forget dist)))) ∧
    ((∀ ops, outputs (Set32 (U 32)) (ops.map (Op.forget dist)) =
        (outputs (Set32 (S 32)) ops).map (List.map (Out.forget dist))) ∧
     (∀ ops, outputs (Map32 (U 32) V) (ops.map (Op.forget dist)) =
        (outputs (Map32 (S 32) V) ops).map (List.map (Out.forget dist)))) ∧
    ((∀ ops, outputs (Set64 (U 64)) (ops.map (Op.forget dist)) =
        (outputs (Set64 (S 64)) ops).map (List.map (Out.forget dist))) ∧
     (∀ ops, outputs (Map64 (U 64) V) (ops.map (Op.forget dist)) =
        (outputs (Map64 (S 64) V) ops).map (List.map (Out.forget dist)))) := by
  obtain ⟨⟨h1, h2⟩, ⟨h3, h4⟩, h5, h6⟩ := signedShape V
  have s16 : ∀ {K : Type} [LinearOrder K] [VebKey K (U 8) (U 8)] [VebKeyRef K (U 8) (U 8)],
      GoodKey K (U 8) (U 8) → UncountedTree (Set16 K) K Unit := fun h => .tree h .byteSet .byteSet (.array goodIndex)
  have m16 : ∀ {K : Type} [LinearOrder K] [VebKey K (U 8) (U 8)] [VebKeyRef K (U 8) (U 8)],
      GoodKey K (U 8) (U 8) → UncountedTree (Map16 K V) K V := fun h => .tree h .byteSet .byteMap (.array goodIndex)
  have s32 : ∀ {K : Type} [LinearOrder K] [VebKey K (U 16) (U 16)] [VebKeyRef K (U 16) (U 16)],
      GoodKey K (U 16) (U 16) → UncountedTree (Set32 K) K Unit :=
    fun h => .tree h (s16 goodKey) (s16 goodKey) (.array goodIndex)
  have m32 : ∀ {K : Type} [LinearOrder K] [VebKey K (U 16) (U 16)] [VebKeyRef K (U 16) (U 16)],
      GoodKey K (U 16) (U 16) → UncountedTree (Map32 K V) K V :=
    fun h => .tree h (s16 goodKey) (m16 goodKey) (.array goodIndex)
  exact ⟨⟨shape_eq h1 (s16 goodKey), shape_eq h2 (m16 goodKey)⟩,
    ⟨shape_eq h3 (s32 goodKey), shape_eq h4 (m32 goodKey)⟩,
    ⟨shape_eq h5 (.tree goodKey (s32 goodKey) (s32 goodKey) (.array goodIndex)),
     shape_eq h6 (.tree goodKey (s32 goodKey) (m32 goodKey) (.array goodIndex))⟩⟩

/-! ## The exception: `len_hint` -/

/-- **C46, `len_hint` is not part of it**: `ByteMap` and `BTreeMap` are ordered maps with the same outputs on every
history, but `ByteMap` keeps the default `len_hint` (src/lib.rs:51-57). -/
theorem C46_lenHint_refuted :
    (∀ ops, outputs (BTreeMap (U 8) Nat) ops = outputs (Map8 Nat) ops) ∧
    lenHintAfter (Map8 Nat) [.insert (U.lit 3) 0] = .ok (some (1, none)) ∧
    lenHintAfter (BTreeMap (U 8) Nat) [.insert (U.lit 3) 0] = .ok (some (1, some 1)) := by
  refine ⟨fun ops => (C46_representation (.leaf .byteMap .btreeMap) .byteMap ops).1, ?_⟩
  decide +kernel

/-! ## Not vacuous -/

/-- a 16-bit map with every part exchanged: other leaves, other collection, boxes in other places -/
abbrev Odd16 (V : Type) := Box (Tree (U 16) V (Box (BTreeMap (U 8) Unit)) (Box (HashMap (U 8) (BTreeMap (U 8) V))))

theorem odd16 (V : Type) : SameShape (Map16 (U 16) V) (U 16) V (Odd16 V) (U 16) V id id :=
  .boxR (.tree (πh := id) (πl := id) strictMono_id (fun _ _ e => e) ⟨fun _ => rfl, fun _ => rfl, fun _ _ => rfl⟩
    (.boxR (.leaf .byteSet .btreeMap)) (.leaf .byteMap .btreeMap) (.array goodIndex) (.box .hash))

/-- `Map16` and `Odd16` answer alike, always … -/
example (V : Type) (ops : List (Op (U 16) V)) : outputs (Odd16 V) ops = outputs (Map16 (U 16) V) ops :=
  (C46_representation (odd16 V) (.tree goodKey .byteSet .byteMap (.array goodIndex)) ops).1
/-- … also on a history on which `Map16` does not answer as an ordered map. -/
example : outputs (Odd16 Nat) [.insert (U.lit 10) 0, .insert (U.lit 20) 1, .insert (U.lit 5) 2, .maxVal] =
    .ok [.kv none, .kv none, .kv none, .kv (some (U.lit 10, 0))] := by decide +kernel
/-- with a counter on top -/
example (V : Type) : SameShape (SizedVebTree (Map16 (U 16) V)) (U 16) V (SizedVebTree (Odd16 V)) (U 16) V id id :=
  .sized (odd16 V)
/-- the renaming of signed keys: `-32768`, `0` and `32767` -/
example : dist (S.lit (-32768) : S 16) = U.lit 0 ∧ dist (S.lit 0 : S 16) = U.lit 32768 ∧
    dist (S.lit 32767 : S 16) = U.lit 65535 := by decide +kernel
/-- an iterator over either tree, advanced at both ends -/
example : itemsAfter (Odd16 Nat) [.insert (U.lit 3) 0, .insert (U.lit 700) 1, .insert (U.lit 9) 2] [.back, .front, .front, .front] =
    .ok [some (U.lit 700, 1), some (U.lit 3, 0), some (U.lit 9, 2), none] := by decide +kernel

end Veb.Props
