import Verif.Proof.Same
import Verif.Props.NoPanic

/-!
# C47: a tree never looks at the values it stores

No restriction to safe histories: also a wrong answer is wrong in a way that does not depend on the values.
-/

set_option autoImplicit false

namespace Veb.Props

variable {T K V T' K' V' : Type}

/-- **C47.** Trees of the same shape, over renamed keys and renamed values: the outputs on every history are those of
the other type, renamed; or both panic. The renaming `f` of the values is arbitrary, so it may make values equal. -/
theorem C47_values [LinearOrder K] [LinearOrder K'] [VebTree T K V] [VebTree T' K' V'] {π : K → K'} {f : V → V'}
    (h : SameShape T K V T' K' V' π f) (ops : List (Op K V)) :
    Agree (fun os os' => os' = os.map (Out.rename π f)) (outputs T ops) (outputs T' (ops.map (Op.rename π f))) := by
  obtain ⟨S, hS⟩ := h.same
  exact ((hS.run ops (t := none) (t' := none) .none).map
    (Q := fun (os : List (Out K V)) (os' : List (Out K' V')) => os' = os.map (Out.rename π f)) fun a b hab => hab.2).agree

/-- **C47, iterators.** So do iterators over them, however they are advanced. -/
theorem C47_iter [LinearOrder K] [LinearOrder K'] [VebTree T K V] [VebTree T' K' V'] {π : K → K'} {f : V → V'}
    (h : SameShape T K V T' K' V' π f) (ops : List (Op K V)) (ss : List Side) :
    Agree (fun os os' => os' = os.map (Option.map fun e => (π e.1, f e.2))) (itemsAfter T ops ss)
      (itemsAfter T' (ops.map (Op.rename π f)) ss) := by
  obtain ⟨S, hS⟩ := h.same
  refine Rx.agree ((hS.run ops (t := none) (t' := none) .none).bind ?_)
  rintro ⟨t, os⟩ ⟨t', _⟩ ⟨ht, rfl⟩
  cases ht with
  | none => exact .ok rfl
  | some ht =>
    exact (hS.calls h.injective ss (a := Iter.new _) (b := Iter.new _) ⟨ht, rfl, rfl⟩).bind fun a b hab => .ok hab.2

/-- the values forgotten -/
abbrev Op.keys (op : Op K V) : Op K Unit := op.rename id fun _ => ()
/-- the values forgotten -/
abbrev Out.keys (o : Out K V) : Out K Unit := o.rename id fun _ => ()

/-- **C47, keys alone decide.** Any tree type of the crate, any two histories that differ only in the values passed in:
either both panic, or all outputs differ only in the values returned. -/
theorem C47_keys_decide [LinearOrder K] [VebTree T K V] {safe : (K → Prop) → K → Prop} (h : CrateTree T K V safe)
    (ops ops' : List (Op K V)) (ho : ops.map Op.keys = ops'.map Op.keys) :
    Agree (fun os os' => os.map Out.keys = os'.map Out.keys) (outputs T ops) (outputs T ops') := by
  obtain ⟨T', _, -, hT⟩ := h.shape_values (fun _ => ())
  have h1 := C47_values hT ops
  have h2 := C47_values hT ops'
  rw [show ops.map (Op.rename id fun _ => ()) = _ from ho] at h1
  rcases h1 with ⟨a, b, e, e', hab⟩ | ⟨p, q, e, e'⟩ <;> rcases h2 with ⟨c, d, i, i', hcd⟩ | ⟨r, s, i, i'⟩
  · rw [i'] at e'; cases e'; exact .inl ⟨a, c, e, i, hab.symm.trans hcd⟩
  · rw [i'] at e'; cases e'
  · rw [i'] at e'; cases e'
  · exact .inr ⟨p, r, e, i⟩

/-- **C47, keys alone decide which items an iterator returns.** -/
theorem C47_iter_keys_decide [LinearOrder K] [VebTree T K V] {safe : (K → Prop) → K → Prop} (h : CrateTree T K V safe)
    (ops ops' : List (Op K V)) (ho : ops.map Op.keys = ops'.map Op.keys) (ss : List Side) :
    Agree (fun os os' => os.map (Option.map Prod.fst) = os'.map (Option.map Prod.fst)) (itemsAfter T ops ss)
      (itemsAfter T ops' ss) := by
  obtain ⟨T', _, -, hT⟩ := h.shape_values (fun _ => ())
  have h1 := C47_iter hT ops ss
  have h2 := C47_iter hT ops' ss
  rw [show ops.map (Op.rename id fun _ => ()) = _ from ho] at h1
  have key : ∀ a b : List (Option (K × V)), a.map (Option.map fun e => (id e.1, ())) = b.map (Option.map fun e => (id e.1, ())) →
      a.map (Option.map Prod.fst) = b.map (Option.map Prod.fst) := fun a b hab => by
    have := congrArg (List.map (Option.map Prod.fst)) hab
    simpa only [List.map_map, Function.comp_def, Option.map_map, id] using this
  rcases h1 with ⟨a, b, e, e', hab⟩ | ⟨p, q, e, e'⟩ <;> rcases h2 with ⟨c, d, i, i', hcd⟩ | ⟨r, s, i, i'⟩
  · rw [i'] at e'; cases e'; exact .inl ⟨a, c, e, i, key _ _ (hab.symm.trans hcd)⟩
  · rw [i'] at e'; cases e'
  · rw [i'] at e'; cases e'
  · exact .inr ⟨p, r, e, i⟩

theorem values_eq [LinearOrder K] [LinearOrder K'] [VebTree T K V] [VebTree T' K' V'] {π : K → K'} {f : V → V'}
    (h : SameShape T K V T' K' V' π f) (hu : UncountedTree T K V) (ops : List (Op K V)) :
    outputs T' (ops.map (Op.rename π f)) = (outputs T ops).map (List.map (Out.rename π f)) := by
  obtain ⟨r, hr⟩ := C25_no_panic_uncounted_partial hu ops
  rcases C47_values h ops with ⟨a, b, e, e', rfl⟩ | ⟨p, q, e, e'⟩
  · rw [e, e']; rfl
  · rw [outputs, hr] at e; cases e

section
variable {K : Type} [LinearOrder K] (f : V → V')

theorem map8Shape : SameShape (Map8 V) (U 8) V (Map8 V') (U 8) V' id f := .leaf .byteMap .byteMap
theorem set8Shape : SameShape (Map8 V) (U 8) V Set8 (U 8) Unit id (fun _ => ()) := .leaf .byteMap .byteSet
theorem set8Refl : SameShape Set8 (U 8) Unit Set8 (U 8) Unit id id := .leaf .byteSet .byteSet

theorem map16Shape [VebKey K (U 8) (U 8)] [VebKeyRef K (U 8) (U 8)] :
    SameShape (Map16 K V) K V (Map16 K V') K V' id f :=
  .tree strictMono_id (fun _ _ e => e) ⟨fun _ => rfl, fun _ => rfl, fun _ _ => rfl⟩ set8Refl (map8Shape f)
    (.array goodIndex) (.array goodIndex)
theorem set16Shape [VebKey K (U 8) (U 8)] [VebKeyRef K (U 8) (U 8)] :
    SameShape (Map16 K V) K V (Set16 K) K Unit id (fun _ => ()) :=
  .tree strictMono_id (fun _ _ e => e) ⟨fun _ => rfl, fun _ => rfl, fun _ _ => rfl⟩ set8Refl set8Shape
    (.array goodIndex) (.array goodIndex)
theorem set16Refl [VebKey K (U 8) (U 8)] [VebKeyRef K (U 8) (U 8)] :
    SameShape (Set16 K) K Unit (Set16 K) K Unit id id :=
  .tree strictMono_id (fun _ _ e => e) ⟨fun _ => rfl, fun _ => rfl, fun _ _ => rfl⟩ set8Refl set8Refl
    (.array goodIndex) (.array goodIndex)

theorem map32Shape [VebKey K (U 16) (U 16)] [VebKeyRef K (U 16) (U 16)] :
    SameShape (Map32 K V) K V (Map32 K V') K V' id f :=
  .tree strictMono_id (fun _ _ e => e) ⟨fun _ => rfl, fun _ => rfl, fun _ _ => rfl⟩ set16Refl (map16Shape f)
    (.array goodIndex) (.array goodIndex)
theorem set32Shape [VebKey K (U 16) (U 16)] [VebKeyRef K (U 16) (U 16)] :
    SameShape (Map32 K V) K V (Set32 K) K Unit id (fun _ => ()) :=
  .tree strictMono_id (fun _ _ e => e) ⟨fun _ => rfl, fun _ => rfl, fun _ _ => rfl⟩ set16Refl set16Shape
    (.array goodIndex) (.array goodIndex)
theorem set32Refl [VebKey K (U 16) (U 16)] [VebKeyRef K (U 16) (U 16)] :
    SameShape (Set32 K) K Unit (Set32 K) K Unit id id :=
  .tree strictMono_id (fun _ _ e => e) ⟨fun _ => rfl, fun _ => rfl, fun _ _ => rfl⟩ set16Refl set16Refl
    (.array goodIndex) (.array goodIndex)

theorem map64Shape [VebKey K (U 32) (U 32)] [VebKeyRef K (U 32) (U 32)] :
    SameShape (Map64 K V) K V (Map64 K V') K V' id f :=
  .tree strictMono_id (fun _ _ e => e) ⟨fun _ => rfl, fun _ => rfl, fun _ _ => rfl⟩ set32Refl (map32Shape f)
    (.array goodIndex) (.array goodIndex)
theorem set64Shape [VebKey K (U 32) (U 32)] [VebKeyRef K (U 32) (U 32)] :
    SameShape (Map64 K V) K V (Set64 K) K Unit id (fun _ => ()) :=
  .tree strictMono_id (fun _ _ e => e) ⟨fun _ => rfl, fun _ => rfl, fun _ _ => rfl⟩ set32Refl set32Shape
    (.array goodIndex) (.array goodIndex)
end

/-- **C47, the predefined maps.** Renaming the values of a history renames the values of the outputs, and changes nothing
else: `Map8`, and `Map16`, `Map32`, `Map64` over any keys that split correctly. -/
theorem C47_predefined_maps (f : V → V') :
    (∀ ops, outputs (Map8 V') (ops.map (Op.rename id f)) = (outputs (Map8 V) ops).map (List.map (Out.rename id f))) ∧
    (∀ (K : Type) [LinearOrder K] [VebKey K (U 8) (U 8)] [VebKeyRef K (U 8) (U 8)], GoodKey K (U 8) (U 8) → ∀ ops,
      outputs (Map16 K V') (ops.map (Op.rename id f)) = (outputs (Map16 K V) ops).map (List.map (Out.rename id f))) ∧
    (∀ (K : Type) [LinearOrder K] [VebKey K (U 16) (U 16)] [VebKeyRef K (U 16) (U 16)], GoodKey K (U 16) (U 16) → ∀ ops,
      outputs (Map32 K V') (ops.map (Op.rename id f)) = (outputs (Map32 K V) ops).map (List.map (Out.rename id f))) ∧
    (∀ (K : Type) [LinearOrder K] [VebKey K (U 32) (U 32)] [VebKeyRef K (U 32) (U 32)], GoodKey K (U 32) (U 32) → ∀ ops,
      outputs (Map64 K V') (ops.map (Op.rename id f)) = (outputs (Map64 K V) ops).map (List.map (Out.rename id f))) := by
  have s16 : UncountedTree (Set16 (U 16)) (U 16) Unit := .tree goodKey .byteSet .byteSet (.array goodIndex)
  have m16 : UncountedTree (Map16 (U 16) V) (U 16) V := .tree goodKey .byteSet .byteMap (.array goodIndex)
  have s32 : UncountedTree (Set32 (U 32)) (U 32) Unit := .tree goodKey s16 s16 (.array goodIndex)
  have m32 : UncountedTree (Map32 (U 32) V) (U 32) V := .tree goodKey s16 m16 (.array goodIndex)
  exact ⟨values_eq (map8Shape f) .byteMap,
    fun K _ _ _ h => values_eq (map16Shape f) (.tree h .byteSet .byteMap (.array goodIndex)),
    fun K _ _ _ h => values_eq (map32Shape f) (.tree h s16 m16 (.array goodIndex)),
    fun K _ _ _ h => values_eq (map64Shape f) (.tree h s32 m32 (.array goodIndex))⟩

/-- **C47, sets are maps without values.** On every history the keys returned by the predefined maps are those the
predefined sets return; so also the defects are the same. -/
theorem C47_sets :
    (∀ ops : List (Op (U 8) V), outputs Set8 (ops.map Op.keys) = (outputs (Map8 V) ops).map (List.map Out.keys)) ∧
    (∀ (K : Type) [LinearOrder K] [VebKey K (U 8) (U 8)] [VebKeyRef K (U 8) (U 8)], GoodKey K (U 8) (U 8) →
      ∀ ops : List (Op K V), outputs (Set16 K) (ops.map Op.keys) = (outputs (Map16 K V) ops).map (List.map Out.keys)) ∧
    (∀ (K : Type) [LinearOrder K] [VebKey K (U 16) (U 16)] [VebKeyRef K (U 16) (U 16)], GoodKey K (U 16) (U 16) →
      ∀ ops : List (Op K V), outputs (Set32 K) (ops.map Op.keys) = (outputs (Map32 K V) ops).map (List.map Out.keys)) ∧
    (∀ (K : Type) [LinearOrder K] [VebKey K (U 32) (U 32)] [VebKeyRef K (U 32) (U 32)], GoodKey K (U 32) (U 32) →
      ∀ ops : List (Op K V), outputs (Set64 K) (ops.map Op.keys) = (outputs (Map64 K V) ops).map (List.map Out.keys)) := by
  have s16 : UncountedTree (Set16 (U 16)) (U 16) Unit := .tree goodKey .byteSet .byteSet (.array goodIndex)
  have m16 : UncountedTree (Map16 (U 16) V) (U 16) V := .tree goodKey .byteSet .byteMap (.array goodIndex)
  have s32 : UncountedTree (Set32 (U 32)) (U 32) Unit := .tree goodKey s16 s16 (.array goodIndex)
  have m32 : UncountedTree (Map32 (U 32) V) (U 32) V := .tree goodKey s16 m16 (.array goodIndex)
  exact ⟨values_eq set8Shape .byteMap,
    fun K _ _ _ h => values_eq set16Shape (.tree h .byteSet .byteMap (.array goodIndex)),
    fun K _ _ _ h => values_eq set32Shape (.tree h s16 m16 (.array goodIndex)),
    fun K _ _ _ h => values_eq set64Shape (.tree h s32 m32 (.array goodIndex))⟩

/-! ## Not vacuous -/

/-- `Map16`, `Map32` and `Map64` with signed and unsigned keys qualify -/
example : GoodKey (U 16) (U 8) (U 8) ∧ GoodKey (S 32) (U 16) (U 16) ∧ GoodKey (U 64) (U 32) (U 32) :=
  ⟨goodKey, goodKey, goodKey⟩
/-- a history that runs into the defect of `insert`, with values … -/
example : outputs (Map16 (U 16) Nat) [.insert (U.lit 10) 7, .insert (U.lit 20) 8, .insert (U.lit 5) 9, .maxVal] =
    .ok [.kv none, .kv none, .kv none, .kv (some (U.lit 10, 7))] := by decide +kernel
/-- … and with the values dropped -/
example : outputs (Set16 (U 16)) [.insert (U.lit 10) (), .insert (U.lit 20) (), .insert (U.lit 5) (), .maxVal] =
    .ok [.kv none, .kv none, .kv none, .kv (some (U.lit 10, ()))] := by decide +kernel
/-- a renaming that makes values equal -/
example : [Op.insert (U.lit 1 : U 8) 3, .findSet (U.lit 1) 4, .minVal].map (Op.rename id (fun n : Nat => n % 2 == 0)) =
    [.insert (U.lit 1) false, .findSet (U.lit 1) true, .minVal] := rfl
/-- two histories that differ in values only, through a counted hash-map tree -/
example (ops ops' : List (Op (U 16) Nat)) (h : ops.map Op.keys = ops'.map Op.keys) :
    Agree (fun os os' => os.map Out.keys = os'.map Out.keys)
      (outputs (SizedVebTree (Tree (U 16) Nat (BTreeMap (U 8) Unit) (HashMap (U 8) (BTreeMap (U 8) Nat)))) ops)
      (outputs (SizedVebTree (Tree (U 16) Nat (BTreeMap (U 8) Unit) (HashMap (U 8) (BTreeMap (U 8) Nat)))) ops') :=
  C47_keys_decide (.sized (.tree goodKey .btreeMap .btreeMap .hash)) ops ops' h

end Veb.Props
