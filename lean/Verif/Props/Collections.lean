import Verif.Proof.CollHist
import Verif.Props.Tree
import Verif.Props.Keys

/-!
# C14, C15, C16: tree collections are partial maps
-/

set_option autoImplicit false
set_option linter.unusedSectionVars false

namespace Veb.Props
open Veb

variable {C Hi T Lo V : Type} [LinearOrder Hi] [VebTree T Lo V]

/-- Starting from no collection, the history `ops` has the outcome specified for partial maps: the same panic or
the same outputs, and in the end there is no collection exactly if the map is empty.  `absent` is the panic of
`remove_key` on a missing key; every other panic comes from the child trees or the closures. -/
def RunsLikeCollection (C : Type) {Hi T Lo V : Type} [VebTree T Lo V] [TreeCollection C Hi T Lo V]
    (absent : Panic) (ops : List (COp Hi T Lo V)) : Prop :=
  match CollSpec.run absent Map.empty ops with
  | .error e => CollExec.run (none : Option C) ops = .error e
  | .ok (M, outs) => ∃ c, CollExec.run (none : Option C) ops = .ok (c, outs) ∧
      (c = none ↔ M = Map.empty) ∧
      ∀ d, c = some d → ∀ h, TreeCollection.get d h = .ok (M h)

/-- A `maybe_remove_key` whose closure gives the tree back unchanged, or whose key is missing, gives back the very
same collection, in every state a history reaches. -/
def FailureKeeps (C : Type) {Hi T Lo V : Type} [VebTree T Lo V] [TreeCollection C Hi T Lo V] : Prop :=
  ∀ (ops : List (COp Hi T Lo V)) (c : C) (outs : List (COut Hi T Lo V)),
    CollExec.run none ops = .ok (some c, outs) →
    ∀ (h : Hi) (r : T → R (Result (Option T × (Lo × V)) T)),
      (∀ t, TreeCollection.get c h = .ok (some t) → r t = .ok (.Err t)) →
      TreeCollection.maybeRemoveKey c h r = .ok (.Err c)

theorem runsLike_of [TreeCollection C Hi T Lo V] [L : LawfulColl C Hi T Lo V] (ops : List (COp Hi T Lo V)) :
    RunsLikeCollection C L.absent ops := by
  have h := coll_run (L := L) ops (c := none) (M := Map.empty) rfl
  unfold RunsLikeCollection
  unfold CollSim at h
  cases e : CollSpec.run L.absent Map.empty ops with
  | error x => rw [e] at h; exact h
  | ok p =>
    obtain ⟨M, os⟩ := p
    rw [e] at h
    obtain ⟨c, h1, R⟩ := h
    refine ⟨c, h1, R.none_iff, ?_⟩
    rintro d rfl k
    rw [L.get d k R.1, R.2]

theorem failureKeeps_of [TreeCollection C Hi T Lo V] [L : LawfulColl C Hi T Lo V] :
    FailureKeeps C (Hi := Hi) (T := T) (Lo := Lo) (V := V) := by
  intro ops c os h k r hr
  have I := coll_reach h
  cases e : L.abs c k with
  | none => exact L.maybe_absent c k r I e
  | some t => exact L.maybe_err c k t r I e (hr t (by rw [L.get c k I, e]))

/-- The full claim of C14: with every unsigned index type an `ArrayTreeCollection` behaves as a partial map, over every
history and with every closure. -/
def C14_full (T Lo V : Type) [VebTree T Lo V] : Prop :=
  (∀ ops : List (COp (U 8) T Lo V),
    RunsLikeCollection (ArrayColl (U 8) T) (.expect "array should contain tree at key index") ops) ∧
  (∀ ops : List (COp (U 16) T Lo V),
    RunsLikeCollection (ArrayColl (U 16) T) (.expect "array should contain tree at key index") ops) ∧
  (∀ ops : List (COp (U 32) T Lo V),
    RunsLikeCollection (ArrayColl (U 32) T) (.expect "array should contain tree at key index") ops) ∧
  (∀ ops : List (COp (U 64) T Lo V),
    RunsLikeCollection (ArrayColl (U 64) T) (.expect "array should contain tree at key index") ops)

/-- **C14, the part that holds**: an `ArrayTreeCollection` over any index type whose indices are distinct and within
bounds, and whose cardinality fits a `usize`, behaves as a partial map.  Missing: `u64` among the unsigned types, refuted
by `C14_refuted_u64`; the signed types are treated by `C14_signed` and `C14_refuted_u64`. -/
theorem C14_array_collection_partial [SizedVebKey Hi] (hk : GoodIndex Hi) (ops : List (COp Hi T Lo V)) :
    RunsLikeCollection (ArrayColl Hi T) (.expect "array should contain tree at key index") ops := by
  have := hk.lawful
  exact runsLike_of ops

theorem C14_unsigned_partial :
    (∀ ops : List (COp (U 8) T Lo V),
      RunsLikeCollection (ArrayColl (U 8) T) (.expect "array should contain tree at key index") ops) ∧
    (∀ ops : List (COp (U 16) T Lo V),
      RunsLikeCollection (ArrayColl (U 16) T) (.expect "array should contain tree at key index") ops) ∧
    (∀ ops : List (COp (U 32) T Lo V),
      RunsLikeCollection (ArrayColl (U 32) T) (.expect "array should contain tree at key index") ops) :=
  ⟨C14_array_collection_partial goodIndex, C14_array_collection_partial goodIndex,
    C14_array_collection_partial goodIndex⟩

/-- **C14 refuted for `u64`**, and the same for `i64`: `Cardinality` is 2^64, as a `usize` 0, so the array is empty and
no collection can be created at any key. -/
theorem C14_refuted_u64 :
    (∀ (h : U 64) (t : T), (TreeCollection.create h t : R (ArrayColl (U 64) T)) = .error .index) ∧
    (∀ (h : S 64) (t : T), (TreeCollection.create h t : R (ArrayColl (S 64) T)) = .error .index) := by
  constructor <;>
  · intro h t
    show ArrayColl.create h t = _
    simp only [ArrayColl.create, OptionArray.put]
    rw [if_neg]
    · rfl
    · exact Nat.not_lt_zero _

theorem C14_full_refuted (t : T) : ¬ C14_full T Lo V := by
  intro h
  have h1 := h.2.2.2 [.create ⟨0⟩ t]
  have h2 : CollExec.run (none : Option (ArrayColl (U 64) T)) [.create ⟨0⟩ t] = .error .index := by
    simp only [CollExec.run, CollExec.step, C14_refuted_u64.1]
    rfl
  rw [RunsLikeCollection, h2] at h1
  rcases h3 : CollSpec.run (.expect "array should contain tree at key index") Map.empty
      [(.create ⟨0⟩ t : COp (U 64) T Lo V)] with e | ⟨M, os⟩
  · simp [CollSpec.run, CollSpec.step] at h3
  · rw [h3] at h1
    obtain ⟨c, h4, -⟩ := h1
    cases h4

/-- **C14 for the signed types** `i8`, `i16`, `i32`: a collection can be created at the negative keys only. -/
theorem C14_signed :
    (∀ (h : S 8) (t : T), (∃ c, (TreeCollection.create h t : R (ArrayColl (S 8) T)) = .ok c) ↔ h.bits.toInt < 0) ∧
    (∀ (h : S 16) (t : T), (∃ c, (TreeCollection.create h t : R (ArrayColl (S 16) T)) = .ok c) ↔ h.bits.toInt < 0) ∧
    (∀ (h : S 32) (t : T), (∃ c, (TreeCollection.create h t : R (ArrayColl (S 32) T)) = .ok c) ↔ h.bits.toInt < 0) := by
  obtain ⟨h8, h16, h32, -⟩ := C06_signed_index
  refine ⟨fun h t => ?_, fun h t => ?_, fun h t => ?_⟩
  · rw [← h8 h]
    show (∃ c, ArrayColl.create h t = .ok c) ↔ SizedVebKey.index h < 2 ^ 8
    simp only [ArrayColl.create, OptionArray.put]
    split
    · next hl => exact ⟨fun _ => hl, fun _ => ⟨_, rfl⟩⟩
    · next hl => exact ⟨fun ⟨_, e⟩ => (by cases e), fun h => absurd h hl⟩
  · rw [← h16 h]
    show (∃ c, ArrayColl.create h t = .ok c) ↔ SizedVebKey.index h < 2 ^ 16
    simp only [ArrayColl.create, OptionArray.put]
    split
    · next hl => exact ⟨fun _ => hl, fun _ => ⟨_, rfl⟩⟩
    · next hl => exact ⟨fun ⟨_, e⟩ => (by cases e), fun h => absurd h hl⟩
  · rw [← h32 h]
    show (∃ c, ArrayColl.create h t = .ok c) ↔ SizedVebKey.index h < 2 ^ 32
    simp only [ArrayColl.create, OptionArray.put]
    split
    · next hl => exact ⟨fun _ => hl, fun _ => ⟨_, rfl⟩⟩
    · next hl => exact ⟨fun ⟨_, e⟩ => (by cases e), fun h => absurd h hl⟩

theorem C14_failure_keeps_partial [SizedVebKey Hi] (hk : GoodIndex Hi) :
    FailureKeeps (ArrayColl Hi T) (Hi := Hi) (T := T) (Lo := Lo) (V := V) := by
  have := hk.lawful
  exact failureKeeps_of

/-- C14: in every reachable array collection the counter is the number of occupied keys. -/
theorem C14_count_partial [SizedVebKey Hi] (hk : GoodIndex Hi) (ops : List (COp Hi T Lo V)) (c : ArrayColl Hi T)
    (outs : List (COut Hi T Lo V)) (h : CollExec.run none ops = .ok (some c, outs)) :
    c.count = Set.ncard {h : Hi | ∃ t, TreeCollection.get c h = .ok (some t)} := by
  have := hk.lawful
  have I : c.Inv := coll_reach h
  have hc : c.count = (ArrayColl.abs c).card := I.2.1
  rw [hc]
  unfold Map.card
  congr 1
  ext k
  have : TreeCollection.get c k = .ok (ArrayColl.abs c k) := LawfulColl.get c k I
  simp only [Set.mem_ofPred_eq, this, Map.Mem]
  cases ArrayColl.abs c k <;> simp

/-- C15: a `HashMap` of trees behaves as a partial map; `unreachable!()` is reached only by `remove_key` of a
missing key. -/
theorem C15_hash_collection (ops : List (COp Hi T Lo V)) :
    RunsLikeCollection (HashMap Hi T) .unreachable ops :=
  runsLike_of ops

theorem C15_failure_keeps : FailureKeeps (HashMap Hi T) (Hi := Hi) (T := T) (Lo := Lo) (V := V) :=
  failureKeeps_of

/-- C16: a `ByteMap` of trees behaves as a partial map. -/
theorem C16_byte_collection (ops : List (COp (U 8) T Lo V)) :
    RunsLikeCollection (ByteMap T) .debugAssert ops :=
  runsLike_of ops

theorem C16_failure_keeps : FailureKeeps (ByteMap T) (Hi := U 8) (T := T) (Lo := Lo) (V := V) :=
  failureKeeps_of

/-- C16: the bit set and the list stay in step: the list has as many trees as the set has keys, and the set is
never empty. -/
theorem C16_in_step (ops : List (COp (U 8) T Lo V)) (c : ByteMap T) (outs : List (COut (U 8) T Lo V))
    (h : CollExec.run none ops = .ok (some c, outs)) :
    c.set.len = .ok c.list.length ∧ c.list ≠ [] := by
  have I : c.Inv := coll_reach h
  obtain ⟨k, hk⟩ := LawfulColl.nonempty (T := T) (Lo := Lo) (V := V) c I
  have h1 := ByteMap.rank_lt I ((ByteMap.mem_abs I).1 hk)
  exact ⟨by rw [ByteSet.len_ok I.1, ByteMap.length_card I], fun h => by rw [h] at h1; simp at h1⟩

/-- C14-C16 for boxed collections: boxing changes nothing, to any depth. -/
theorem C14_boxed_collection [TreeCollection C Hi T Lo V] (hc : CrateColl C Hi T Lo V) :
    ∃ absent, ∀ ops : List (COp Hi T Lo V),
      RunsLikeCollection C absent ops ∧ RunsLikeCollection (Box C) absent ops := by
  obtain ⟨L⟩ := hc.lawful
  exact ⟨L.absent, fun ops => ⟨runsLike_of ops, runsLike_of (C := Box C) ops⟩⟩

/-! Non-vacuity: a history that goes through every kind of outcome, on each collection. -/

/-- creation, both kinds of insertion, a missing key, a write, a removal that keeps the subtree, one that empties it,
failed and successful conditional removals, and the last one -/
def collOps : List (COp (U 8) ByteSet (U 8) Unit) :=
  [.get ⟨3⟩, .create ⟨3⟩ (ByteSet.fromMonad ⟨1⟩ ()), .insert ⟨3⟩ ⟨2⟩ (), .insert ⟨4⟩ ⟨9⟩ (), .insert ⟨200⟩ ⟨7⟩ (),
    .get ⟨5⟩, .set ⟨200⟩ (ByteSet.fromMonad ⟨8⟩ ()), .get ⟨200⟩, .remove ⟨3⟩ VebTree.removeMin,
    .maybeRemove ⟨4⟩ (fun t => VebTree.remove t ⟨8⟩), .maybeRemove ⟨5⟩ (fun t => VebTree.remove t ⟨8⟩),
    .maybeRemove ⟨4⟩ (fun t => VebTree.remove t ⟨9⟩), .get ⟨4⟩, .remove ⟨3⟩ VebTree.removeMax,
    .remove ⟨200⟩ VebTree.removeMax, .get ⟨200⟩]

def collOuts : List (COut (U 8) ByteSet (U 8) Unit) :=
  [.gone, .done, .inserted (.Err (⟨3⟩, none)), .inserted (.Ok ⟨4⟩), .inserted (.Ok ⟨200⟩),
    .tree none, .tree (some (ByteSet.fromMonad ⟨7⟩ ())), .tree (some (ByteSet.fromMonad ⟨8⟩ ())),
    .removed (⟨1⟩, ()) (some false), .kept, .kept, .removed (⟨9⟩, ()) (some true), .tree none,
    .removed (⟨2⟩, ()) (some true), .removed (⟨8⟩, ()) none, .gone]

example : GoodIndex (U 8) := goodIndex
example : (CollExec.run (none : Option (ArrayColl (U 8) ByteSet)) collOps).map (fun p => (p.1.isNone, p.2)) =
    .ok (true, collOuts) := by decide +kernel
example : (CollExec.run (none : Option (HashMap (U 8) ByteSet)) collOps).map (fun p => (p.1.isNone, p.2)) =
    .ok (true, collOuts) := by decide +kernel
example : (CollExec.run (none : Option (ByteMap ByteSet)) collOps).map (fun p => (p.1.isNone, p.2)) =
    .ok (true, collOuts) := by decide +kernel
/-- the hypothesis of `FailureKeeps` and of the state theorems: a collection that is there -/
example : ((CollExec.run (none : Option (ByteMap ByteSet)) (collOps.take 5)).map fun p => p.1.isSome) = .ok true := by
  decide +kernel
example : CrateColl (ByteMap ByteSet) (U 8) ByteSet (U 8) Unit := .byte

end Veb.Props
