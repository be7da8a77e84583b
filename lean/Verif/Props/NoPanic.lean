import Verif.Proof.NoPanic
import Verif.Props.TreeDefect
import Verif.Props.Tree
import Verif.Props.Collections

/-!
# C25: no operation panics

Unlike C17 – C24 this holds of the code without restriction to safe histories, for all tree types except those with an
array indexed by `i8`, `i16`, `i32`, `i64` or `u64`, for which it is refuted: the defect of `Tree::insert` breaks the
order of a tree, but its summary and its children stay in step.  The only counter in a tree is the `usize` of
`SizedVebTree`; tree types that contain one are covered for histories with at most `usize::MAX` insertions
(`C13_only_panic` shows that the overflow is then the only possible panic).
-/

set_option autoImplicit false

namespace Veb.Props

variable {T K V : Type} [LinearOrder K] [VebTree T K V] {safe : (K → Prop) → K → Prop}

/-- **C25.** No history, of whatever keys in whatever order, panics on any tree type of the crate.  Missing: `CrateTree`
asks that arrays be indexed by types whose indices fit (`GoodIndex`), which excludes `i8`, `i16`, `i32`, `i64` and `u64`;
with these the claim is false (`C25_refuted_u128`, `C25_refuted_i8`). -/
theorem C25_no_panic_partial (h : CrateTree T K V safe) (ops : List (Op K V)) (hn : insertions ops ≤ usizeMax) :
    NeverPanics T ops := by
  obtain ⟨P⟩ := h.phys
  obtain ⟨t, os, h1, -⟩ := phys_run (T := T) (n := 0) (t := none) trivial ops (by simpa using fun _ => hn)
  exact ⟨_, h1⟩

/-- **C25 without counters.** Tree types without a `SizedVebTree` never panic, however long the history. -/
theorem C25_no_panic_uncounted_partial (h : UncountedTree T K V) (ops : List (Op K V)) : NeverPanics T ops := by
  obtain ⟨P, hl⟩ := h.phys
  obtain ⟨t, os, h1, -⟩ := phys_run (T := T) (n := 0) (t := none) trivial ops (fun x => absurd x hl)
  exact ⟨_, h1⟩

/-- **C25, method by method**, including those that a history does not call: on every tree left by a history every
method returns. -/
theorem C25_every_method_partial (h : CrateTree T K V safe) (ops : List (Op K V)) (hn : insertions ops ≤ usizeMax) (t : T)
    (hr : Reaches ops t) : AllReturn (insertions ops < usizeMax) t := by
  obtain ⟨P⟩ := h.phys
  obtain ⟨h1, h2⟩ := phys_reaches (fun _ => hn) hr
  exact phys_allReturn h1 fun hs _ => lt_of_le_of_lt h2 hs

theorem C25_every_method_uncounted_partial (h : UncountedTree T K V) (ops : List (Op K V)) (t : T)
    (hr : Reaches ops t) : AllReturn True t := by
  obtain ⟨P, hl⟩ := h.phys
  obtain ⟨h1, h2⟩ := phys_reaches (fun x => absurd x hl) hr
  exact phys_allReturn h1 fun _ x => absurd x hl

/-- **C25, why.** In a tree left by any history the summary and the children stay in step: a key can be removed from
the summary exactly if there is a child at it, and whatever key the summary answers to a query, there is a child at
it. -/
theorem C25_summary_in_step_partial {K V S C Hi Lo Ch : Type} [LinearOrder K] [LinearOrder Hi] [LinearOrder Lo] [VebKey K Hi Lo] [VebKeyRef K Hi Lo]
    [VebTree S Hi Unit] [VebTree Ch Lo V] [TreeCollection C Hi Ch Lo V] {safeS : (Hi → Prop) → Hi → Prop}
    {safeT : (Lo → Prop) → Lo → Prop} (hk : GoodKey K Hi Lo) (hs : CrateTree S Hi Unit safeS)
    (ht : CrateTree Ch Lo V safeT) (hc : CrateColl C Hi Ch Lo V) (ops : List (Op K V))
    (hn : insertions ops ≤ usizeMax) (t : Tree K V S C) (hr : Reaches ops t) (d : TreeData K V S C) (s : S) (c : C)
    (hd : t.data = some d) (hch : d.children = some (s, c)) :
    (∀ hi, (∃ r, VebTree.remove s hi = .ok (.Ok r)) ↔ ∃ u, TreeCollection.get c hi = .ok (some u)) ∧
    (∀ hi, VebTree.minVal s = .ok (hi, ()) → ∃ u, TreeCollection.get c hi = .ok (some u)) ∧
    (∀ hi, VebTree.maxVal s = .ok (hi, ()) → ∃ u, TreeCollection.get c hi = .ok (some u)) ∧
    (∀ x hi, VebTree.find s x = .ok (some (hi, ())) → ∃ u, TreeCollection.get c hi = .ok (some u)) ∧
    (∀ x hi, VebTree.predecessor s x = .ok (some (hi, ())) → ∃ u, TreeCollection.get c hi = .ok (some u)) ∧
    (∀ x hi, VebTree.successor s x = .ok (some (hi, ())) → ∃ u, TreeCollection.get c hi = .ok (some u)) := by
  have := hk.lawful
  obtain ⟨LC⟩ := hc.lawful
  obtain ⟨PS⟩ := hs.phys
  obtain ⟨PT⟩ := ht.phys
  obtain ⟨h1, -⟩ := phys_reaches (T := Tree K V S C) (fun _ => hn) hr
  have I : Tree.ChW K s c := by
    change Tree.W t at h1
    simpa only [Tree.W, hd, Tree.OChW, hch] using h1
  have key : ∀ hi, hi ∈ PS.bag s → ∃ u, TreeCollection.get c hi = .ok (some u) := fun hi h => by
    obtain ⟨u, hu, -⟩ := Tree.ch_child I h
    exact ⟨u, by rw [LC.get c hi I.cInv, hu]⟩
  refine ⟨fun hi => ⟨?_, ?_⟩, fun hi h => ?_, fun hi h => ?_, fun x hi h => ?_, fun x hi h => ?_, fun x hi h => ?_⟩
  · rintro ⟨r, hr⟩
    rcases PS.remove s hi I.sW with ⟨e, -⟩ | ⟨o, v, -, e⟩
    · rw [e] at hr; cases hr
    · refine key hi ?_
      cases o with
      | none => rw [show PS.bag s = {hi} from e]; exact Multiset.mem_singleton_self _
      | some s' => rw [e.2]; exact Multiset.mem_cons_self _ _
  · rintro ⟨u, hu⟩
    rw [LC.get c hi I.cInv, Except.ok.injEq] at hu
    rcases PS.remove s hi I.sW with ⟨-, e⟩ | ⟨o, v, e, -⟩
    · exact absurd ((I.sum hi).2 (Map.mem_of hu)) e
    · exact ⟨_, e⟩
  · obtain ⟨k, v, e, hm⟩ := PS.minVal s I.sW
    rw [h] at e; cases e; exact key _ hm
  · obtain ⟨k, v, e, hm⟩ := PS.maxVal s I.sW
    rw [h] at e; cases e; exact key _ hm
  · obtain ⟨r, e, hm⟩ := PS.find s x I.sW
    rw [h] at e; cases e; exact key _ (hm _ rfl)
  · obtain ⟨r, e, hm⟩ := PS.predecessor s x I.sW
    rw [h] at e; cases e; exact key _ (hm _ rfl)
  · obtain ⟨r, e, hm⟩ := PS.successor s x I.sW
    rw [h] at e; cases e; exact key _ (hm _ rfl)

/-- **C25, what the contract of the index type is for.** `CrateTree` asks of the index type of an array that its indices
are within bounds.  If a child cannot be created at the upper half of `b`, any three keys `a < b < c` inserted in this
order make the tree panic. -/
theorem C25_third_insert_panics {K V S C Hi Lo Ch : Type} [LinearOrder K] [LinearOrder Hi] [VebKey K Hi Lo]
    [VebKeyRef K Hi Lo] [VebTree S Hi Unit] [VebTree Ch Lo V] [TreeCollection C Hi Ch Lo V] {a b c : K} (va vb vc : V)
    (hab : a < b) (hbc : b < c) {p : Panic}
    (hp : ∀ t : Ch, (TreeCollection.create (VebKey.splitVal b).1 t : R C) = .error p) :
    Exec.run (none : Option (Tree K V S C)) [.insert a va, .insert b vb, .insert c vc] = .error p := by
  simp only [Exec.run, Exec.step, Exec.stepTree, VebTree.fromMonad, Tree.fromMonad, VebTree.insert, Tree.insert,
    cmp_gt hab, cmp_gt hbc, cmp_gt (hab.trans hbc), R.ok_bind, R.pure_eq, Tree.insertBelow, hp]
  rfl

/-- **C25 refuted for arrays indexed by `u64`**: trees of `u128` or `i128` keys (`Hi = u64`) over an array, whatever the
summary and the children. -/
theorem C25_refuted_u128 {V Sm Ch : Type} [VebTree Sm (U 64) Unit] [VebTree Ch (U 64) V] (va vb vc : V) :
    (∀ a b c : U 128, a < b → b < c →
      Exec.run (none : Option (Tree (U 128) V Sm (ArrayColl (U 64) Ch))) [.insert a va, .insert b vb, .insert c vc] =
        .error .index) ∧
    (∀ a b c : S 128, a < b → b < c →
      Exec.run (none : Option (Tree (S 128) V Sm (ArrayColl (U 64) Ch))) [.insert a va, .insert b vb, .insert c vc] =
        .error .index) :=
  ⟨fun _ _ _ h1 h2 => C25_third_insert_panics va vb vc h1 h2 fun t => C14_refuted_u64.1 _ t,
   fun _ _ _ h1 h2 => C25_third_insert_panics va vb vc h1 h2 fun t => C14_refuted_u64.1 _ t⟩

/-- **C25 refuted for arrays indexed by `i8`**: trees of `[i8; 2]` keys (`Hi = i8`) over an array, as soon as the second
of three ascending keys starts with a number that is not negative. -/
theorem C25_refuted_i8 {V Sm Ch : Type} [VebTree Sm (S 8) Unit] [VebTree Ch (S 8) V] (va vb vc : V)
    (a b c : Arr (S 8) 2) (h1 : a < b) (h2 : b < c) (hb : 0 ≤ (VebKey.splitVal b).1.bits.toInt) :
    Exec.run (none : Option (Tree (Arr (S 8) 2) V Sm (ArrayColl (S 8) Ch)))
      [.insert a va, .insert b vb, .insert c vc] = .error .index := by
  refine C25_third_insert_panics va vb vc h1 h2 fun t => ?_
  rcases h : (TreeCollection.create (VebKey.splitVal b).1 t : R (ArrayColl (S 8) Ch)) with e | c
  · change ArrayColl.create _ _ = _ at h
    simp only [ArrayColl.create, OptionArray.put] at h
    split at h
    · cases h
    · cases h; rfl
  · have := (C14_signed.1 (VebKey.splitVal b).1 t).1 ⟨c, h⟩
    omega

/-! Non-vacuity: the predefined types are covered, and so are trees whose order the defect has broken. -/

theorem uncounted16 (V : Type) :
    UncountedTree (Set16 (U 16)) (U 16) Unit ∧ UncountedTree (Map16 (U 16) V) (U 16) V :=
  ⟨.tree goodKey .byteSet .byteSet (.array goodIndex), .tree goodKey .byteSet .byteMap (.array goodIndex)⟩
theorem uncounted32 (V : Type) :
    UncountedTree (Set32 (U 32)) (U 32) Unit ∧ UncountedTree (Map32 (U 32) V) (U 32) V :=
  ⟨.tree goodKey (uncounted16 V).1 (uncounted16 V).1 (.array goodIndex),
   .tree goodKey (uncounted16 V).1 (uncounted16 V).2 (.array goodIndex)⟩
theorem uncounted64 (V : Type) :
    (UncountedTree (Set64 (U 64)) (U 64) Unit ∧ UncountedTree (Map64 (U 64) V) (U 64) V) ∧
    (UncountedTree (Set64 (S 64)) (S 64) Unit ∧ UncountedTree (Map64 (S 64) V) (S 64) V) :=
  ⟨⟨.tree goodKey (uncounted32 V).1 (uncounted32 V).1 (.array goodIndex),
    .tree goodKey (uncounted32 V).1 (uncounted32 V).2 (.array goodIndex)⟩,
   ⟨.tree goodKey (uncounted32 V).1 (uncounted32 V).1 (.array goodIndex),
    .tree goodKey (uncounted32 V).1 (uncounted32 V).2 (.array goodIndex)⟩⟩

example (ops : List (Op (U 64) Nat)) : NeverPanics (Map64 (U 64) Nat) ops :=
  C25_no_panic_uncounted_partial (uncounted64 Nat).1.2 ops
/-- after `bad` the maximum reported is wrong, and still every method returns -/
example : ∃ t : Set16 (U 16), Reaches bad t ∧ AllReturn True t ∧ VebTree.maxVal t = .ok (k16 10, ()) := by
  have h : ∃ t : Set16 (U 16), Reaches bad t ∧ VebTree.maxVal t = .ok (k16 10, ()) := ⟨_, ⟨_, rfl⟩, rfl⟩
  obtain ⟨t, ht, hm⟩ := h
  exact ⟨t, ht, C25_every_method_uncounted_partial (uncounted16 Unit).1 bad t ht, hm⟩
/-- the hypotheses of `C25_refuted_u128` and `C25_refuted_i8` -/
example : (U.lit 1 : U 128) < U.lit 2 ∧ (U.lit 2 : U 128) < U.lit 3 := by decide
example : Exec.run (none : Option (Tree (Arr (S 8) 2) Unit (BTreeMap (S 8) Unit) (ArrayColl (S 8) (BTreeMap (S 8) Unit))))
    [.insert ⟨[S.lit 0, S.lit 1], rfl⟩ (), .insert ⟨[S.lit 0, S.lit 2], rfl⟩ (), .insert ⟨[S.lit 0, S.lit 3], rfl⟩ ()] =
    .error .index :=
  C25_refuted_i8 _ _ _ _ _ _ (by decide) (by decide) (by decide)
/-- the bound on insertions holds of every history that fits a computer -/
example (ops : List (Op (U 16) Unit)) (h : ops.length ≤ usizeMax) : NeverPanics (SizedVebTree (Set16 (U 16))) ops :=
  C25_no_panic_partial (.sized (crate16 Unit).1.1) ops (le_trans List.countP_le_length h)

end Veb.Props
