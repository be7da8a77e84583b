import Verif.Proof.TreeFixed
import Verif.Props.Tree
import Verif.Props.TreeDefect

/-!
# C42 one comparison is all that is wrong with `Tree`

`FTree` is `Tree` with the operands of the comparison in src/tree.rs:526 exchanged, and nothing else changed
(Verif/Model/TreeFixed.lean).  For it the claim of C17 holds without any restriction.
-/

set_option autoImplicit false
set_option linter.unusedSectionVars false

namespace Veb.Props

variable {T K V : Type} [LinearOrder K] [VebTree T K V]

/-- **C42.** With that comparison turned around, every history over every tree type of the crate runs like the
ordered map. -/
theorem C42_fixed (h : FixedTree T K V) (ops : List (Op K V)) : RunsLikeMap T ops := by
  obtain ⟨L, A⟩ := h.lawful
  exact runsLikeMap_of L (safeHist_of_always A _ _)

/-- … and with a counter, as long as at most `usize::MAX` entries are stored. -/
theorem C42_fixed_sized (h : FixedTree T K V) (ops : List (Op K V)) (hfit : FitsUsize ops) :
    RunsLikeMap (SizedVebTree T) ops := by
  obtain ⟨L, A⟩ := h.lawful
  refine runsLikeMap_of (inferInstance : LawfulVebTree (SizedVebTree T) K V) ?_
  by_contra hns
  obtain ⟨pre, k, v, hp, -, -, hk⟩ := SL.first_unsafe hns
  have hl := entries_lists pre
  have hk : ¬ (L.Safe (SL.keys (entries pre)) k ∧
    (SL.keys (entries pre) k ∨ Set.ncard {j | SL.keys (entries pre) j} < usizeMax)) := hk
  rw [hl.keys] at hk
  have h1 : ¬ (contents pre).Mem k := fun h => hk ⟨A _ _, .inl h⟩
  have h2 : ¬ (contents pre).card < usizeMax := fun h => hk ⟨A _ _, .inr h⟩
  have h3 := hfit _ hp
  have h4 : SL.Lists (entries (pre ++ [.insert k v])) ((contents pre).upd k (some v)) := by
    rw [entries, SL.run_append]
    exact hl.insert k v
  rw [← h4.card, Map.card_upd_new hl.finite (Map.not_mem.1 h1)] at h3
  omega

/-- The predefined types are covered. -/
theorem C42_predefined (V : Type) :
    ((∀ ops, RunsLikeMap (FSet16 (U 16)) ops) ∧ (∀ ops, RunsLikeMap (FMap16 (U 16) V) ops) ∧
     (∀ ops, RunsLikeMap (FSet16 (S 16)) ops) ∧ (∀ ops, RunsLikeMap (FMap16 (S 16) V) ops)) ∧
    ((∀ ops, RunsLikeMap (FSet32 (U 32)) ops) ∧ (∀ ops, RunsLikeMap (FMap32 (U 32) V) ops) ∧
     (∀ ops, RunsLikeMap (FSet32 (S 32)) ops) ∧ (∀ ops, RunsLikeMap (FMap32 (S 32) V) ops)) ∧
    ((∀ ops, RunsLikeMap (FSet64 (U 64)) ops) ∧ (∀ ops, RunsLikeMap (FMap64 (U 64) V) ops) ∧
     (∀ ops, RunsLikeMap (FSet64 (S 64)) ops) ∧ (∀ ops, RunsLikeMap (FMap64 (S 64) V) ops)) := by
  have s16 : FixedTree (FSet16 (U 16)) (U 16) Unit := .tree goodKey .byteSet .byteSet (.array goodIndex)
  have m16 : FixedTree (FMap16 (U 16) V) (U 16) V := .tree goodKey .byteSet .byteMap (.array goodIndex)
  have s32 : FixedTree (FSet32 (U 32)) (U 32) Unit := .tree goodKey s16 s16 (.array goodIndex)
  have m32 : FixedTree (FMap32 (U 32) V) (U 32) V := .tree goodKey s16 m16 (.array goodIndex)
  exact ⟨⟨C42_fixed s16, C42_fixed m16, C42_fixed (.tree goodKey .byteSet .byteSet (.array goodIndex)),
      C42_fixed (.tree goodKey .byteSet .byteMap (.array goodIndex))⟩,
    ⟨C42_fixed s32, C42_fixed m32, C42_fixed (.tree goodKey s16 s16 (.array goodIndex)),
      C42_fixed (.tree goodKey s16 m16 (.array goodIndex))⟩,
    ⟨C42_fixed (.tree goodKey s32 s32 (.array goodIndex)), C42_fixed (.tree goodKey s32 m32 (.array goodIndex)),
      C42_fixed (.tree goodKey s32 s32 (.array goodIndex)), C42_fixed (.tree goodKey s32 m32 (.array goodIndex))⟩⟩

section
variable {S C Hi Lo T : Type} [LinearOrder Hi] [LinearOrder Lo] [VebKey K Hi Lo] [VebKeyRef K Hi Lo]
  [VebTree S Hi Unit] [VebTree T Lo V] [TreeCollection C Hi T Lo V]

/-- The corrected call does the same as the code, unless the key is below the minimum of a tree with two or more
entries. -/
theorem C42_same (t : Tree K V S C) (k : K) (v : V) (h : t.min.1 ≤ k ∨ t.data = none) :
    t.insertFixed k v = t.insert k v := by
  obtain ⟨mn, _ | d⟩ := t
  · simp only [Tree.insertFixed]
    cases cmp k mn.1 <;> rfl
  · rcases h with h | h
    · rcases h.eq_or_lt with h | h
      · have h : mn.1 = k := h
        subst h
        simp [Tree.insertFixed, cmp_self]
      · have h : mn.1 < k := h
        simp [Tree.insertFixed, cmp_gt h]
    · cases h

end

/-- The history that refutes C17 for the code, on the corrected tree. -/
example : outputs (FSet16 (U 16)) (bad ++ [.maxVal]) =
    .ok [.kv none, .kv none, .kv none, .kv (some (k16 20, ()))] := by
  decide +kernel

end Veb.Props
