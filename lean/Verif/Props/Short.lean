import Verif.Proof.Short
import Verif.Props.Exact

/-!
# C88 the shortest wrong history

How long a test must be to see the defect of `Tree::insert` (src/tree.rs:524-533).  As long as at most two entries
are stored nothing goes wrong, on any tree type of the crate and at any depth.  The insertion that damages a tree
answers correctly itself, so a history of three calls is always answered correctly; four calls suffice to see a
wrong answer, on every `Tree` over crate parts and with any three keys.
-/

set_option autoImplicit false

namespace Veb.Props
open VebTree

section
variable {T K V : Type} [LinearOrder K] [VebTree T K V] {safe : (K → Prop) → K → Prop}

/-- **C88, two keys.** A history that never stores more than two entries runs like the ordered map, on every tree
type of the crate. -/
theorem C88_two_keys (h : CrateTree T K V safe) (ops : List (Op K V))
    (hn : ∀ pre, pre <+: ops → (entries pre).length ≤ 2) : RunsLikeMap T ops :=
  C17_history_partial h ops (safeHist_two h ops hn)

/-- **C88, the damaging insertion itself.** After a history of safe insertions, one insertion of any key, safe or
not, is still answered like the map would (as long as the counters of `SizedVebTree` have room). -/
theorem C88_last_insert (h : CrateTree T K V safe) (ops : List (Op K V)) (hs : SL.SafeHist safe [] ops) (k : K)
    (v : V) (hf : (contents ops).Mem k ∨ (entries ops).length < usizeMax) :
    RunsLikeMap T (ops ++ [.insert k v]) := by
  obtain ⟨L, rfl, -, A⟩ := h.answers
  obtain ⟨t, h1, h2⟩ := run_ok (L := L) rel_none ops hs
  have hl := entries_lists ops
  have hne : entries (ops ++ [.insert k v]) ≠ [] := by
    intro e
    have hi : SL.Lists (entries (ops ++ [.insert k v])) ((contents ops).upd k (some v)) := by
      rw [entries_snoc]; exact hl.insert k v
    have := hi.nil_iff.1 e
    have hk := congrFun this k
    simp [Map.empty] at hk
  have hout : (SL.run [] (ops ++ [.insert k v])).2 =
      (SL.run [] ops).2 ++ [.kv ((contents ops k).map fun v => (k, v))] := by
    rw [outs_snoc]
    show _ ++ [Out.kv (SL.find (entries ops) k)] = _
    rw [hl.find]
  obtain _ | t := t
  · have he : entries ops = [] := h2
    have hc : contents ops k = none := by rw [hl.nil_iff.1 he]; rfl
    refine ⟨some (fromMonad k v), ?_, by simp [hne]⟩
    rw [hout, hc]
    exact run_append_ok h1 (by simp [Exec.run, Exec.step])
  · obtain ⟨I, hlt⟩ := h2
    have habs : L.abs t = contents ops := hlt.ext hl
    obtain ⟨t', ht⟩ := A t k v I (by rw [habs, hl.card]; exact hf)
    refine ⟨some t', ?_, by simp [hne]⟩
    rw [hout, ← habs]
    exact run_append_ok h1 (by simp [Exec.run, Exec.step, Exec.stepTree, ht])

/-- **C88, three calls.** Every history of at most three calls runs like the ordered map, on every tree type of the
crate. -/
theorem C88_three_calls (h : CrateTree T K V safe) (ops : List (Op K V)) (hn : ops.length ≤ 3) :
    RunsLikeMap T ops := by
  rcases ops.eq_nil_or_concat with rfl | ⟨pre, op, rfl⟩
  · exact C17_history_partial h [] trivial
  simp only [List.concat_eq_append, List.length_append, List.length_singleton] at hn ⊢
  have hs : SL.SafeHist safe [] pre := safeHist_two h pre fun q hq =>
    (entries_le_length q).trans ((List.IsPrefix.length_le hq).trans (by omega))
  cases op with
  | insert k v =>
    refine C88_last_insert h pre hs k v (.inr ?_)
    exact lt_of_le_of_lt ((entries_le_length pre).trans (show _ ≤ 2 by omega)) (by decide)
  | _ => exact C17_history_partial h _ ((SL.safeHist_append _ _ _ _).2 ⟨hs, trivial, trivial⟩)
end

section
variable {K V S C Hi Lo T : Type} [LinearOrder K] [LinearOrder Hi] [LinearOrder Lo] [VebKey K Hi Lo]
  [VebKeyRef K Hi Lo] [VebTree S Hi Unit] [VebTree T Lo V] [TreeCollection C Hi T Lo V]
  {safeS : (Hi → Prop) → Hi → Prop} {safeT : (Lo → Prop) → Lo → Prop}

/-- **C88, four calls.** On every `Tree` over crate parts, whatever its keys: inserting any three keys with the
least one last makes `max_val` answer the middle one. -/
theorem C88_four_calls (hk : GoodKey K Hi Lo) (hs : CrateTree S Hi Unit safeS) (ht : CrateTree T Lo V safeT)
    (hc : CrateColl C Hi T Lo V) (a b c : K × V) (hab : a.1 < b.1) (hbc : b.1 < c.1) :
    outputs (Tree K V S C) [.insert b.1 b.2, .insert c.1 c.2, .insert a.1 a.2, .maxVal] =
      .ok [.kv none, .kv none, .kv none, .kv (some b)] ∧
    outputs (Tree K V S C) [.insert c.1 c.2, .insert b.1 b.2, .insert a.1 a.2, .maxVal] =
      .ok [.kv none, .kv none, .kv none, .kv (some b)] ∧
    ¬ RunsLikeMap (Tree K V S C) [.insert b.1 b.2, .insert c.1 c.2, .insert a.1 a.2, .maxVal] ∧
    ¬ RunsLikeMap (Tree K V S C) [.insert c.1 c.2, .insert b.1 b.2, .insert a.1 a.2, .maxVal] := by
  have hT : CrateTree (Tree K V S C) K V (Tree.Safe safeS safeT) := .tree hk hs ht hc
  have key : ∀ ops : List (Op K V), ops.length ≤ 2 → entries ops = [b, c] →
      (SL.run [] ops).2 = [.kv none, .kv none] →
      outputs (Tree K V S C) (ops ++ [.insert a.1 a.2, .maxVal]) = .ok [.kv none, .kv none, .kv none, .kv (some b)] ∧
      ¬ RunsLikeMap (Tree K V S C) (ops ++ [.insert a.1 a.2, .maxVal]) := by
    intro ops hlen he ho
    have hl := entries_lists ops
    have := C41_below_min hk hs ht hc ops
      (safeHist_two hT ops fun q hq => (entries_le_length q).trans ((List.IsPrefix.length_le hq).trans hlen))
      (by rw [he]; show 2 ≤ usizeMax; decide) b c (hl.minE.1 (by rw [he]; rfl)) (hl.maxE.1 (by rw [he]; rfl)) hbc.ne a.1 a.2 hab
    rw [ho] at this
    refine ⟨this.1, ?_⟩
    rintro ⟨t, hr, -⟩
    have h1 := this.1
    rw [outputs, hr, this.2] at h1
    have h1 : (Except.ok [.kv none, .kv none, .kv none, .kv (some c)] : R (List (Out K V))) =
      .ok [.kv none, .kv none, .kv none, .kv (some b)] := h1
    simp only [Except.ok.injEq, List.cons.injEq, Out.kv.injEq, Option.some.injEq, true_and, and_true] at h1
    exact hbc.ne (congrArg Prod.fst h1.symm)
  have e1 := key [.insert b.1 b.2, .insert c.1 c.2] (by simp)
    (by simp [entries, SL.run, SL.step, SL.insert, hbc, not_lt.2 hbc.le])
    (by simp [SL.run, SL.step, SL.insert, SL.find, hbc.ne])
  have e2 := key [.insert c.1 c.2, .insert b.1 b.2] (by simp)
    (by simp [entries, SL.run, SL.step, SL.insert, hbc, not_lt.2 hbc.le])
    (by simp [SL.run, SL.step, SL.insert, SL.find, hbc.ne'])
  exact ⟨e1.1, e2.1, e1.2, e2.2⟩
end

/-! ### non-vacuity -/

example : RunsLikeMap (Map32 (U 32) Nat) [.insert (U.lit 20) 1, .insert (U.lit 10) 2, .insert (U.lit 5) 3] :=
  C88_three_calls (crate32 Nat).1.2 _ (by simp)
example : ¬ RunsLikeMap (Map16 (U 16) Nat)
    [.insert (U.lit 10) 1, .insert (U.lit 20) 2, .insert (U.lit 5) 3, .maxVal] :=
  (C88_four_calls goodKey .byteSet .byteMap (.array goodIndex) (U.lit 5, 3) (U.lit 10, 1) (U.lit 20, 2)
    (by decide +kernel) (by decide +kernel)).2.2.1
/-- A history of two keys that keeps going below the minimum. -/
example : RunsLikeMap (Map16 (U 16) Nat) [.insert (U.lit 20) 1, .insert (U.lit 10) 2, .removeMax,
    .insert (U.lit 5) 3, .insert (U.lit 10) 4, .removeMax, .insert (U.lit 3) 5] :=
  C88_two_keys (crate16 Nat).1.2 _ fun pre hp => by
    have := (List.mem_inits pre _).2 hp
    revert this
    generalize hI : List.inits _ = I
    intro this
    have : ∀ q ∈ I, (entries q).length ≤ 2 := by rw [← hI]; decide +kernel
    exact this _ ‹_›
example : RunsLikeMap (Map16 (U 16) Nat) (sample ++ [.insert (U.lit 0) 7]) :=
  C88_last_insert (crate16 Nat).1.2 sample sample_safe _ _ (.inr (by decide +kernel))

end Veb.Props
