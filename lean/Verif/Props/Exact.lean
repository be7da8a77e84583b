import Verif.Proof.Exact
import Verif.Props.Tree

/-!
# C41 the safe histories are exactly the ones that are answered correctly

`C17_history_partial` and its companions restrict histories to safe insertions.  Here it is shown that nothing is
given away by this: on every tree type of the crate, of any nesting depth, a history that contains an unsafe
insertion has a moment at which `max_val`, or `predecessor` of some key, is wrong (or some call panics).
-/

set_option autoImplicit false

namespace Veb.Props
open VebTree

variable {T K V : Type} [LinearOrder K] [VebTree T K V] {safe : (K → Prop) → K → Prop}

/-- **C41.** A history is answered correctly throughout iff all its insertions are safe. -/
theorem C41_exact (h : CrateTree T K V safe) (ops : List (Op K V)) :
    SL.SafeHist safe [] ops ↔ AnswersThroughout T ops := by
  constructor
  · intro hs pre ⟨rest, hp⟩
    have hpre : SL.SafeHist safe [] pre := by
      rw [← hp, SL.safeHist_append] at hs; exact hs.1
    refine ⟨C17_history_partial h _ ?_, fun j => C17_history_partial h _ ?_⟩ <;>
      exact (SL.safeHist_append _ _ _ _).2 ⟨hpre, trivial, trivial⟩
  · obtain ⟨L, rfl, E⟩ := h.exact
    exact safe_of_answers E

/-- No condition on histories that survives prefixes and extra queries, and guarantees correct answers, is weaker
than safety. -/
theorem C41_optimal (h : CrateTree T K V safe) (P : List (Op K V) → Prop)
    (hpre : ∀ pre ops, pre <+: ops → P ops → P pre)
    (hmax : ∀ ops, P ops → P (ops ++ [.maxVal])) (hpred : ∀ ops j, P ops → P (ops ++ [.predecessor j]))
    (hok : ∀ ops, P ops → RunsLikeMap T ops) (ops : List (Op K V)) (hp : P ops) : SL.SafeHist safe [] ops :=
  (C41_exact h ops).2 fun _ hpr =>
    ⟨hok _ (hmax _ (hpre _ _ hpr hp)), fun j => hok _ (hpred _ j (hpre _ _ hpr hp))⟩

/-- **C41 for 16-bit keys, in plain words.** The answers are right throughout iff no insertion goes below the least
key while at least two keys are stored. -/
theorem C41_sixteen_bit {K V : Type} [LinearOrder K] [VebKey K (U 8) (U 8)] [VebKeyRef K (U 8) (U 8)]
    (hk : GoodKey K (U 8) (U 8)) :
    (∀ ops : List (Op K V), notBelowMin [] ops = true ↔ AnswersThroughout (Map16 K V) ops) ∧
    (∀ ops : List (Op K Unit), notBelowMin [] ops = true ↔ AnswersThroughout (Set16 K) ops) :=
  ⟨fun ops => (notBelowMin_iff SL.sorted_nil ops).trans
      (C41_exact (.tree hk .byteSet .byteMap (.array goodIndex)) ops),
   fun ops => (notBelowMin_iff SL.sorted_nil ops).trans
      (C41_exact (.tree hk .byteSet .byteSet (.array goodIndex)) ops)⟩

/-- The types without a `Tree` in them are answered correctly throughout every history. -/
theorem C41_leaves (h : CrateTree T K V always) (ops : List (Op K V)) : AnswersThroughout T ops :=
  (C41_exact h ops).1 (safeHist_always _ _)

/-- Both sides of C41 occur: `sample` is answered correctly throughout … -/
example : AnswersThroughout (Map16 (U 16) Nat) sample := (C41_exact (crate16 Nat).1.2 sample).1 sample_safe
/-- … and inserting 10, 20, 5 is not. -/
example : ¬ AnswersThroughout (Set16 (U 16))
    [.insert (U.lit 10) (), .insert (U.lit 20) (), .insert (U.lit 5) ()] := by
  rw [← (C41_sixteen_bit (V := Unit) goodKey).2]
  decide +kernel

section
variable {S C Hi Lo T : Type} [LinearOrder Hi] [LinearOrder Lo] [VebKey K Hi Lo] [VebKeyRef K Hi Lo]
  [VebTree S Hi Unit] [VebTree T Lo V] [TreeCollection C Hi T Lo V]
  {safeS : (Hi → Prop) → Hi → Prop} {safeT : (Lo → Prop) → Lo → Prop}

/-- **What an insertion below the minimum does.** Take any tree reached by safe insertions, with least entry `a`,
greatest entry `b ≠ a`, and insert a key below `a`: the call succeeds and returns `None` as it should, but from now
on `max_val` answers `a`. -/
theorem C41_below_min (hk : GoodKey K Hi Lo) (hs : CrateTree S Hi Unit safeS) (ht : CrateTree T Lo V safeT)
    (hc : CrateColl C Hi T Lo V) (ops : List (Op K V))
    (hsafe : SL.SafeHist (Tree.Safe safeS safeT) [] ops) (hfit : (entries ops).length ≤ usizeMax)
    (a b : K × V) (ha : (contents ops).IsMin a) (hb : (contents ops).IsMax b) (hab : a.1 ≠ b.1)
    (k : K) (v : V) (hka : k < a.1) :
    outputs (Tree K V S C) (ops ++ [.insert k v, .maxVal]) =
      .ok ((SL.run [] ops).2 ++ [.kv none, .kv (some a)]) ∧
    (SL.run [] (ops ++ [.insert k v, .maxVal])).2 = (SL.run [] ops).2 ++ [.kv none, .kv (some b)] := by
  have := hk.lawful
  obtain ⟨LC⟩ := hc.lawful
  obtain ⟨LS, rfl, MS⟩ := hs.lawful
  obtain ⟨LT, rfl, MT⟩ := ht.lawful
  obtain ⟨t, h1, h2⟩ := run_ok (L := (inferInstance : LawfulVebTree (Tree K V S C) K V)) rel_none ops hsafe
  have hlist := entries_lists ops
  obtain _ | t := t
  · have h2 : entries ops = [] := h2
    have := hlist.nil_iff.1 h2
    rw [this] at ha
    exact absurd ha.1 (by simp [Map.empty])
  obtain ⟨I, hl⟩ := h2
  have habs : t.abs = contents ops := hl.ext hlist
  obtain ⟨mn, _ | d⟩ := t
  · exfalso
    have e1 : a.1 = mn.1 := (Map.mem_single (v := mn.2) _ _).1 (by
      have := Map.mem_of ha.1; rw [← habs] at this; exact this)
    have e2 : b.1 = mn.1 := (Map.mem_single (v := mn.2) _ _).1 (by
      have := Map.mem_of hb.1; rw [← habs] at this; exact this)
    exact hab (e1.trans e2.symm)
  have I : (⟨mn, some d⟩ : Tree K V S C).Inv := I
  have hmn : (contents ops).IsMin mn := by
    rw [← habs]; exact Map.isMin_ends I.1 I.2.between
  obtain rfl := ha.unique hmn
  have hcard : (⟨a, some d⟩ : Tree K V S C).abs.card ≤ usizeMax := by
    rw [habs, hlist.card]; exact hfit
  obtain ⟨t', hi⟩ := Tree.insert_below_min_ok (v := v) I hka hcard
  have hmax := (Tree.insert_below_min I.1 hka hi).1
  constructor
  · have := run_append_ok h1 (b := [.insert k v, .maxVal]) (t'' := some t') (os' := [.kv none, .kv (some a)]) (by
      have hi' : VebTree.insert (⟨a, some d⟩ : Tree K V S C) k v = .ok (t', none) := hi
      simp [Exec.run, Exec.step, Exec.stepTree, hi', hmax])
    rw [outputs, this]; rfl
  · rw [SL.run_append]
    have hn : SL.find (entries ops) k = none := by
      rw [hlist.find]
      have : contents ops k = none := by
        by_contra hm
        exact absurd (ha.2 k hm) (not_le.2 hka)
      rw [this]; rfl
    have hbm : ((contents ops).upd k (some v)).IsMax b := by
      refine ⟨?_, fun j hj => ?_⟩
      · rw [Map.upd_ne]
        · exact hb.1
        · exact ((hka.trans_le (ha.2 _ (Map.mem_of hb.1))).ne')
      · rw [Map.mem_upd_some] at hj
        rcases hj with rfl | hj
        · exact (hka.trans_le (ha.2 _ (Map.mem_of hb.1))).le
        · exact hb.2 j hj
    have hm := (hlist.insert k v).maxE.2 hbm
    have hn' : SL.find (SL.run [] ops).1 k = none := hn
    have hm' : SL.maxE (SL.insert (SL.run [] ops).1 k v) = some b := hm
    simp [SL.run, SL.step, hn', hm']

/-- non-vacuity: the hypotheses hold for a 32-bit map after inserting 10 and 20 -/
example : outputs (Map32 (U 32) Nat) [.insert (U.lit 10) 1, .insert (U.lit 20) 2, .insert (U.lit 5) 3, .maxVal] =
    .ok [.kv none, .kv none, .kv none, .kv (some (U.lit 10, 1))] := by
  have h16 := crate16 Nat
  have := (C41_below_min (K := U 32) (V := Nat) (S := Set16 (U 16)) (T := Map16 (U 16) Nat)
    (C := ArrayColl (U 16) (Map16 (U 16) Nat)) goodKey h16.1.1 h16.1.2 (.array goodIndex)
    [.insert (U.lit 10) 1, .insert (U.lit 20) 2] ?_ (by decide +kernel) (U.lit 10, 1) (U.lit 20, 2)
    ?_ ?_ (by decide +kernel) (U.lit 5) 3 (by decide +kernel)).1
  · exact this
  · refine ⟨.inl rfl, .inr ?_, trivial⟩
    intro mn mx h1 h2 h3
    obtain ⟨w1, h1⟩ := h1
    obtain ⟨w2, h2⟩ := h2
    have e1 : (mn, w1) = (U.lit 10, 1) := by simpa [SL.step, SL.insert] using h1
    have e2 : (mx, w2) = (U.lit 10, 1) := by simpa [SL.step, SL.insert] using h2
    exact absurd ((congrArg Prod.fst e1).trans (congrArg Prod.fst e2).symm) h3
  · exact (entries_lists _).minE.1 (by decide +kernel)
  · exact (entries_lists _).maxE.1 (by decide +kernel)

end
end Veb.Props
