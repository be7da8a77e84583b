import Verif.Props.Bench
import Verif.Props.Canon
import Verif.Props.Cap
import Verif.Props.Check
import Verif.Props.Collections
import Verif.Props.Cost
import Verif.Props.Counter
import Verif.Props.Entries
import Verif.Props.Exact
import Verif.Props.Flat
import Verif.Props.Iter
import Verif.Props.IterAll
import Verif.Props.IterCost
import Verif.Props.KeyObj
import Verif.Props.KeyPtr
import Verif.Props.Ledger
import Verif.Props.Look
import Verif.Props.Loop
import Verif.Props.Marker
import Verif.Props.Nibble
import Verif.Props.NoPanic
import Verif.Props.Number
import Verif.Props.Open
import Verif.Props.Release
import Verif.Props.Repaired
import Verif.Props.RepairedApi
import Verif.Props.Same
import Verif.Props.Shuffle
import Verif.Props.Space
import Verif.Props.Tree
import Verif.Proof.Short
import Verif.Props.TreeDefect
import Verif.Props.TreeFixed
import Verif.Props.Values
import Verif.Props.Work

/-!
Every theorem below is applied to concrete arguments: its hypotheses hold of them, so it is not vacuous.  The
files of `Verif/Props` have examples of their own; these are the theorems that none of those examples names.
The histories are `sample` of `Props/Tree.lean` (safe, with queries, an overwriting and a removal) and `bad`,
`badLoop`, `badMap` (which run into the defect of src/tree.rs:524-533).
-/

set_option autoImplicit false

namespace Veb.NonVacuous
open Veb Veb.Props

/-! ## The arguments -/

theorem sampleC : CrateTree (Map16 (U 16) Nat) (U 16) Nat safe16 := (crate16 Nat).1.2
theorem sampleN : insertions sample ≤ usizeMax := by simp [sample, insertions, usizeMax]
theorem sampleLen : (entries sample).length ≤ usizeMax := by
  have : (entries sample).length = 4 := by decide +kernel
  rw [this]; simp [usizeMax]
theorem sampleCov : Covered (Map16 (U 16) Nat) sample := .counted sampleC sampleN
/-- the tree after `sample` -/
noncomputable def t : Map16 (U 16) Nat := Classical.choose sample_reaches
theorem t_reaches : Reaches sample t := Classical.choose_spec sample_reaches
/-- its answers -/
noncomputable def os : List (Out (U 16) Nat) := Classical.choose t_reaches
theorem t_run : Exec.run none sample = .ok (some t, os) := Classical.choose_spec t_reaches
theorem t_answers : Answers t (entries sample) := C28_answers_partial sampleC sample t sample_safe t_reaches
theorem covBad : Covered (Set16 (U 16)) bad := .uncounted (uncounted16 Unit).1
theorem covLoop : Covered (Set16 (U 16)) badLoop := .uncounted (uncounted16 Unit).1

/-! ## Histories -/

example := C43_conservation sampleCov t_run
example := C43_conservation_max sampleCov t_run
example := C43_values sampleCov t_run
example := C37_conservation sampleCov t_run
example := C37_conservation_max sampleCov t_run
example := C37_remove_iff sampleCov t_run (U.lit 70)
example := C38_len sampleC sampleN (t := ⟨_, _⟩) rfl
example := C38_len_hint sampleCov t_run
example := C38_monad sampleCov t_run
example := C43_no_invented_entry (T := Set16 (U 16)) (ops := bad) (op := .minVal) (.uncounted (uncounted16 Unit).1) rfl rfl rfl
example := C37_no_invented_key (T := Set16 (U 16)) (ops := bad) (op := .minVal) (.uncounted (uncounted16 Unit).1) rfl rfl rfl
example := C39_no_key_lost covBad (by decide +kernel) rfl bad_20
example := C40_lookup (crate16 Unit).1.1 bad (by decide +kernel) rfl
/-- the tree after `bad` -/
noncomputable def b : Set16 (U 16) := Classical.choose (show ∃ t : Set16 (U 16), ∃ o, Exec.run none bad = .ok (some t, o) ∧
  VebTree.successor t (k16 5) = .ok (some (k16 20, ())) from ⟨_, _, rfl, rfl⟩)
theorem b_reaches : Reaches bad b := by
  have h := Classical.choose_spec (show ∃ t : Set16 (U 16), ∃ o, Exec.run none bad = .ok (some t, o) ∧
    VebTree.successor t (k16 5) = .ok (some (k16 20, ())) from ⟨_, _, rfl, rfl⟩)
  exact ⟨h.choose, h.choose_spec.1⟩
theorem b_succ : VebTree.successor b (k16 5) = .ok (some (k16 20, ())) :=
  (Classical.choose_spec (show ∃ t : Set16 (U 16), ∃ o, Exec.run none bad = .ok (some t, o) ∧
    VebTree.successor t (k16 5) = .ok (some (k16 20, ())) from ⟨_, _, rfl, rfl⟩)).choose_spec.2
example := C40_successor (crate16 Unit).1.1 bad (by decide +kernel) b_reaches b_succ
example := C25_every_method_partial sampleC sample sampleN t t_reaches
example := C41_optimal (CrateTree.byteMap (V := Nat)) (fun _ => True) (fun _ _ _ _ => trivial) (fun _ _ => trivial)
  (fun _ _ _ => trivial) (fun ops _ => C10_byteMap_history _ ops) [.insert (U.lit 3) 1] trivial
example := C41_leaves (CrateTree.byteMap (V := Nat)) [.insert (U.lit 3) 1]
example := C32_order_independence_partial (CrateTree.byteMap (V := Nat)) [.insert (U.lit 3) 1, .insert (U.lit 2) 1]
  [.insert (U.lit 2) 1, .insert (U.lit 3) 1] [.minVal] _ _ (safeHist_always _ _) (safeHist_always _ _) ⟨_, rfl⟩ ⟨_, rfl⟩
  (by
    have h : entries [Op.insert (U.lit 3 : U 8) 1, .insert (U.lit 2) 1] = entries [Op.insert (U.lit 2 : U 8) 1, .insert (U.lit 3) 1] := by
      decide +kernel
    have h1 := (entries_lists [Op.insert (U.lit 3 : U 8) 1, .insert (U.lit 2) 1]).2
    rw [h] at h1
    funext k
    exact Option.ext fun v => (h1 k v).symm.trans ((entries_lists _).2 k v))
example := C36_ascending_histories (CrateTree.byteMap (V := Nat)) [.insert (U.lit 3) 1, .insert (U.lit 4) 1]
  (ascending_inserts [(U.lit 3, 1), (U.lit 4, 1)] [] (by simp [SL.Sorted]; decide +kernel) (by simp [usizeMax]))
theorem fits (ops : List (Op (U 16) Unit)) (h : ops.length ≤ usizeMax) : FitsUsize ops :=
  fun _ hp => le_trans (entries_le_length _) (le_trans hp.length_le h)
theorem fixed16 : FixedTree (FSet16 (U 16)) (U 16) Unit := .tree goodKey .byteSet .byteSet (.array goodIndex)
example := C42_fixed_sized fixed16 bad (fits _ (by simp [bad, usizeMax]))

/-! ## Iterators -/

example := C28_forward t_answers sampleLen 3
example := C28_backward t_answers sampleLen 3
example := C29_double_ended t_answers sampleLen [.front, .back]
example := C29_partition t_answers sampleLen [.front, .back]
/-- iterating over the tree after `sample` until `None` -/
theorem t_calls : ∃ it os, (Iter.new t).calls (List.replicate 5 .front) = .ok (it, os) ∧ none ∈ os := by
  obtain ⟨it, h, -⟩ := C28_forward t_answers sampleLen 5
  have e : entries sample = [(U.lit 7, 5), (U.lit 70, 6), (U.lit 301, 4), (U.lit 4000, 3)] := by decide +kernel
  refine ⟨_, _, h, ?_⟩
  rw [e]; simp
/-- the iterator then, and the items it gave -/
noncomputable def it := t_calls.choose
noncomputable def items := t_calls.choose_spec.choose
theorem it_calls : (Iter.new t).calls (List.replicate 5 .front) = .ok (it, items) := t_calls.choose_spec.choose_spec.1
theorem it_none : none ∈ items := t_calls.choose_spec.choose_spec.2
example := C30_fused t_answers sampleLen _ [.back] it it items _ it_calls it_none (C44_fused t _ [.back] it_calls it_none)
example := C30_terminates t_answers sampleLen _ it items it_calls
example := C31_size_hint t_answers sampleLen _ it items it_calls
example := C31_exact_size_partial (CrateTree.byteMap (V := Nat)) [.insert (U.lit 3) 1] _
  ⟨by simp [sizedSafe, always, usizeMax], trivial⟩ ⟨_, rfl⟩ [.front] _ _ rfl
example := C44_one_end covBad b_reaches .front 3 (by simp [usizeMax])
example := C48_same t _ it_calls
example := C48_fused t _ [.back] (C48_same t _ it_calls) it_none
example := C48_never_panics sampleCov t_run [.front, .back]
example := C48_stops covBad b_reaches [.front, .back] (by simp [usizeMax])
example := C30_refuted b b_reaches 2 (by simp [usizeMax])
example := C58_collect_partial sampleC sample t sample_safe t_reaches sampleLen 5 (by decide +kernel)
theorem t_yields : Yields (Iter.new t) (entries sample) := C58_yields t_answers sampleLen [] _ [] rfl
theorem le5 : (entries sample).length < 5 := by decide +kernel
example := C58_try_fold t_yields .front (fun b a => .ok (if b then .inr a else .inl b)) true 5 le5
example := C58_fold t_yields .back (fun (b : Nat) a => .ok (b + a.2)) 0 5 le5
example := C58_collect t_yields .front 5 le5
example := C58_count t_yields .front 5 le5 sampleLen
example := C58_last t_yields .front 5 le5
example := C58_find t_yields .front (fun a => a.2 == 6) 5 le5
example := C58_nth t_yields .back 2

/-! ## Types that may stand for each other -/

example := C46_shape (odd16 Nat) sample
example := C46_iter (odd16 Nat) sample [.front, .back]
example := C46_representation_counted (.sized (odd16 Nat)) (.sized sampleC) sample sampleN
example := C47_values (map16Shape (K := U 16) (fun n : Nat => n + 1)) sample
example := C47_iter (map16Shape (K := U 16) (fun n : Nat => n + 1)) sample [.front, .back]
example := C47_iter_keys_decide sampleC sample sample rfl [.front, .back]
example := C35_upToEq_partial (.btreeMap unTg_forgets) .btreeMap (twice.map fun p => Op.insert p.1 p.2) (safeHist_always _ _)
example := C35_forget (.btreeMap unTg_forgets) (twice.map fun p => Op.insert p.1 p.2)
example := C35_copies (T' := BTreeMap (U 8) Nat) (.btreeMap (K := U 8) (fun _ _ => rfl)) [.insert (U.lit 3) 1]
example := C45_unsigned .p32 32 (by simp [Ptr.has])
example := C45_signed .p32 32 (by simp [Ptr.has])
example := C45_signed_index .p32 16 (by simp [Ptr.has]) (by decide) (S.lit (-3))
example := C45_length .p32 32 (by simp [Ptr.has])
example := C45_constant .p32 32 (by simp [Ptr.has])
example := C45_array_partial .p32 (by decide) 16 (by simp [Ptr.has]) (by decide)
example := C45_predefined_partial .p32 (by decide) Nat
example := C17_sixteen_bit_partial (K := U 16) (V := Nat) goodKey
example := C34_faithful (nested16 (U 16) Nat (le_refl _)).2
example := C34_visits (nested16 (U 16) Nat (le_refl _)).2
example := C66_prices (nested16 (U 16) Nat (le_refl _)).2 (fun _ => 1) (m := 1) (fun _ _ => le_refl _)
example := C66_history (nested16 (U 16) Nat (le_refl _)).2 (fun _ => 1) (m := 1) (fun _ _ => le_refl _) sample
example := C66_makes (nested16 (U 16) Nat (le_refl _)).2 sample
example := C72_crate (nested16 (U 16) Nat (le_refl _)).2 sampleC sample t sample_safe t_reaches sampleLen (fun _ => 1)
example := C60_veb_returns sampleC [] (by simp [Bench.inserts])
example := C82_no_panic fixed16
example := C82_agree fixed16 fixed16 bad
example := C82_iter fixed16
example := C82_sized fixed16 bad (fits _ (by simp [bad, usizeMax]))
theorem runsSet (o : List (Op (U 8) Unit)) : RunsLikeMap ByteSet o := C08_byteSet_history o
theorem runsMap (o : List (Op (U 8) Nat)) : RunsLikeMap (ByteMap Nat) o := C10_byteMap_history _ o
theorem likeColl : AnswersAsColl (Hi := U 8) (T := ByteMap Nat) (ArrayColl (U 8) (ByteMap Nat)) := C51_crate_coll (.array goodIndex)
example := C55_alike (K := U 16) goodKey runsSet runsMap likeColl
example := C55_exact (K := U 16) goodKey runsSet runsMap likeColl sample
example := C55_crate (K := U 16) goodKey CrateTree.byteSet (CrateTree.byteMap (V := Nat)) (CrateColl.array goodIndex) sample
example := C55_iter (K := U 16) goodKey runsSet runsMap likeColl sample [.front, .back]
example := C55_decides (K := U 16) goodKey runsSet runsMap likeColl sample
example := C55_machine_map sample (by decide +kernel)
example := C55_inside_sorted bad _ ⟨_, rfl⟩
example := C55_drain (K := U 16) goodKey runsSet runsMap likeColl sample t t_reaches
theorem alike : AnswerAlike (Map16 (U 16) Nat) (Flat (U 16) Nat) := C55_alike goodKey runsSet runsMap likeColl
example := C51_sized alike
example := C51_iter alike sample [.front, .back]
example := C51_methods alike sample t
example := C51_transfer alike (ops := [.insert (U.lit 3) 1])
example := C51_user_parts_no_panic (K := U 16) goodKey runsSet runsMap likeColl sample
example := C62_order hash16 (turning_shuffled sample none)
example := C62_order_counted hash16 sampleN (turning_shuffled sample none)
example := C62_ordinary hash16 sample
example := C63_marker (.uint (w := 16) (by decide))
example := C56_no_panic (tree4 Nat)
example := C56_shape (tree4 Nat)
example := C56_history mono_nib (tree4 Nat) [] trivial
example := C77_words 6 (by decide)
example := C77_ends ⟨⟨8#128, 1#128 <<< 72⟩⟩ (by decide +kernel)
theorem capSet : CapTree (Set16 (U 16)) (U 16) Unit (2 + 2 ^ 16) := ((C64_predefined (V := Nat)).1 goodKey).1
example := C64_capacity capSet (ops := bad) rfl
example := C64_every_method capSet bad b b_reaches
example := C64_history (by rw [card_U]; decide) sampleC sample sample_safe
example := C65_no_panic (P := .p32) (by decide) capSet (by decide) bad
example := C65_iter .p16 t _ it items it_calls
example := C65_u16 (P := .p32) (.inl rfl) sample
example := C57_keys .p32 16 ⟨by simp [Ptr.has], by decide⟩
example := C57_same .p32 32 (by simp [Ptr.has])
example := C57_arrays .p32 (by decide) 16 ⟨by simp [Ptr.has], by decide⟩
theorem sample_through : AnswersThroughout (Map16 (U 16) Nat) sample := (C89_decides (checks Nat).1 _).1 (by decide +kernel)
example := C89_next (checks Nat).1 sample sample_through (U.lit 3) 1
example := C89_rebuilding (checks Unit).2.1 bad (fits _ (by simp [bad, usizeMax]))
example := C89_rebuilding_idle (checks Nat).1 sample sample_through
example := C50_covers sampleC
example := C89_exists sampleC

example := C53_observe_partial (PlainTree.tree (V := Nat) (K := U 16) goodKey .byteSet .byteMap (.array goodIndex))
  sample_safe sample_safe t_reaches t_reaches (fun _ => rfl)
example := C53_upToOrder_plain (PlainTree.tree (V := Nat) (K := U 16) goodKey .byteSet .byteMap (.array goodIndex))

/-! ## Collections -/

example := C14_array_collection_partial (T := ByteSet) (Hi := U 8) goodIndex collOps
example := C14_failure_keeps_partial (T := ByteSet) (Hi := U 8) goodIndex
example := C14_boxed_collection (CrateColl.byte (T := ByteSet))
theorem c_some : ∃ c os, CollExec.run (none : Option (ByteMap ByteSet)) (collOps.take 5) = .ok (some c, os) := by
  have h : ((CollExec.run (none : Option (ByteMap ByteSet)) (collOps.take 5)).map fun p => p.1.isSome) = .ok true := by
    decide +kernel
  rcases e : CollExec.run (none : Option (ByteMap ByteSet)) (collOps.take 5) with p | ⟨_ | c, os⟩
  · rw [e] at h; cases h
  · rw [e] at h; cases h
  · exact ⟨c, os, rfl⟩
example := C16_in_step _ _ _ c_some.choose_spec.choose_spec

end Veb.NonVacuous
