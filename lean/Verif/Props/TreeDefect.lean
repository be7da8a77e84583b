import Verif.SpecTree
import Verif.SpecIter
import Verif.Proof.Hist

/-!
# What the defect in `Tree::insert` breaks: C17 – C24, C26 – C33 refuted

src/tree.rs:524-533 handles the insertion of a key below the minimum of a tree with two or more elements as if
the old minimum could be the new maximum.  The smallest history showing it: insert 10, 20, 5 into a 16-bit
tree.  Afterwards the tree has minimum 5, *maximum 10*, and 20 in its children.

Every theorem here is about concrete histories of the type `Set16 (U 16)` (that is, `Marker16Empty` with `u16`
keys), `Map16 (U 16) Nat` or, for the larger types, `Set32`/`Set64`; the kernel computes them.  A history is
accepted by `AllReachable _ always`, so each refutes the property as the English has it.
-/

set_option autoImplicit false

namespace Veb.Props
open VebTree

/-- A `u16`. -/
def k16 (n : Nat) : U 16 := U.lit n

/-- Insert 10, 20, 5. -/
def bad : List (Op (U 16) Unit) := [.insert (k16 10) (), .insert (k16 20) (), .insert (k16 5) ()]
/-- … and then 20 again, which is already stored. -/
def bad2 : List (Op (U 16) Unit) := bad ++ [.insert (k16 20) ()]
/-- … and then remove 20. -/
def bad3 : List (Op (U 16) Unit) := bad2 ++ [.remove (k16 20)]
/-- … or instead remove 5 and 10, leaving only 20. -/
def bad4 : List (Op (U 16) Unit) := bad2 ++ [.remove (k16 5), .remove (k16 10)]

/-- **C17 refuted**: after inserting 10, 20, 5 the maximum is reported as 10. -/
theorem C17_refuted : ¬ RunsLikeMap (Set16 (U 16)) (bad ++ [.maxVal]) := by
  rintro ⟨t, h, -⟩
  have : outputs (Set16 (U 16)) (bad ++ [.maxVal]) = .ok (SL.run [] (bad ++ [.maxVal])).2 := by
    rw [outputs, h]; rfl
  revert this
  decide +kernel

/-- The outputs themselves, next to the specified ones. -/
theorem C17_refuted_outputs :
    outputs (Set16 (U 16)) (bad ++ [.maxVal]) = .ok [.kv none, .kv none, .kv none, .kv (some (k16 10, ()))] ∧
    (SL.run [] (bad ++ [.maxVal])).2 = [.kv none, .kv none, .kv none, .kv (some (k16 20, ()))] := by
  decide +kernel

/-- The same defect in the signed 16-bit, the 32-bit and the 64-bit types. -/
theorem C17_refuted_signed16 :
    ¬ RunsLikeMap (Set16 (S 16)) [.insert (S.lit (-1)) (), .insert (S.lit 1) (), .insert (S.lit (-2)) (), .maxVal] := by
  rintro ⟨t, h, -⟩
  have := congrArg (Except.map Prod.snd) h
  revert this
  show ¬ outputs (Set16 (S 16)) _ = .ok (SL.run [] _).2
  decide +kernel
theorem C17_refuted_32 :
    ¬ RunsLikeMap (Set32 (U 32)) [.insert (U.lit 10) (), .insert (U.lit 20) (), .insert (U.lit 5) (), .maxVal] := by
  rintro ⟨t, h, -⟩
  have := congrArg (Except.map Prod.snd) h
  revert this
  show ¬ outputs (Set32 (U 32)) _ = .ok (SL.run [] _).2
  decide +kernel
theorem C17_refuted_64 :
    ¬ RunsLikeMap (Set64 (U 64)) [.insert (U.lit 10) (), .insert (U.lit 20) (), .insert (U.lit 5) (), .maxVal] := by
  rintro ⟨t, h, -⟩
  have := congrArg (Except.map Prod.snd) h
  revert this
  show ¬ outputs (Set64 (U 64)) _ = .ok (SL.run [] _).2
  decide +kernel

/-- In the 32-bit types the defect is also hit without ever inserting below the minimum of the whole tree: here
the keys 11, 12 (in the subtree of high half 0) come after 1 and before 100000, and 9 is below both. -/
theorem C17_refuted_32_inner :
    ¬ RunsLikeMap (Set32 (U 32)) [.insert (U.lit 1) (), .insert (U.lit 100000) (), .insert (U.lit 11) (),
      .insert (U.lit 12) (), .insert (U.lit 9) (), .successor (U.lit 11)] := by
  rintro ⟨t, h, -⟩
  have := congrArg (Except.map Prod.snd) h
  revert this
  show ¬ outputs (Set32 (U 32)) _ = .ok (SL.run [] _).2
  decide +kernel

/-- The tree after each of the bad histories, to evaluate claims on. -/
theorem bad_reaches : ∃ t : Set16 (U 16), Reaches bad t := ⟨_, _, rfl⟩
theorem bad2_reaches : ∃ t : Set16 (U 16), Reaches bad2 t := ⟨_, _, rfl⟩
theorem bad3_reaches : ∃ t : Set16 (U 16), Reaches bad3 t := ⟨_, _, rfl⟩
theorem bad4_reaches : ∃ t : Set16 (U 16), Reaches bad4 t := ⟨_, _, rfl⟩

/-- 20 is stored after `bad`. -/
theorem bad_20 : (contents bad).Mem (k16 20) := by
  rw [Map.Mem, show contents bad (k16 20) = some () from by decide +kernel]
  exact Option.some_ne_none _

/-- **C18 refuted**: 10, 20, 5, 20 are inserted and 20 is removed successfully; `find(20)` still finds it. -/
theorem C18_refuted : ¬ AllReachable (Set16 (U 16)) always (FindAfterUpdate always) := by
  intro H
  obtain ⟨t, ht⟩ := bad3_reaches
  have h := (H bad3 t (safeHist_always _ _) ht).1 (k16 20)
  have h1 := out_of ht (q := .find (k16 20)) (o := .kv none) (t' := some t) (by
    simp only [Exec.stepTree, h, show contents bad3 (k16 20) = none from by decide +kernel]; rfl)
  revert h1
  decide +kernel

/-- In more detail: the tree that `remove(20)` leaves still finds 20. -/
theorem C18_refuted_remove : ¬ AllReachable (Set16 (U 16)) always fun _ t =>
    ∀ k t' kv, remove t k = .ok (.Ok (some t', kv)) → FindsWithout t t' k := by
  intro H
  obtain ⟨t, ht⟩ := bad2_reaches
  obtain ⟨t', h1⟩ : ∃ t', remove t (k16 20) = .ok (.Ok (some t', (k16 20, ()))) := by
    obtain ⟨os, ht⟩ := ht
    have e : (Exec.run (none : Option (Set16 (U 16))) bad2).map Prod.fst = .ok (some t) := by rw [ht]; rfl
    cases (Except.ok.inj e : _ = some t)
    exact ⟨_, rfl⟩
  have h2 := (H bad2 t (safeHist_always _ _) ht (k16 20) t' _ h1).1
  have ht' : Reaches bad3 t' := by
    obtain ⟨os, ht⟩ := ht
    exact ⟨_, run_append_ok ht (by simp only [Exec.run, Exec.step, Exec.stepTree, h1]; rfl)⟩
  have h3 := out_of ht' (q := .find (k16 20)) (o := .kv none) (t' := some t') (by simp only [Exec.stepTree, h2]; rfl)
  revert h3
  decide +kernel

/-- **C19 refuted**: 10, 20, 5 are stored and `max_val` is 10. -/
theorem C19_refuted : ¬ AllReachable (Set16 (U 16)) always TrueExtremes := by
  intro H
  obtain ⟨t, ht⟩ := bad_reaches
  obtain ⟨-, k, v, h, h1, h2⟩ := H bad t (safeHist_always _ _) ht
  have h3 := out_of ht (q := .maxVal) (o := .kv (some (k, v))) (t' := some t) (by simp only [Exec.stepTree, h]; rfl)
  have h4 : (k, v) = (k16 10, ()) := by
    rw [show (outputs (Set16 (U 16)) (bad ++ [.maxVal])).map List.getLast? =
      .ok (some (.kv (some (k16 10, ())))) from by decide +kernel] at h3
    cases h3; rfl
  cases h4
  exact absurd (h2 (k16 20) bad_20) (by decide)

/-- **C20 refuted**: 10, 20, 5 are stored and `predecessor(10)` is 20. -/
theorem C20_refuted : ¬ AllReachable (Set16 (U 16)) always TruePredecessor := by
  intro H
  obtain ⟨t, ht⟩ := bad_reaches
  have e : (outputs (Set16 (U 16)) (bad ++ [.predecessor (k16 10)])).map List.getLast? =
      .ok (some (.kv (some (k16 20, ())))) := by decide +kernel
  rcases H bad t (safeHist_always _ _) ht (k16 10) with ⟨p, v, h, h1, h2, h3⟩ | ⟨h, h1⟩
  · have h4 := out_of ht (q := .predecessor (k16 10)) (o := .kv (some (p, v))) (t' := some t)
      (by simp only [Exec.stepTree, h]; rfl)
    rw [e] at h4
    cases h4
    exact absurd h2 (by decide)
  · have h4 := out_of ht (q := .predecessor (k16 10)) (o := .kv none) (t' := some t)
      (by simp only [Exec.stepTree, h]; rfl)
    rw [e] at h4
    cases h4

/-- **C21 refuted**: 10, 20, 5 are stored and `successor(10)` is `None`. -/
theorem C21_refuted : ¬ AllReachable (Set16 (U 16)) always TrueSuccessor := by
  intro H
  obtain ⟨t, ht⟩ := bad_reaches
  have e : (outputs (Set16 (U 16)) (bad ++ [.successor (k16 10)])).map List.getLast? =
      .ok (some (.kv none)) := by decide +kernel
  rcases H bad t (safeHist_always _ _) ht (k16 10) with ⟨p, v, h, h1, h2, h3⟩ | ⟨h, h1⟩
  · have h4 := out_of ht (q := .successor (k16 10)) (o := .kv (some (p, v))) (t' := some t)
      (by simp only [Exec.stepTree, h]; rfl)
    rw [e] at h4
    cases h4
  · exact h1 (k16 20) bad_20 (by decide)

/-- **C22 refuted**: 20 is stored and inserting it again reports that it was not. -/
theorem C22_refuted : ¬ AllReachable (Set16 (U 16)) always (InsertReports always) := by
  intro H
  obtain ⟨t, ht⟩ := bad_reaches
  obtain ⟨t', h⟩ := (H bad t (safeHist_always _ _) ht (k16 20) () trivial).1 () (by decide +kernel)
  have h1 := out_of ht (q := .insert (k16 20) ()) (o := .kv (some (k16 20, ()))) (t' := some t')
    (by simp only [Exec.stepTree, h]; rfl)
  revert h1
  decide +kernel

/-- **C23 refuted**: 20 has been removed, and removing it again succeeds. -/
theorem C23_refuted : ¬ AllReachable (Set16 (U 16)) always RemoveReports := by
  intro H
  obtain ⟨t, ht⟩ := bad3_reaches
  have h := (H bad3 t (safeHist_always _ _) ht (k16 20)).1 (by decide +kernel)
  have h1 := out_of ht (q := .remove (k16 20)) (o := .kv none) (t' := some t) (by simp only [Exec.stepTree, h]; rfl)
  revert h1
  decide +kernel

/-- **C24 refuted**: 10, 20, 5 are stored and `remove_max` removes 10. -/
theorem C24_refuted : ¬ AllReachable (Set16 (U 16)) always PopsExtremes := by
  intro H
  obtain ⟨t, ht⟩ := bad_reaches
  obtain ⟨-, ⟨rest, k, v, h, -, h2, -⟩, -⟩ := H bad t (safeHist_always _ _) ht
  have h3 := out_of ht (q := .removeMax) (o := .kv (some (k, v))) (t' := rest)
    (by simp only [Exec.stepTree, h]; rfl)
  rw [show (outputs (Set16 (U 16)) (bad ++ [.removeMax])).map List.getLast? =
    .ok (some (.kv (some (k16 10, ())))) from by decide +kernel] at h3
  cases h3
  exact absurd (h2 (k16 20) bad_20) (by decide)

/-- Draining by `remove_min` is not sorted either. -/
theorem C24_refuted_drain :
    outputs (Set16 (U 16)) ([.insert (k16 10) (), .insert (k16 20) (), .insert (k16 5) (), .removeMin, .removeMin,
      .removeMin]) =
    .ok [.kv none, .kv none, .kv none, .kv (some (k16 5, ())), .kv (some (k16 20, ())), .kv (some (k16 10, ()))] := by
  decide +kernel

/-- **C26 refuted**: with values, after 10, 20, 5 and 20 again, `predecessor_mut(20)` gives a reference to a stale
entry of 20, and writing to it does not change what `find(20)` sees. -/
theorem C26_refuted : ¬ AllReachable (Map16 (U 16) Nat) always fun _ t => MutAccess t := by
  intro H
  let ops : List (Op (U 16) Nat) :=
    [.insert (k16 10) 1, .insert (k16 20) 2, .insert (k16 5) 3, .insert (k16 20) 4]
  obtain ⟨t, ht⟩ : ∃ t : Map16 (U 16) Nat, Reaches ops t := ⟨_, _, rfl⟩
  obtain ⟨-, -, -, h, -⟩ := H ops t (safeHist_always _ _) ht
  have e : (outputs (Map16 (U 16) Nat) (ops ++ [.predecessor (k16 20)])).map List.getLast? =
      .ok (some (.kv (some (k16 20, 2)))) := by decide +kernel
  rcases h (k16 20) with ⟨h1, h2⟩ | ⟨k, v, put, h1, h2, h3⟩
  · have h4 := out_of ht (q := .predecessor (k16 20)) (o := .kv none) (t' := some t)
      (by simp only [Exec.stepTree, h2]; rfl)
    rw [e] at h4
    cases h4
  · have h4 := out_of ht (q := .predecessor (k16 20)) (o := .kv (some (k, v))) (t' := some t)
      (by simp only [Exec.stepTree, h2]; rfl)
    rw [e] at h4
    cases h4
    have ht' : Reaches (ops ++ [.predecessorSet (k16 20) 7]) (put 7) := by
      obtain ⟨os, ht⟩ := ht
      exact ⟨_, run_append_ok ht (by simp only [Exec.run, Exec.step, Exec.stepTree, h1]; rfl)⟩
    have h5 := out_of ht' (q := .find (k16 20)) (o := .kv (some (k16 20, 7))) (t' := some (put 7))
      (by simp only [Exec.stepTree, (h3 7).1]; rfl)
    revert h5
    decide +kernel

/-- **C27 refuted**: only 20 is left, and `is_monad` says otherwise. -/
theorem C27_refuted : ¬ AllReachable (Set16 (U 16)) always MonadTruth := by
  intro H
  obtain ⟨t, ht⟩ := bad4_reaches
  obtain ⟨-, h, -⟩ := H bad4 t (safeHist_always _ _) ht
  have h0 : isMonad t = .ok true := h.2 (by
    have e : entries bad4 = [(k16 20, ())] := by decide +kernel
    rw [(entries_lists bad4).card, e]; rfl)
  have h1 := out_of ht (q := .isMonad) (o := .bool true) (t' := some t) (by simp only [Exec.stepTree, h0]; rfl)
  revert h1
  decide +kernel

/-- **C32 refuted**: the same keys inserted in another order give other answers. -/
theorem C32_refuted :
    entries bad = entries ([.insert (k16 5) (), .insert (k16 10) (), .insert (k16 20) ()] : List (Op (U 16) Unit)) ∧
    (outputs (Set16 (U 16)) (bad ++ [.maxVal])).map List.getLast? = .ok (some (.kv (some (k16 10, ())))) ∧
    (outputs (Set16 (U 16)) ([.insert (k16 5) (), .insert (k16 10) (), .insert (k16 20) ()] ++ [.maxVal])).map
      List.getLast? = .ok (some (.kv (some (k16 20, ())))) := by
  decide +kernel

/-- **C33 refuted**: `BTreeMap` and the 16-bit tree disagree. -/
theorem C33_refuted :
    outputs (Set16 (U 16)) (bad ++ [.maxVal]) ≠ outputs (BTreeMap (U 16) Unit) (bad ++ [.maxVal]) := by
  decide +kernel

/-! ## Iterators over the damaged tree -/

/-- The tree left by `ops`, for the iterators below. -/
def left (T : Type) {K V : Type} [VebTree T K V] (ops : List (Op K V)) : R (Option T) :=
  (Exec.run (none : Option T) ops).map Prod.fst

/-- What an iterator over the tree left by `ops` yields for a sequence of calls. -/
def iterate (T : Type) {K V : Type} [LinearOrder K] [VebTree T K V] (ops : List (Op K V)) (ss : List Side) :
    R (List (Option (K × V))) := do
  match ← left T ops with
  | none => pure []
  | some t => return (← (Iter.new t).calls ss).2

/-- The `size_hint` of an iterator over the tree left by `ops`, after a sequence of calls. -/
def hintAfter (T : Type) {K V : Type} [LinearOrder K] [VebTree T K V] (ops : List (Op K V)) (ss : List Side) :
    R (Nat × Option Nat) := do
  match ← left T ops with
  | none => pure (0, some 0)
  | some t => (← (Iter.new t).calls ss).1.sizeHint

/-- **C28 refuted for the crate's trees**: 10, 20, 5 are stored; iterating yields 5, 20 and ends. -/
theorem C28_refuted :
    iterate (Set16 (U 16)) bad [.front, .front, .front] = .ok [some (k16 5, ()), some (k16 20, ()), none] ∧
    entries bad = [(k16 5, ()), (k16 10, ()), (k16 20, ())] := by
  decide +kernel

/-- **C29 refuted for the crate's trees**: iterating from the back yields keys of the three stored again and
again. -/
theorem C29_refuted :
    iterate (Set16 (U 16)) bad [.back, .back, .back, .back, .back] =
      .ok [some (k16 10, ()), some (k16 20, ()), some (k16 10, ()), some (k16 20, ()), some (k16 10, ())] := by
  decide +kernel

/-- **C30 refuted for the crate's trees**: iterating this three-element tree from the back does not end: up to
the overflow of the iterator's own counter, every `next_back` returns an element. -/
theorem C30_refuted (t : Set16 (U 16)) (ht : Reaches bad t) (n : Nat) (hn : n ≤ usizeMax) :
    ∃ it os, (Iter.new t).calls (List.replicate n .back) = .ok (it, os) ∧ ∀ o ∈ os, o ≠ none := by
  have hp : ∀ a b, (outputs (Set16 (U 16)) (bad ++ [.predecessor a])).map List.getLast? =
      .ok (some (.kv (some (b, ())))) → predecessor t a = .ok (some (b, ())) := by
    intro a b h
    obtain ⟨t', h⟩ := of_out ht h
    simp only [Exec.stepTree] at h
    rcases hq : predecessor t a with e | o
    · rw [hq] at h; cases h
    · rw [hq] at h; cases h; rfl
  have p10 := hp (k16 10) (k16 20) (by decide +kernel)
  have p20 := hp (k16 20) (k16 10) (by decide +kernel)
  have hmax : maxVal t = .ok (k16 10, ()) := by
    obtain ⟨t', h⟩ := of_out ht (q := .maxVal) (o := .kv (some (k16 10, ()))) (by decide +kernel)
    simp only [Exec.stepTree] at h
    rcases hq : maxVal t with e | o
    · rw [hq] at h; cases h
    · rw [hq] at h; cases h; rfl
  have loop : ∀ n (k : U 16) m, (k = k16 10 ∨ k = k16 20) → m + n ≤ usizeMax →
      ∃ it os, (⟨t, some (.back k), m⟩ : Iter (Set16 (U 16)) (U 16)).calls (List.replicate n .back) = .ok (it, os) ∧
        ∀ o ∈ os, o ≠ none := by
    intro n
    induction n with
    | zero => intro k m _ _; exact ⟨_, [], rfl, by simp⟩
    | succ n ih =>
      intro k m hk hm
      obtain ⟨k', hk', hpk⟩ : ∃ k', (k' = k16 10 ∨ k' = k16 20) ∧ predecessor t k = .ok (some (k', ())) := by
        rcases hk with rfl | rfl
        · exact ⟨_, .inr rfl, p10⟩
        · exact ⟨_, .inl rfl, p20⟩
      obtain ⟨it, os, h, hos⟩ := ih k' (m + 1) hk' (by omega)
      refine ⟨it, some (k', ()) :: os, ?_, by simpa using hos⟩
      simp only [List.replicate_succ, Iter.calls, Iter.call, Iter.nextBack, hpk, R.ok_bind, Iter.emit,
        show addUsize m 1 = .ok (m + 1) from if_pos (show m + 1 ≤ usizeMax by omega), pure_bind, h]
      rfl
  cases n with
  | zero => exact ⟨_, [], rfl, by simp⟩
  | succ n =>
    obtain ⟨it, os, h, hos⟩ := loop n (k16 10) 1 (.inl rfl) (by omega)
    refine ⟨it, some (k16 10, ()) :: os, ?_, by simpa using hos⟩
    simp only [List.replicate_succ, Iter.calls, Iter.call, Iter.nextBack, Iter.new, hmax, R.ok_bind, Iter.emit,
      show addUsize 0 1 = .ok 1 from rfl, pure_bind, h]
    rfl

example : ∃ t : Set16 (U 16), Reaches bad t := bad_reaches

/-- **C31 refuted for the crate's trees**: `size_hint` of the counted tree underflows after four `next_back`s. -/
theorem C31_refuted :
    iterate (SizedVebTree (Set16 (U 16))) bad [.back, .back, .back, .back] =
      .ok [some (k16 10, ()), some (k16 20, ()), some (k16 10, ()), some (k16 20, ())] ∧
    hintAfter (SizedVebTree (Set16 (U 16))) bad [.back, .back, .back, .back] = .error .arith := by
  decide +kernel

end Veb.Props
