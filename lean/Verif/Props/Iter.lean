import Verif.SpecIter
import Verif.SpecTree
import Verif.Proof.Iter
import Verif.Proof.Hist

/-!
# Properties of the iterator: C28 – C31

`Answers t l` (Verif/SpecIter.lean) is the part of the `VebTree` contract the iterator relies on: `t` answers
the queries as a tree with the entries `l` should.  The theorems hold for every `VebTree` implementation and
every tree that does.  `C28_answers_partial` shows that the trees of the crate do, after safe histories.

The hypothesis `l.length ≤ usizeMax` says that the counter `emitted: usize` does not overflow.
-/

set_option autoImplicit false

namespace Veb.Props
open Iter

variable {T K V : Type} [LinearOrder K] [VebTree T K V]

/-- **C28.** For every number `n` of calls, `next` yields the first `n` entries in ascending order and then
`None`; in particular all entries once, in strictly ascending order, and then nothing more. -/
theorem C28_forward {t : T} {l : SL K V} (ha : Answers t l) (hs : l.length ≤ usizeMax) (n : Nat) :
    ∃ it, (Iter.new t).calls (List.replicate n .front) =
      .ok (it, (l.take n).map some ++ List.replicate (n - l.length) none) ∧ SL.Sorted l := by
  obtain ⟨it, h1, -⟩ := calls_ok (good_new ha hs) (List.replicate n .front)
  exact ⟨it, by rw [h1, popAll_front], ha.sorted⟩

/-- The same for `next_back`, in descending order. -/
theorem C28_backward {t : T} {l : SL K V} (ha : Answers t l) (hs : l.length ≤ usizeMax) (n : Nat) :
    ∃ it, (Iter.new t).calls (List.replicate n .back) =
      .ok (it, (l.reverse.take n).map some ++ List.replicate (n - l.length) none) := by
  obtain ⟨it, h1, -⟩ := calls_ok (good_new ha hs) (List.replicate n .back)
  exact ⟨it, by rw [h1, popAll_back]⟩

/-- **C29.** Every interleaving of `next` and `next_back` yields what popping a double-ended queue holding the
entries yields; nothing panics, in particular `debug_assert!(false)` is not reached. -/
theorem C29_double_ended {t : T} {l : SL K V} (ha : Answers t l) (hs : l.length ≤ usizeMax) (ss : List Side) :
    ∃ it, (Iter.new t).calls ss = .ok (it, (popAll l ss).2) := by
  obtain ⟨it, h1, -⟩ := calls_ok (good_new ha hs) ss
  exact ⟨it, h1⟩

/-- **C29, as a partition.** The entries yielded at the front, the entries not yet yielded, and the entries
yielded at the back in reverse, are together exactly the entries in order: none twice, none skipped. -/
theorem C29_partition {t : T} {l : SL K V} (ha : Answers t l) (hs : l.length ≤ usizeMax) (ss : List Side) :
    ∃ (it : Iter T K) (os : List (Option (K × V))) (left : SL K V),
      (Iter.new t).calls ss = .ok (it, os) ∧ os.length = ss.length ∧
      ((ss.zip os).filterMap fun p => if p.1 = .front then p.2 else none) ++ left ++
        ((ss.zip os).filterMap fun p => if p.1 = .back then p.2 else none).reverse = l := by
  obtain ⟨it, h1⟩ := C29_double_ended ha hs ss
  exact ⟨it, _, (popAll l ss).1, h1, popAll_length l ss, popAll_partition l ss⟩

/-- **C30.** After any interleaving `ss` that has returned `None` once, every further interleaving returns only
`None`; and an interleaving returns at most `l.length` entries. -/
theorem C30_fused {t : T} {l : SL K V} (ha : Answers t l) (hs : l.length ≤ usizeMax) (ss more : List Side)
    (it it' : Iter T K) (os os' : List (Option (K × V)))
    (h : (Iter.new t).calls ss = .ok (it, os)) (hn : none ∈ os) (h' : it.calls more = .ok (it', os')) :
    ∀ o ∈ os', o = none := by
  obtain ⟨i1, h1, G⟩ := calls_ok (good_new ha hs) ss
  rw [h] at h1
  cases h1
  have e := popAll_none l ss hn
  rw [e] at G
  obtain ⟨i2, h2, -⟩ := calls_ok G more
  rw [h'] at h2
  cases h2
  exact popAll_nil more

theorem C30_terminates {t : T} {l : SL K V} (ha : Answers t l) (hs : l.length ≤ usizeMax) (ss : List Side)
    (it : Iter T K) (os : List (Option (K × V))) (h : (Iter.new t).calls ss = .ok (it, os)) :
    (os.filter Option.isSome).length ≤ l.length ∧ (l.length < ss.length → none ∈ os) := by
  obtain ⟨i1, h1, -⟩ := calls_ok (good_new ha hs) ss
  rw [h] at h1
  cases h1
  have h2 := popAll_count l ss
  refine ⟨by omega, fun hlt => ?_⟩
  by_contra hn
  have : ((popAll l ss).2.filter Option.isSome) = (popAll l ss).2 := by
    rw [List.filter_eq_self]
    intro o ho
    cases o with
    | none => exact absurd ho hn
    | some _ => rfl
  rw [this, popAll_length] at h2
  omega

/-- **C31.** At every point of every interleaving, `size_hint` does not panic and brackets the number of
entries left; if the tree's `len_hint` is exact, both bounds are the number of entries left. -/
theorem C31_size_hint {t : T} {l : SL K V} (ha : Answers t l) (hs : l.length ≤ usizeMax) (ss : List Side)
    (it : Iter T K) (os : List (Option (K × V))) (h : (Iter.new t).calls ss = .ok (it, os)) :
    (∃ lo hi, it.sizeHint = .ok (lo, hi) ∧ lo ≤ (popAll l ss).1.length ∧
      ∀ n, hi = some n → (popAll l ss).1.length ≤ n) ∧
    (VebTree.lenHint t = .ok (l.length, some l.length) →
      it.sizeHint = .ok ((popAll l ss).1.length, some (popAll l ss).1.length)) := by
  obtain ⟨i1, h1, G⟩ := calls_ok (good_new ha hs) ss
  rw [h] at h1
  cases h1
  exact ⟨sizeHint_ok G, sizeHint_exact G⟩

/-- The trees of the crate answer the iterator's queries, after safe histories, as trees with the entries that
should be stored.  Missing: unsafe histories, after which they do not (`C28_refuted`). -/
theorem C28_answers_partial {safe : (K → Prop) → K → Prop} (h : CrateTree T K V safe) (ops : List (Op K V)) (t : T)
    (hs : SL.SafeHist safe [] ops) (hr : Reaches ops t) : Answers t (entries ops) := by
  obtain ⟨L, rfl, -⟩ := h.lawful
  obtain ⟨I, e⟩ := reach_inv L hs hr
  exact answers_of L I (e ▸ entries_lists ops)

/-- C31 for `SizedVebTree` (`ExactSizeIterator`): both bounds are exact. -/
theorem C31_exact_size_partial {safe : (K → Prop) → K → Prop} (h : CrateTree T K V safe) (ops : List (Op K V))
    (t : SizedVebTree T) (hs : SL.SafeHist (sizedSafe safe) [] ops) (hr : Reaches ops t)
    (ss : List Side) (it : Iter (SizedVebTree T) K) (os : List (Option (K × V)))
    (hc : (Iter.new t).calls ss = .ok (it, os)) :
    it.sizeHint = .ok ((popAll (entries ops) ss).1.length, some (popAll (entries ops) ss).1.length) := by
  have ha := C28_answers_partial (CrateTree.sized h) ops t hs hr
  obtain ⟨L, rfl, -⟩ := h.lawful
  obtain ⟨I, e⟩ := reach_inv (T := SizedVebTree T) inferInstance hs hr
  have hsz : t.size = (entries ops).length := by
    rw [I.2]
    exact (e ▸ entries_lists ops : SL.Lists _ _).card
  have hu : (entries ops).length ≤ usizeMax := SL.run_small SL.sorted_nil (Nat.zero_le _) hs
  exact (C31_size_hint ha hu ss it os hc).2 (by rw [← hsz]; rfl)

/-! ## Concrete cases -/

/-- The entries of the history below. -/
example : entries ([.insert (3 : Nat) 'a', .insert 9 'b', .insert 5 'c'] : List (Op Nat Char)) =
    [(3, 'a'), (5, 'c'), (9, 'b')] := by decide
/-- A tree with three entries meets the hypotheses. -/
example : ∃ t : BTreeMap Nat Char, Answers t [(3, 'a'), (5, 'c'), (9, 'b')] := by
  refine ⟨⟨[(3, 'a'), (5, 'c'), (9, 'b')]⟩, C28_answers_partial .btreeMap
    [.insert (3 : Nat) 'a', .insert 9 'b', .insert 5 'c'] _ (safeHist_always _ _) ⟨_, rfl⟩⟩
example : popAll [1, 2, 3] [.back, .front, .back, .front] = ([], [some 3, some 1, some 2, none]) := by decide

end Veb.Props
