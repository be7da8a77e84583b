import Verif.Proof.IterRelease
import Verif.Props.IterAll
import Verif.Props.Iter

/-!
# C48: iterators in a release build

The rest of the model is about a debug build.  For the tree methods the difference does not matter, as none of their
assertions and additions fails (C25).  The iterator's assertions do fail on a tree spoiled by the defect of
`Tree::insert` (`C44_assert_fails`).
-/

set_option autoImplicit false

namespace Veb.Props
open Iter

variable {T K V : Type} [LinearOrder K] [VebTree T K V]

/-- **C48, no other behaviour.** Over any tree of any type: where the debug build returns, the release build returns the
same items and leaves the same iterator. -/
theorem C48_same (t : T) (ss : List Side) {it : Iter T K} {os : List (Option (K × V))}
    (h : (Iter.new t).calls ss = .ok (it, os)) : (Iter.new t).callsRel ss = .ok (it, os) :=
  callsRel_of_calls h

/-- **C48, no panic.** After any history a release build iterates without a panic, at both ends in any order and
without any bound on the number of calls, and every item is an entry that was handed over and has not been given
back; `size_hint` does not panic either. -/
theorem C48_never_panics {ops : List (Op K V)} (h : Covered T ops) {t : T} {outs : List (Out K V)}
    (hr : Exec.run none ops = .ok (some t, outs)) (ss : List Side) :
    ∃ (it : Iter T K) (os : List (Option (K × V))), (Iter.new t).callsRel ss = .ok (it, os) ∧
      (∀ e, some e ∈ os → e ::ₘ taken ops outs ≤ given ops outs) ∧ ∃ r, it.sizeHintRel = .ok r := by
  obtain ⟨P, hl⟩ := h.phys
  obtain ⟨I, -⟩ := phys_reaches hl ⟨_, hr⟩
  obtain ⟨it, os, h1, h5, h2⟩ := callsRel_phys ss (it := Iter.new t) I
  refine ⟨it, os, h1, fun e he => ?_, ?_⟩
  rotate_left
  · obtain ⟨r, hr⟩ := (phys_allReturn (small := False) I False.elim).lenHint
    rw [sizeHintRel, h5, show (Iter.new (K := K) t).tree = t from rfl, hr]
    cases it.data <;> exact ⟨_, rfl⟩
  have h3 := balanced_run (n := 0) (t := none) trivial ops (by simpa using hl) hr
  have h4 : e ∈ oents (some t) := h2 e he
  obtain ⟨r, hr⟩ := Multiset.exists_cons_of_mem h4
  rw [hr, Multiset.cons_add] at h3
  rw [show given ops outs = _ from ((zero_add _).symm.trans h3.symm : given ops outs = e ::ₘ (r + taken ops outs))]
  exact Multiset.cons_le_cons _ (Multiset.le_add_left _ _)

/-- **C48, where the builds part.** After any history: either both builds return the same, or there is a first call at
which the debug build fails a `debug_assert!(false)`; up to there the items are the same, and from there on the release
build returns `None`. -/
theorem C48_stops {ops : List (Op K V)} (h : Covered T ops) {t : T} (hr : Reaches ops t) (ss : List Side)
    (hn : ss.length ≤ usizeMax) :
    (∃ r : Iter T K × List (Option (K × V)), (Iter.new t).calls ss = .ok r ∧ (Iter.new t).callsRel ss = .ok r) ∨
    ∃ (pre : List Side) (s : Side) (post : List Side) (it' it'' : Iter T K) (os : List (Option (K × V))),
      ss = pre ++ s :: post ∧ (Iter.new t).calls pre = .ok (it', os) ∧
      ((Iter.new t).calls (pre ++ [s]) : R (Iter T K × List (Option (K × V)))) = .error .debugAssert ∧
      (Iter.new t).callsRel ss = .ok (it'', os ++ List.replicate (post.length + 1) none) := by
  obtain ⟨P, hl⟩ := h.phys
  obtain ⟨I, -⟩ := phys_reaches hl hr
  rcases callsRel_compare ss (it := Iter.new t) I (by simpa [Iter.new] using hn) with h | ⟨a, b, c, d, e, f, g, i, j, k⟩
  · exact .inl h
  · exact .inr ⟨a, b, c, d, j, e, f, g, i, k⟩

/-- **C48, fused.** Also in a release build, over any tree of any type, after `None` comes `None`. -/
theorem C48_fused (t : T) (ss more : List Side) {it : Iter T K} {os : List (Option (K × V))}
    (h : (Iter.new t).callsRel ss = .ok (it, os)) (hn : none ∈ os) :
    it.callsRel more = .ok (it, List.replicate more.length (none : Option (K × V))) :=
  callsRel_done (callsRel_none h hn) more

/-- **C48, `size_hint`.** Over a tree that answers as a tree with the entries `l` should, `size_hint` of a release build
is that of a debug build. -/
theorem C48_size_hint {t : T} {l : SL K V} (ha : Answers t l) (hs : l.length ≤ usizeMax)
    (hu : ∀ lo hi, VebTree.lenHint t = .ok (lo, some hi) → hi ≤ usizeMax) (ss : List Side) :
    ∃ (it : Iter T K) (os : List (Option (K × V))), (Iter.new t).callsRel ss = .ok (it, os) ∧
      it.sizeHintRel = it.sizeHint ∧ ∃ r, it.sizeHint = .ok r := by
  obtain ⟨it, h1, G⟩ := calls_ok (good_new ha hs) ss
  obtain ⟨⟨lo, hi, h2, h3, h4⟩, -⟩ := C31_size_hint ha hs ss it _ h1
  refine ⟨it, _, callsRel_of_calls h1, ?_, _, h2⟩
  have ht : it.tree = t := G.tree
  rcases it with ⟨t', d, n⟩
  dsimp only at ht
  subst ht
  cases d with
  | none => rfl
  | some d =>
    obtain ⟨a, b, e, -⟩ := ha.len
    simp only [sizeHint, sizeHintRel, e, R.ok_bind] at h2 ⊢
    cases b with
    | none => rfl
    | some b =>
      dsimp only [Option.map] at h2 ⊢
      have := hu a b e
      by_cases hn : n ≤ b
      · simp only [subUsize, if_pos hn, R.ok_bind]
        rw [show b + (usizeMax + 1) - n = (b - n) + (usizeMax + 1) by omega, Nat.add_mod_right,
          Nat.mod_eq_of_lt (by omega)]
      · simp only [subUsize, if_neg hn] at h2
        cases h2

/-- What an iterator of a release build yields over the tree left by `ops`, and its `size_hint` afterwards. -/
def iterateRel (T : Type) {K V : Type} [LinearOrder K] [VebTree T K V] (ops : List (Op K V)) (ss : List Side) :
    R (List (Option (K × V)) × (Nat × Option Nat)) := do
  match (← Exec.run (none : Option T) ops).1 with
  | none => pure ([], (0, some 0))
  | some t => do
    let (it, os) ← (Iter.new t).callsRel ss
    pure (os, ← it.sizeHintRel)

/-- **C48, `size_hint` refuted on spoiled trees.** 10, 20, 5 are stored.  Advanced four times at the back a debug build
panics when asked for `size_hint` (`C31_refuted`); a release build answers that at most 2^64 - 1 items are left. -/
theorem C48_size_hint_refuted :
    iterateRel (SizedVebTree (Set16 (U 16))) bad [.back, .back, .back, .back] =
      .ok ([some (k16 10, ()), some (k16 20, ()), some (k16 10, ()), some (k16 20, ())], (0, some (2 ^ 64 - 1))) := by
  decide +kernel

/-! ## Not vacuous -/

/-- the two builds part: the debug build fails its assertion here (`C44_assert_fails`) -/
example : iterateRel (Set16 (U 16)) bad [.front, .back, .front, .front, .front, .back] =
    .ok ([some (k16 5, ()), some (k16 10, ()), some (k16 20, ()), none, none, none], (0, some 0)) := by
  decide +kernel
example : Covered (Set16 (U 16)) bad ∧ ∃ t : Set16 (U 16), Reaches bad t := ⟨.uncounted (uncounted16 Unit).1, _, _, rfl⟩
/-- `C48_size_hint` applies to a tree with an upper bound to subtract from -/
example : ∃ (t : BTreeMap Nat Char) (l : SL Nat Char), Answers t l ∧ l.length ≤ usizeMax ∧
    VebTree.lenHint t = .ok (2, some 2) := by
  refine ⟨⟨[(3, 'a'), (9, 'b')]⟩, [(3, 'a'), (9, 'b')], C28_answers_partial .btreeMap
    [.insert (3 : Nat) 'a', .insert 9 'b'] _ (safeHist_always _ _) ⟨_, rfl⟩, by decide, rfl⟩

end Veb.Props
