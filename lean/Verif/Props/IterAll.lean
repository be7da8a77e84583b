import Verif.Proof.IterAll
import Verif.Props.Entries
import Verif.Props.Look

/-!
# C44: what the iterator keeps to on every tree

C28 – C31 are about iterators over trees that answer as they should, and fail after an insertion that runs into the
defect of `Tree::insert` (`C28_refuted`, `C29_refuted`, `C30_refuted`, `C31_refuted`).  This file says what is left
after any history.
-/

set_option autoImplicit false

namespace Veb.Props
open Iter

variable {T K V : Type} [LinearOrder K] [VebTree T K V]

/-- **C44, fused.** `impl FusedIterator for Iter`: over any tree of any type, whatever its methods answer, once a call
has returned `None` every later call of either end does, and none panics. -/
theorem C44_fused (t : T) (ss more : List Side) {it : Iter T K} {os : List (Option (K × V))}
    (h : (Iter.new t).calls ss = .ok (it, os)) (hn : none ∈ os) :
    it.calls more = .ok (it, List.replicate more.length (none : Option (K × V))) :=
  calls_done (calls_none h hn) more

/-- **C44, one end.** After any history, iterating from one end only does not panic, as long as the counter `emitted`
does not overflow. -/
theorem C44_one_end {ops : List (Op K V)} (h : Covered T ops) {t : T} (hr : Reaches ops t) (s : Side) (n : Nat)
    (hn : n ≤ usizeMax) : ∃ it os, (Iter.new t).calls (List.replicate n s) = .ok (it, os) := by
  obtain ⟨P, hl⟩ := h.phys
  obtain ⟨I, -⟩ := phys_reaches hl hr
  rcases calls_phys (List.replicate n s) (it := Iter.new t) I (by simpa [Iter.new] using hn)
      (f := False) (b := False) trivial with ⟨it, os, h1, -⟩ | ⟨-, hf, hb⟩
  · exact ⟨it, os, h1⟩
  · simp only [false_or, List.mem_replicate] at hf hb
    rw [← hb.2] at hf
    cases hf.2

/-- **C44, both ends.** After any history, the only panic an iterator can run into (before the overflow of its counter)
is one of its own two `debug_assert!(false)`, and only if it is advanced at both ends. -/
theorem C44_only_assert {ops : List (Op K V)} (h : Covered T ops) {t : T} (hr : Reaches ops t) (ss : List Side)
    (hn : ss.length ≤ usizeMax) {p : Panic}
    (he : ((Iter.new t).calls ss : R (Iter T K × List (Option (K × V)))) = .error p) :
    p = .debugAssert ∧ .front ∈ ss ∧ .back ∈ ss := by
  obtain ⟨P, hl⟩ := h.phys
  obtain ⟨I, -⟩ := phys_reaches hl hr
  rcases calls_phys ss (it := Iter.new t) I (by simpa [Iter.new] using hn) (f := False) (b := False) trivial with
    ⟨it, os, h1, -⟩ | ⟨h1, hf, hb⟩
  · rw [he] at h1; cases h1
  · rw [he] at h1; cases h1
    exact ⟨rfl, by simpa using hf, by simpa using hb⟩

/-- The two assertions can fail: 10, 20, 5 are stored; the iterator gives 5, 10 (from the back) and 20, and then the
assertion in src/iter.rs:99 fails. -/
theorem C44_assert_fails :
    iterate (Set16 (U 16)) bad [.front, .back, .front] = .ok [some (k16 5, ()), some (k16 10, ()), some (k16 20, ())] ∧
    iterate (Set16 (U 16)) bad [.front, .back, .front, .front] = .error .debugAssert := by
  decide +kernel

/-- **C44, items.** After any history, every item of an iterator is an entry that was handed over, with this value, and
has not been given back. -/
theorem C44_items {ops : List (Op K V)} (h : Covered T ops) {t : T} {outs : List (Out K V)}
    (hr : Exec.run none ops = .ok (some t, outs)) (ss : List Side) (hn : ss.length ≤ usizeMax) {it : Iter T K}
    {os : List (Option (K × V))} (hc : (Iter.new t).calls ss = .ok (it, os)) {e : K × V} (he : some e ∈ os) :
    e ::ₘ taken ops outs ≤ given ops outs := by
  obtain ⟨P, hl⟩ := h.phys
  obtain ⟨I, -⟩ := phys_reaches hl ⟨_, hr⟩
  rcases calls_phys ss (it := Iter.new t) I (by simpa [Iter.new] using hn) (f := False) (b := False) trivial with
    ⟨it, os, h1, h2⟩ | ⟨h1, hf, hb⟩
  · rw [hc] at h1; cases h1
    have h3 := balanced_run (n := 0) (t := none) trivial ops (by simpa using hl) hr
    have h4 : e ∈ oents (some t) := h2 e he
    obtain ⟨r, hr⟩ := Multiset.exists_cons_of_mem h4
    rw [hr, Multiset.cons_add] at h3
    rw [show given ops outs = _ from ((zero_add _).symm.trans h3.symm : given ops outs = e ::ₘ (r + taken ops outs))]
    exact Multiset.cons_le_cons _ (Multiset.le_add_left _ _)
  · rw [hc] at h1; cases h1

/-- **C44, without removals.** On a tree that has only been inserted into, in whatever order, iterating forwards gives
strictly ascending keys of the map, the least one first, and then `None`: it ends after at most as many items as there
are entries. (It may skip entries, `C28_refuted`.) -/
theorem C44_ascending {safe : (K → Prop) → K → Prop} (h : CrateTree T K V safe) (ops : List (Op K V))
    (hk : ∀ op ∈ ops, op.keeps = true) {t : T} (hr : Reaches ops t) (n : Nat) {it : Iter T K}
    {os : List (Option (K × V))} (hc : (Iter.new t).calls (List.replicate n .front) = .ok (it, os)) :
    ∃ es : List (K × V), os = es.map some ++ List.replicate (n - es.length) none ∧
      (es.map Prod.fst).Pairwise (· < ·) ∧ (∀ e ∈ es, (contents ops).Mem e.1) ∧
      (0 < n → ∃ e, es.head? = some e ∧ (contents ops).IsMin e) ∧ es.length ≤ (entries ops).length := by
  obtain ⟨L⟩ := h.look
  obtain ⟨outs, hr⟩ := hr
  obtain ⟨⟨h1, h2⟩, -⟩ := look_run (T := T) (t := none) (l := []) rfl ops hk hr
  have h3 : contents ops = L.look t := SL.Lists.toMap_eq h2
  obtain ⟨es, g1, g2, g3, g4⟩ := front_look_new n h1 hc
  rw [← h3] at g3 g4
  refine ⟨es, g1, g2, g3, g4, ?_⟩
  have hsub : es.map Prod.fst ⊆ (entries ops).map Prod.fst := by
    intro k hk
    obtain ⟨e, he, rfl⟩ := List.mem_map.1 hk
    obtain ⟨v, hv⟩ := Option.ne_none_iff_exists'.1 (show L.look t e.1 ≠ none from h3 ▸ g3 e he)
    exact List.mem_map.2 ⟨_, (h2.2 e.1 v).2 hv, rfl⟩
  have hnd : (es.map Prod.fst).Nodup := g2.imp fun h => ne_of_lt h
  simpa using (hnd.subperm hsub).length_le

/-- 10, 20, 5 are inserted, the minimum is popped, 15 and 30 are inserted. -/
def badLoop : List (Op (U 16) Unit) := bad ++ [.removeMin, .insert (k16 15) (), .insert (k16 30) ()]

/-- **C44: a removal breaks that.** After `badLoop` iterating forwards does not end: up to the overflow of the iterator's
own counter it gives 15, 10, 15, 10, … -/
theorem C44_forward_forever (t : Set16 (U 16)) (ht : Reaches badLoop t) (n : Nat) (hn : n ≤ usizeMax) :
    ∃ it, (Iter.new t).calls (List.replicate n .front) =
      .ok (it, (List.range n).map fun i => some (if i % 2 = 0 then k16 15 else k16 10, ())) := by
  have hp : ∀ a b, (outputs (Set16 (U 16)) (badLoop ++ [.successor a])).map List.getLast? =
      .ok (some (.kv (some (b, ())))) → VebTree.successor t a = .ok (some (b, ())) := by
    intro a b h
    obtain ⟨t', h⟩ := of_out ht h
    simp only [Exec.stepTree] at h
    rcases hq : VebTree.successor t a with e | o
    · rw [hq] at h; cases h
    · rw [hq] at h; cases h; rfl
  have p15 := hp (k16 15) (k16 10) (by decide +kernel)
  have p10 := hp (k16 10) (k16 15) (by decide +kernel)
  have hmin : VebTree.minVal t = .ok (k16 15, ()) := by
    obtain ⟨t', h⟩ := of_out ht (q := .minVal) (o := .kv (some (k16 15, ()))) (by decide +kernel)
    simp only [Exec.stepTree] at h
    rcases hq : VebTree.minVal t with e | o
    · rw [hq] at h; cases h
    · rw [hq] at h; cases h; rfl
  have loop : ∀ n i m, m + n ≤ usizeMax →
      ∃ it, (⟨t, some (.front (if i % 2 = 0 then k16 15 else k16 10)), m⟩ : Iter (Set16 (U 16)) (U 16)).calls
          (List.replicate n .front) =
        .ok (it, (List.range' (i + 1) n).map fun i => some (if i % 2 = 0 then k16 15 else k16 10, ())) := by
    intro n
    induction n with
    | zero => intro i m _; exact ⟨_, rfl⟩
    | succ n ih =>
      intro i m hm
      have hpk : VebTree.successor t (if i % 2 = 0 then k16 15 else k16 10) =
          .ok (some (if (i + 1) % 2 = 0 then k16 15 else k16 10, ())) := by
        rcases Nat.mod_two_eq_zero_or_one i with h | h
        · rw [if_pos h, if_neg (by omega)]; exact p15
        · rw [if_neg (by omega), if_pos (by omega)]; exact p10
      obtain ⟨it, h⟩ := ih (i + 1) (m + 1) (by omega)
      refine ⟨it, ?_⟩
      simp only [List.replicate_succ, Iter.calls, Iter.call, Iter.next, hpk, R.ok_bind, Iter.emit,
        show addUsize m 1 = .ok (m + 1) from if_pos (show m + 1 ≤ usizeMax by omega), pure_bind, h]
      rfl
  cases n with
  | zero => exact ⟨_, rfl⟩
  | succ n =>
    obtain ⟨it, h⟩ := loop n 0 1 (by omega)
    refine ⟨it, ?_⟩
    simp only [List.replicate_succ, Iter.calls, Iter.call, Iter.next, Iter.new, hmin, R.ok_bind, Iter.emit,
      show addUsize 0 1 = .ok 1 from rfl, pure_bind]
    rw [show k16 15 = if 0 % 2 = 0 then k16 15 else k16 10 from rfl, h, List.range_eq_range', List.range'_succ]
    rfl

/-! Non-vacuity. -/

example : ∃ t : Set16 (U 16), Reaches badLoop t := ⟨_, _, rfl⟩
example : Covered (Set16 (U 16)) badLoop ∧ ¬ (∀ op ∈ badLoop, op.keeps = true) :=
  ⟨.uncounted (uncounted16 Unit).1, by decide⟩
/-- `C44_ascending` applies to a history that runs into the defect, and does not say that all entries are given -/
example : (∀ op ∈ bad, op.keeps = true) ∧ ∃ (t : Set16 (U 16)) (it : Iter (Set16 (U 16)) (U 16)), Reaches bad t ∧
    (Iter.new t).calls (List.replicate 3 .front) = .ok (it, [some (k16 5, ()), some (k16 20, ()), none]) :=
  ⟨by decide +kernel, _, _, ⟨_, rfl⟩, rfl⟩
/-- `C44_fused` applies to a tree whose order is broken -/
example : ∃ (t : Set16 (U 16)) (it : Iter (Set16 (U 16)) (U 16)) (os : List (Option (U 16 × Unit))), Reaches bad t ∧
    (Iter.new t).calls [.front, .front, .front] = .ok (it, os) ∧ none ∈ os :=
  ⟨_, _, _, ⟨_, rfl⟩, rfl, by decide⟩

end Veb.Props
