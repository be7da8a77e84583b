import Verif.Proof.Walk
import Verif.Props.Order

/-!
# C98: where iteration ends after insertions in any order

C97 says which entry the tree takes for its greatest one.  Here is what `iter()` makes of that, for trees whose parts are
correct, as in the 16-bit types: every entry below that one, in order; then the next one above it *in its place*; and then
nothing more.
-/

set_option autoImplicit false

namespace Veb.Props
open VebTree

section
variable {K V S C Hi Lo T : Type} [LinearOrder K] [LinearOrder Hi] [LinearOrder Lo] [VebKey K Hi Lo]
  [VebKeyRef K Hi Lo] [VebTree S Hi Unit] [VebTree T Lo V] [TreeCollection C Hi T Lo V]

/-- **C98 for the machine of C55.** -/
theorem C98_machine (es : List (K × V)) (hd : DistinctKeys es) (h2 : 2 ≤ es.length) (hn : es.length ≤ usizeMax)
    (f : Flat K V) (hr : Reaches (inserting es) f) : ∃ a m, minVal f = .ok a ∧ maxVal f = .ok m ∧ ∀ n, ∃ it,
      (Iter.new (K := K) f).calls (List.replicate n .front) =
        .ok (it, firstItems (a :: upTo m (others a m (entries (inserting es)))) n) := by
  obtain ⟨a, m, h3, h4, -⟩ := flat_items hd h2 hn hr 0
  refine ⟨a, m, h3, h4, fun n => ?_⟩
  obtain ⟨a', m', h5, h6, h7⟩ := flat_items hd h2 hn hr n
  rw [h3] at h5
  rw [h4] at h6
  cases h5
  cases h6
  exact h7

/-- **C98, trees and the machine.** What the machine answers after a history that leaves a tree, the tree answers. -/
theorem C98_transfer (hk : GoodKey K Hi Lo) (hs : ∀ ops : List (Op Hi Unit), RunsLikeMap S ops)
    (ht : ∀ ops : List (Op Lo V), RunsLikeMap T ops) (hc : AnswersAsColl C (T := T)) (ops : List (Op K V))
    (t : Tree K V S C) (hr : Reaches ops t) : ∃ f : Flat K V, Reaches ops f ∧ minVal t = minVal f ∧ maxVal t = maxVal f ∧
      ∀ ss r, (∃ it, (Iter.new (K := K) f).calls ss = .ok (it, r)) → itemsAfter (Tree K V S C) ops ss = .ok r := by
  obtain ⟨os, e⟩ := hr
  obtain ⟨t', f, os', e1, e2, e3⟩ := C55_run hk hs ht hc ops
  rw [e] at e1
  cases e1
  obtain ⟨f, rfl⟩ : ∃ g, f = some g := by
    cases f with
    | none => simp at e3
    | some f => exact ⟨f, rfl⟩
  have hx1 := C55_exact hk hs ht hc (ops ++ [.minVal])
  have hx2 := C55_exact hk hs ht hc (ops ++ [.maxVal])
  rw [outputs, outputs, Flat.run_append e, Flat.run_append e2, run_single, run_single] at hx1 hx2
  have h3 : VebTree.minVal f = .ok f.min := rfl
  have h4 : VebTree.maxVal f = .ok f.top.2 := rfl
  simp only [Exec.step, Exec.stepTree, h3, h4] at hx1 hx2
  refine ⟨f, ⟨_, e2⟩, ?_, ?_, ?_⟩
  · rcases hq : VebTree.minVal t with e | x <;> rw [hq] at hx1
    · cases hx1
    · have hx1 := Except.ok.inj hx1
      rw [h3]
      simpa using hx1
  · rcases hq : VebTree.maxVal t with e | x <;> rw [hq] at hx2
    · cases hx2
    · have hx2 := Except.ok.inj hx2
      rw [h4]
      simpa using hx2
  · rintro ss r ⟨it, h6⟩
    have hi : itemsAfter (Flat K V) ops ss = .ok r := by simp [itemsAfter, e2, h6]
    rcases C55_iter hk hs ht hc ops ss with ⟨x, y, g1, g2, g3⟩ | ⟨x, y, g1, g2⟩
    · rw [hi] at g2
      cases g2
      rw [g1, g3]
    · rw [hi] at g2
      cases g2

/-- **C98.** After insertions of two or more entries with different keys in any order, into a tree whose summary, children
and collection are correct: with `a` the answer of `min_val` and `m` that of `max_val`, `iter()` gives `a`, the other
entries up to the first above `m`, or `m` if there is none above, and ends. -/
theorem C98_iter (hk : GoodKey K Hi Lo) (hs : ∀ ops : List (Op Hi Unit), RunsLikeMap S ops)
    (ht : ∀ ops : List (Op Lo V), RunsLikeMap T ops) (hc : AnswersAsColl C (T := T)) (es : List (K × V))
    (hd : DistinctKeys es) (h2 : 2 ≤ es.length) (hn : es.length ≤ usizeMax) (t : Tree K V S C)
    (hr : Reaches (inserting es) t) : ∃ a m, minVal t = .ok a ∧ maxVal t = .ok m ∧ ∀ n,
      itemsAfter (Tree K V S C) (inserting es) (List.replicate n .front) =
        .ok (firstItems (a :: upTo m (others a m (entries (inserting es)))) n) := by
  obtain ⟨f, h1, h3, h4, h5⟩ := C98_transfer hk hs ht hc _ t hr
  obtain ⟨a, m, h6, h7, h8⟩ := C98_machine es hd h2 hn f h1
  exact ⟨a, m, h3.trans h6, h4.trans h7, fun n => h5 _ _ (h8 n)⟩

/-- **C98 backwards.** If an entry is above `m`, `iter().rev()` does not end: it gives `m` and the greatest entry in turn,
for as long as the counter of emitted items goes. -/
theorem C98_back (hk : GoodKey K Hi Lo) (hs : ∀ ops : List (Op Hi Unit), RunsLikeMap S ops)
    (ht : ∀ ops : List (Op Lo V), RunsLikeMap T ops) (hc : AnswersAsColl C (T := T)) (es : List (K × V))
    (hd : DistinctKeys es) (t : Tree K V S C) (hr : Reaches (inserting es) t) (m z : K × V) (hm : maxVal t = .ok m)
    (hz : z ∈ es) (hg : ∀ e ∈ es, e.1 ≤ z.1) (hmz : m.1 < z.1) (n : Nat) (hn : n ≤ usizeMax) :
    itemsAfter (Tree K V S C) (inserting es) (List.replicate n .back) =
      .ok ((List.range n).map fun i => some (alternating m z i)) := by
  obtain ⟨f, h1, -, h4, h5⟩ := C98_transfer hk hs ht hc _ t hr
  exact h5 _ _ (flat_back hd h1 (h4.symm.trans hm) hz hg hmz n hn)

/-- **C98, when it is complete.** If no key is above that of `m`, the items are all entries in order. -/
theorem C98_complete (es : List (K × V)) (a m : K × V) (h : ∀ e ∈ es, e.1 ≤ m.1) (hd : DistinctKeys es) :
    upTo m (others a m (entries (inserting es))) = others a m (entries (inserting es)) ++ [m] := by
  refine upTo_all fun x hx => ?_
  simp only [others, List.mem_filter, decide_eq_true_eq] at hx
  exact lt_of_le_of_ne (h x ((mem_entries_inserting hd x).1 hx.1)) hx.2.2

/-- **C98, what is lost.** If there is a key above that of `m`, then `m`, which is stored, is not among the items. -/
theorem C98_lost (es : List (K × V)) (a m z : K × V) (hd : DistinctKeys es) (ham : a.1 < m.1) (hz : z ∈ es)
    (hmz : m.1 < z.1) : m ∉ a :: upTo m (others a m (entries (inserting es))) := by
  intro hm
  rcases List.mem_cons.1 hm with rfl | hm
  · exact lt_irrefl _ ham
  · refine upTo_lost (z := z) ?_ hmz ?_ hm
    · simp only [others, List.mem_filter, decide_eq_true_eq]
      exact ⟨(mem_entries_inserting hd z).2 hz, (ham.trans hmz).ne', hmz.ne'⟩
    · intro x hx
      simp only [others, List.mem_filter, decide_eq_true_eq] at hx
      exact hx.2.2

/-- **C98 for the 16-bit types.** -/
theorem C98_sixteen_bit {K V : Type} [LinearOrder K] [VebKey K (U 8) (U 8)] [VebKeyRef K (U 8) (U 8)]
    (hk : GoodKey K (U 8) (U 8)) (es : List (K × V)) (hd : DistinctKeys es) (h2 : 2 ≤ es.length)
    (hn : es.length ≤ usizeMax) (t : Map16 K V) (hr : Reaches (inserting es) t) :
    ∃ a m, minVal t = .ok a ∧ maxVal t = .ok m ∧ ∀ n,
      itemsAfter (Map16 K V) (inserting es) (List.replicate n .front) =
        .ok (firstItems (a :: upTo m (others a m (entries (inserting es)))) n) :=
  C98_iter hk (fun o => C17_history_partial .byteSet o (safeHist_always _ o))
    (fun o => C17_history_partial .byteMap o (safeHist_always _ o)) (C51_crate_coll (.array goodIndex)) es hd h2 hn t hr

/-! Non-vacuity. -/

/-- 4, 9, 1, 2, 7, 5, …: the greatest is 9, the tree says 7, and `iter()` gives 1, 2, 4, 5, 9 -/
example : itemsAfter (Set16 (U 16)) (inserting [(k16 4, ()), (k16 9, ()), (k16 1, ()), (k16 2, ()), (k16 7, ()),
      (k16 5, ())]) (List.replicate 7 .front) =
    .ok (firstItems [(k16 1, ()), (k16 2, ()), (k16 4, ()), (k16 5, ()), (k16 9, ())] 7) := by decide +kernel
example : (k16 1, ()) :: upTo (k16 7, ()) (others (k16 1, ()) (k16 7, ()) (entries (inserting [(k16 4, ()), (k16 9, ()),
      (k16 1, ()), (k16 2, ()), (k16 7, ()), (k16 5, ())]))) =
    [(k16 1, ()), (k16 2, ()), (k16 4, ()), (k16 5, ()), (k16 9, ())] := by decide +kernel
/-- with 11 above 7 as well it is never reached -/
example : itemsAfter (Set16 (U 16)) (inserting [(k16 4, ()), (k16 11, ()), (k16 9, ()), (k16 1, ()), (k16 7, ())])
      (List.replicate 5 .front) = .ok (firstItems [(k16 1, ()), (k16 4, ()), (k16 9, ())] 5) := by decide +kernel
/-- backwards: 4, 9, 4, 9, 4 -/
example : itemsAfter (Set16 (U 16)) (inserting [(k16 4, ()), (k16 9, ()), (k16 1, ())]) (List.replicate 5 .back) =
    .ok ((List.range 5).map fun i => some (alternating (k16 4, ()) (k16 9, ()) i)) := by decide +kernel
/-- the hypotheses hold -/
example : DistinctKeys [(k16 4, ()), (k16 9, ()), (k16 1, ())] := by simp only [DistinctKeys]; decide +kernel

end

end Veb.Props
