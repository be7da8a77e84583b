import Verif.Proof.Order
import Verif.Props.Descend

/-!
# C97: the order of insertions

C96 is about one order of insertions.  Here any number of entries with different keys is inserted in any order.  Whether
the tree knows its greatest entry afterwards depends on one thing: whether that entry came after the least one.
-/

set_option autoImplicit false

namespace Veb.Props
open VebTree

section
variable {K V S C Hi Lo T : Type} [LinearOrder K] [VebKey K Hi Lo]
  [VebKeyRef K Hi Lo] [VebTree S Hi Unit] [VebTree T Lo V] [TreeCollection C Hi T Lo V]

/-- **C97 for `Tree`**, of any parts, lawful or not. -/
theorem C97_tree : TopByOrder (K := K) (V := V) (Tree K V S C) := by
  intro p q a hd ha hne t hr
  obtain ⟨rfl, ⟨h, -⟩ | ⟨d, h1, h2⟩⟩ := inserting_top hd ha hr
  · exact absurd h hne
  · exact ⟨rfl, d.max, h2, by simp [VebTree.maxVal, Tree.maxVal, h1, pure, Except.pure]⟩

/-- **C97, every method that looks at the greatest entry.** The same entry is handed out by `max_val_mut`, answered by
`predecessor` of every key above it, and taken out by `remove_max`. -/
theorem C97_takes (p q : List (K × V)) (a : K × V) (hd : DistinctKeys (p ++ a :: q)) (ha : ∀ x ∈ p ++ q, a.1 < x.1)
    (hne : p ++ q ≠ []) (t : Tree K V S C) (hr : Reaches (inserting (p ++ a :: q)) t) :
    ∃ m, TopOf p q m ∧ TakesForMax t m := by
  have hlt : ∀ d, t.data = some d → t.min.1 < d.max.1 := fun d h => ((inserting_inv (by simp) hd hr).2 d h).2
  obtain ⟨-, ⟨h, -⟩ | ⟨d, h1, h2⟩⟩ := inserting_top hd ha hr
  · exact absurd h hne
  · refine ⟨d.max, h2, ?_, ?_, ?_, ?_⟩
    · simp [VebTree.maxVal, Tree.maxVal, h1, pure, Except.pure]
    · exact ⟨t.putMax d, by simp [VebTree.maxValMut, Tree.maxValMut, h1, pure, Except.pure]⟩
    · intro k hk
      simp [VebTree.predecessor, Tree.predecessor, h1, not_le.2 ((hlt d h1).trans hk), cmp_gt hk, pure, Except.pure]
    · intro r hr
      exact (removeMax_top h1 hr).1

end

section
variable {T K V : Type} [LinearOrder K] [VebTree T K V] {safe : (K → Prop) → K → Prop}

/-- **C97 behind `Box` and `SizedVebTree`.** -/
theorem C97_wrapped (h : TopByOrder (K := K) (V := V) T) :
    TopByOrder (K := K) (V := V) (Box T) ∧ TopByOrder (K := K) (V := V) (SizedVebTree T) := by
  constructor
  · intro p q a hd ha hne t hr
    rw [inserting_eq] at hr
    exact h p q a hd ha hne t.val (by rw [inserting_eq]; exact box_inner _ hr)
  · intro p q a hd ha hne t hr
    rw [inserting_eq] at hr
    exact h p q a hd ha hne t.tree (by rw [inserting_eq]; exact sized_inner _ hr)

/-- `TopOf` determines the entry. -/
theorem C97_unique (p q : List (K × V)) (m m' : K × V) (hd : DistinctKeys (p ++ q)) (h : TopOf p q m)
    (h' : TopOf p q m') : m = m' := topOf_unique hd h h'

/-- **C97, no panics.** In every tree type of the crate such insertions do not panic, and every entry is found. -/
theorem C97_crate (h : CrateTree T K V safe) (l : List (K × V)) (hne : l ≠ []) (hd : DistinctKeys l)
    (hn : l.length ≤ usizeMax) :
    ∃ t : T, Reaches (inserting l) t ∧ ∀ e ∈ l, find t e.1 = .ok (some e) := by
  obtain ⟨b, l', hb⟩ := List.exists_cons_of_ne_nil (l := l.reverse) (by simpa using hne)
  have hp : NeverPanics T (inserting l) := C25_no_panic_partial h _ (by rw [insertions_inserting]; exact hn)
  rw [inserting_eq, hb] at hp
  obtain ⟨t, hr⟩ := descending_reaches hp
  rw [← hb, ← inserting_eq] at hr
  refine ⟨t, hr, fun e he => ?_⟩
  rw [(C40_find h _ (keeps_inserting l) hr).1, contents_inserting hd he]
  rfl

/-- **C97, when it is right.** If the greatest entry is inserted after the least one, `max_val` is right. -/
theorem C97_right (ht : TopByOrder (K := K) (V := V) T) (p q : List (K × V)) (a z : K × V)
    (hd : DistinctKeys (p ++ a :: q)) (ha : ∀ x ∈ p ++ q, a.1 < x.1) (hz : z ∈ q) (hg : ∀ x ∈ p ++ q, x.1 ≤ z.1)
    (t : T) (hr : Reaches (inserting (p ++ a :: q)) t) : maxVal t = .ok z := by
  obtain ⟨-, m, h1, h2⟩ := ht p q a hd ha (List.ne_nil_of_mem (List.mem_append_right p hz)) t hr
  have hzt : TopOf p q z := ⟨.inl hz, fun x hx =>
    hg x (List.mem_append.2 (hx.elim .inr fun y => .inl y.1))⟩
  have hd' : DistinctKeys (p ++ q) := hd.sublist ((List.sublist_cons_self a q).append_left p)
  rw [h2, topOf_unique hd' h1 hzt]

/-- **C97, when it is wrong.** If the greatest entry is inserted before the least one, and not as the only entry before
it, `max_val` answers an entry with a smaller key, although the greatest is found. -/
theorem C97_wrong (h : CrateTree T K V safe) (ht : TopByOrder (K := K) (V := V) T) (p q : List (K × V)) (a z : K × V)
    (hd : DistinctKeys (p ++ a :: q)) (ha : ∀ x ∈ p ++ q, a.1 < x.1) (hz : z ∈ p) (hp : 2 ≤ p.length)
    (hg : ∀ x ∈ p ++ q, x.1 ≤ z.1) (t : T) (hr : Reaches (inserting (p ++ a :: q)) t) :
    ∃ m, maxVal t = .ok m ∧ m.1 < z.1 ∧ find t z.1 = .ok (some z) := by
  obtain ⟨-, m, h1, h2⟩ := ht p q a hd ha (List.ne_nil_of_mem (List.mem_append_left q hz)) t hr
  obtain ⟨hp1, -, hpq⟩ := List.pairwise_append.1 hd
  refine ⟨m, h2, ?_, ?_⟩
  · rcases h1.1 with hm | ⟨hm, hl⟩
    · exact lt_of_le_of_ne (hg m (by simp [hm])) (hpq z hz m (by simp [hm])).symm
    · refine lt_of_le_of_ne (hg m (by simp [hm])) fun he => ?_
      obtain ⟨x, y, r, rfl⟩ : ∃ x y r, p = x :: y :: r := by
        match p, hp with
        | x :: y :: r, _ => exact ⟨x, y, r, rfl⟩
      have hxy : x.1 ≠ y.1 := (List.pairwise_cons.1 hp1).1 y (by simp)
      have hx : x.1 = z.1 := le_antisymm (hg x (by simp)) (he ▸ hl x (by simp))
      have hy : y.1 = z.1 := le_antisymm (hg y (by simp)) (he ▸ hl y (by simp))
      exact hxy (hx.trans hy.symm)
  · rw [(C40_find h _ (keeps_inserting _) hr).1, contents_inserting hd (by simp [hz])]
    rfl

/-- **C97, the one exception.** If the greatest entry is the only one before the least, `max_val` is right too. -/
theorem C97_first (ht : TopByOrder (K := K) (V := V) T) (q : List (K × V)) (a z : K × V)
    (hd : DistinctKeys (z :: a :: q)) (ha : ∀ x ∈ z :: q, a.1 < x.1) (hg : ∀ x ∈ z :: q, x.1 ≤ z.1)
    (t : T) (hr : Reaches (inserting (z :: a :: q)) t) : maxVal t = .ok z := by
  obtain ⟨-, m, h1, h2⟩ := ht [z] q a hd ha (by simp) t hr
  have hzt : TopOf [z] q z := ⟨.inr ⟨by simp, by simp⟩, fun x hx =>
    hg x (by rcases hx with hx | hx <;> simp_all [LeastOf])⟩
  have hd' : DistinctKeys ([z] ++ q) := hd.sublist ((List.sublist_cons_self a q).append_left [z])
  rw [h2, topOf_unique hd' h1 hzt]

/-- **C97, half of all orders.** Take any order in which the least entry comes before the greatest, and not as the two last
ones.  Inserting in this order leaves a tree whose `max_val` is right; inserting in the reverse order one whose `max_val`
is wrong. -/
theorem C97_half (h : CrateTree T K V safe) (ht : TopByOrder (K := K) (V := V) T) (p m q : List (K × V)) (a z : K × V)
    (hd : DistinctKeys (p ++ a :: (m ++ z :: q))) (ha : ∀ x ∈ p ++ (m ++ z :: q), a.1 < x.1)
    (hg : ∀ x ∈ p ++ (m ++ z :: q), x.1 ≤ z.1) (hne : m ++ q ≠ []) (t t' : T)
    (hr : Reaches (inserting (p ++ a :: (m ++ z :: q))) t)
    (hr' : Reaches (inserting (p ++ a :: (m ++ z :: q)).reverse) t') :
    maxVal t = .ok z ∧ ∃ e, maxVal t' = .ok e ∧ e.1 < z.1 := by
  have hrev : (p ++ a :: (m ++ z :: q)).reverse = (q.reverse ++ z :: m.reverse) ++ a :: p.reverse := by simp
  have hmem : ∀ x, x ∈ (q.reverse ++ z :: m.reverse) ++ p.reverse → x ∈ p ++ (m ++ z :: q) := by
    intro x
    simp only [List.mem_append, List.mem_reverse, List.mem_cons]
    tauto
  have hlen : 2 ≤ (q.reverse ++ z :: m.reverse).length := by
    have := List.length_pos_iff.2 hne
    simp only [List.length_append, List.length_cons, List.length_reverse] at this ⊢
    omega
  have hd' : DistinctKeys (p ++ a :: (m ++ z :: q)).reverse := by
    rw [DistinctKeys, List.pairwise_reverse]
    exact hd.imp fun x y => x y.symm
  rw [hrev] at hr' hd'
  obtain ⟨e, h1, h2, -⟩ := C97_wrong h ht _ _ a z hd' (fun x hx => ha x (hmem x hx)) (by simp) hlen
    (fun x hx => hg x (hmem x hx)) t' hr'
  exact ⟨C97_right ht p _ a z hd ha (by simp) hg t hr, e, h1, h2⟩

/-- The predefined sets and maps with 16-, 32- and 64-bit keys. -/
theorem C97_types (V : Type) :
    TopByOrder (K := U 16) (V := V) (Map16 (U 16) V) ∧ TopByOrder (K := S 16) (V := V) (Map16 (S 16) V) ∧
    TopByOrder (K := U 32) (V := V) (Map32 (U 32) V) ∧ TopByOrder (K := S 32) (V := V) (Map32 (S 32) V) ∧
    TopByOrder (K := U 64) (V := V) (Map64 (U 64) V) ∧ TopByOrder (K := S 64) (V := V) (Map64 (S 64) V) :=
  ⟨C97_tree, C97_tree, C97_tree, C97_tree, C97_tree, C97_tree⟩

/-! Non-vacuity. -/

/-- 3, 1, 2: the greatest is the only key before the least, and `max_val` is right -/
example : ∃ t : Set16 (U 16), Reaches (inserting [(k16 3, ()), (k16 1, ()), (k16 2, ())]) t ∧
    maxVal t = .ok (k16 3, ()) := ⟨_, ⟨_, rfl⟩, by decide +kernel⟩
/-- 2, 3, 1: the greatest is before the least, and `max_val` is wrong -/
example : ∃ t : Set16 (U 16), Reaches (inserting [(k16 2, ()), (k16 3, ()), (k16 1, ())]) t ∧
    maxVal t = .ok (k16 2, ()) := ⟨_, ⟨_, rfl⟩, by decide +kernel⟩
/-- 2, 1, 3: the greatest is after the least, and `max_val` is right -/
example : ∃ t : Set16 (U 16), Reaches (inserting [(k16 2, ()), (k16 1, ()), (k16 3, ())]) t ∧
    maxVal t = .ok (k16 3, ()) := ⟨_, ⟨_, rfl⟩, by decide +kernel⟩
/-- the hypotheses of `C97_wrong` hold of 2, 3, 1 -/
example : DistinctKeys ([(k16 2, ()), (k16 3, ())] ++ (k16 1, ()) :: []) ∧
    (∀ x ∈ [(k16 2, ()), (k16 3, ())] ++ [], k16 1 < x.1) ∧ ∀ x ∈ [(k16 2, ()), (k16 3, ())] ++ [], x.1 ≤ k16 3 := by
  refine ⟨?_, ?_, ?_⟩
  · simp only [DistinctKeys]; decide +kernel
  · decide +kernel
  · decide +kernel

end

end Veb.Props
