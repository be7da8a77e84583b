import Verif.Proof.Descend
import Verif.Props.Look
import Verif.Props.NoPanic
import Verif.Props.Flat

/-!
# C96: keys inserted in descending order

The best known way to meet the defect of `Tree::insert` (src/tree.rs:524-533) is to insert keys in descending order.
Here is what happens, for any number of keys: the tree takes the second least key for its greatest one.
-/

set_option autoImplicit false

namespace Veb.Props
open VebTree

section
variable {K V S C Hi Lo T : Type} [LinearOrder K] [LinearOrder Hi] [LinearOrder Lo] [VebKey K Hi Lo]
  [VebKeyRef K Hi Lo] [VebTree S Hi Unit] [VebTree T Lo V] [TreeCollection C Hi T Lo V]

omit [LinearOrder Hi] [LinearOrder Lo] in
/-- **C96 for `Tree`.** After inserting two or more entries in descending order, into a tree of any parts, lawful or
not, the least entry is right, and the second least is taken for the greatest. -/
theorem C96_tree : TopLost (K := K) (V := V) (Tree K V S C) := by
  intro a b rest hs t hr
  have hab : a.1 < b.1 := (List.pairwise_cons.1 hs).1 b (by simp)
  obtain ⟨rfl, d, h1, rfl⟩ := descending_top hs hr
  refine ⟨rfl, ?_, ?_, ?_, ?_⟩
  · simp [VebTree.maxVal, Tree.maxVal, h1, pure, Except.pure]
  · exact ⟨t.putMax d, by simp [VebTree.maxValMut, Tree.maxValMut, h1, pure, Except.pure]⟩
  · intro k hk
    simp [VebTree.predecessor, Tree.predecessor, h1, not_le.2 (hab.trans hk), cmp_gt hk, pure, Except.pure]
  · intro r hr
    simp only [VebTree.removeMax, Tree.removeMax, h1] at hr
    rcases hc : d.children with _ | ⟨s, c⟩ <;> rw [hc] at hr <;> simp only [bind, Except.bind] at hr
    · cases hr; rfl
    · split at hr
      · cases hr
      · split at hr
        · cases hr
        · split at hr
          · cases hr
          · cases hr; rfl

end

section
variable {T K V : Type} [LinearOrder K] [VebTree T K V] {safe : (K → Prop) → K → Prop}

/-- **C96 for `Box`.** -/
theorem C96_box (h : TopLost (K := K) (V := V) T) : TopLost (K := K) (V := V) (Box T) := by
  intro a b rest hs t hr
  obtain ⟨h1, h2, ⟨put, h3⟩, h4, h5⟩ := h a b rest hs t.val (box_inner _ hr)
  refine ⟨h1, h2, ⟨fun w => ⟨put w⟩, ?_⟩, h4, ?_⟩
  · simp only [VebTree.maxValMut, h3]; rfl
  · intro r hr
    simp only [VebTree.removeMax] at hr
    rcases hq : VebTree.removeMax t.val with e | r' <;> rw [hq] at hr <;> cases hr
    exact h5 _ hq

/-- **C96 for `SizedVebTree`.** -/
theorem C96_sized (h : TopLost (K := K) (V := V) T) : TopLost (K := K) (V := V) (SizedVebTree T) := by
  intro a b rest hs t hr
  obtain ⟨h1, h2, ⟨put, h3⟩, h4, h5⟩ := h a b rest hs t.tree (sized_inner _ hr)
  refine ⟨h1, h2, ⟨fun w => ⟨put w, t.size⟩, ?_⟩, h4, ?_⟩
  · simp only [VebTree.maxValMut, h3]; rfl
  · intro r hr
    simp only [VebTree.removeMax, bind, Except.bind] at hr
    split at hr
    · cases hr
    · split at hr
      · cases hr
      · rename_i hq
        split at hr
        · split at hr
          · cases hr
          · cases hr; exact h5 _ hq
        · cases hr; exact h5 _ hq

/-- **C96 for the crate.** In every tree type that has the defect at its top, for every strictly ascending list of two
or more entries: inserting it backwards does not panic; the tree that is left finds exactly these entries; and it answers,
and removes, the second entry as its greatest one. -/
theorem C96_crate (h : CrateTree T K V safe) (ht : TopLost (K := K) (V := V) T) (a b : K × V) (rest : SL K V)
    (hs : SL.Sorted (a :: b :: rest)) (hn : (a :: b :: rest).length ≤ usizeMax) :
    ∃ t : T, Reaches (descending (a :: b :: rest)) t ∧
      (∀ k, find t k = .ok (SL.find (a :: b :: rest) k)) ∧
      minVal t = .ok a ∧ TakesForMax t b ∧ ∃ u, removeMax t = .ok (u, b) := by
  have hi := insertions_descending (a :: b :: rest)
  obtain ⟨t, hr⟩ := descending_reaches (C25_no_panic_partial h (descending (a :: b :: rest)) (hi ▸ hn))
  have hf := (C40_find h _ (keeps_descending _) hr).1
  obtain ⟨h1, h2⟩ := ht a b rest hs t hr
  refine ⟨t, hr, fun k => ?_, h1, h2, ?_⟩
  · rw [hf k, contents, entries_descending hs, SL.toMap]
    rcases hq : SL.find (a :: b :: rest) k with _ | ⟨j, v⟩
    · rfl
    · have := List.find?_some hq
      simp only [decide_eq_true_eq] at this
      subst this
      rfl
  · obtain ⟨⟨u, e⟩, hu⟩ := (C25_every_method_partial h _ (hi ▸ hn) t hr).removeMax
    exact ⟨u, by rw [hu, ← h2.removeMax _ hu]⟩

/-- **C96, how wrong.** With three or more entries the answer is wrong: every entry but the first two has a greater key,
and is found. -/
theorem C96_wrong (h : CrateTree T K V safe) (ht : TopLost (K := K) (V := V) T) (a b : K × V) (rest : SL K V)
    (hs : SL.Sorted (a :: b :: rest)) (t : T) (hr : Reaches (descending (a :: b :: rest)) t) (e : K × V)
    (he : e ∈ rest) : ∃ m, maxVal t = .ok m ∧ find t e.1 = .ok (some e) ∧ m.1 < e.1 := by
  refine ⟨b, (ht a b rest hs t hr).2.maxVal, ?_, (List.pairwise_cons.1 (List.pairwise_cons.1 hs).2).1 e he⟩
  rw [(C40_find h _ (keeps_descending _) hr).1, contents, entries_descending hs,
    ((SL.lists_toMap hs).2 e.1 e.2).1 (by simp [he])]
  rfl

/-- **C96 for `predecessor`.** Where the summary, the children and the collection are the crate's, the entry that is
answered as the one before the second least has a greater key. -/
theorem C96_turns {S C Hi Lo T : Type} [LinearOrder Hi] [LinearOrder Lo] [VebKey K Hi Lo] [VebKeyRef K Hi Lo]
    [VebTree S Hi Unit] [VebTree T Lo V] [TreeCollection C Hi T Lo V] {safeS : (Hi → Prop) → Hi → Prop}
    {safeT : (Lo → Prop) → Lo → Prop} (hk : GoodKey K Hi Lo) (hs : CrateTree S Hi Unit safeS)
    (ht : CrateTree T Lo V safeT) (hc : CrateColl C Hi T Lo V) : TurnsBack (K := K) (V := V) (Tree K V S C) := by
  have := hk.lawful
  obtain ⟨LC⟩ := hc.lawful
  obtain ⟨PS⟩ := hs.phys
  obtain ⟨PT⟩ := ht.phys
  intro a b rest hs hne hn t hr
  exact descending_turns hs hne hn hr
/-- **C96 for `predecessor`**, behind wrappers. -/
theorem C96_turns_wrapped (h : TurnsBack (K := K) (V := V) T) :
    TurnsBack (K := K) (V := V) (Box T) ∧ TurnsBack (K := K) (V := V) (SizedVebTree T) :=
  ⟨fun a b rest hs hne hn t hr => h a b rest hs hne hn t.val (box_inner _ hr),
    fun a b rest hs hne hn t hr => h a b rest hs hne hn t.tree (sized_inner _ hr)⟩

/-- **C96 for `iter().rev()`.** After three or more descending insertions, iterating backwards does not end: `next_back`
answers the second least entry and one greater entry in turn, for as long as the counter of emitted items goes. -/
theorem C96_forever (h1 : TopLost (K := K) (V := V) T) (h2 : TurnsBack (K := K) (V := V) T) (a b : K × V)
    (rest : SL K V) (hs : SL.Sorted (a :: b :: rest)) (hne : rest ≠ []) (hn : (a :: b :: rest).length ≤ usizeMax)
    (t : T) (hr : Reaches (descending (a :: b :: rest)) t) : ∃ m ∈ rest, b.1 < m.1 ∧ ∀ n ≤ usizeMax, ∃ it,
      (Iter.new t).calls (List.replicate n .back) = .ok (it, (List.range n).map fun i => some (alternating b m i)) := by
  obtain ⟨m, hm, h3⟩ := h2 a b rest hs hne hn t hr
  obtain ⟨-, h4⟩ := h1 a b rest hs t hr
  have hbm : b.1 < m.1 := (List.pairwise_cons.1 (List.pairwise_cons.1 hs).2).1 m hm
  refine ⟨m, hm, hbm, fun n hnn => ?_⟩
  obtain _ | n := n
  · exact ⟨_, rfl⟩
  · obtain ⟨it, h⟩ := back_calls h3 (h4.predecessor _ hbm) n 0 1 (by omega)
    refine ⟨it, ?_⟩
    rw [List.replicate_succ, List.range_succ_eq_map]
    have ha : addUsize 0 1 = .ok 1 := rfl
    have h : (⟨t, some (.back b.1), 1⟩ : Iter T K).calls (List.replicate n .back) = _ := h
    simp only [Iter.calls, Iter.call, Iter.nextBack, Iter.new, h4.maxVal, Iter.emit, ha, R.ok_bind, R.pure_eq, h]
    simp [Function.comp_def, alternating, Nat.add_comm]

/-- **C96 for `successor`.** Where the parts are the crate's, `successor` of the least key skips the second entry, and
`successor` of that and every later key finds nothing. -/
theorem C96_ends {S C Hi Lo T : Type} [LinearOrder Hi] [LinearOrder Lo] [VebKey K Hi Lo] [VebKeyRef K Hi Lo]
    [VebTree S Hi Unit] [VebTree T Lo V] [TreeCollection C Hi T Lo V] {safeS : (Hi → Prop) → Hi → Prop}
    {safeT : (Lo → Prop) → Lo → Prop} (hk : GoodKey K Hi Lo) (hs : CrateTree S Hi Unit safeS)
    (ht : CrateTree T Lo V safeT) (hc : CrateColl C Hi T Lo V) : EndsEarly (K := K) (V := V) (Tree K V S C) := by
  have := hk.lawful
  obtain ⟨LC⟩ := hc.lawful
  obtain ⟨PS⟩ := hs.phys
  obtain ⟨PT⟩ := ht.phys
  obtain ⟨LS⟩ := hs.look
  obtain ⟨LT⟩ := ht.look
  intro a b c rest hs hn t hr
  exact descending_ends hs hn hr
/-- **C96 for `successor`**, behind wrappers. -/
theorem C96_ends_wrapped (h : EndsEarly (K := K) (V := V) T) :
    EndsEarly (K := K) (V := V) (Box T) ∧ EndsEarly (K := K) (V := V) (SizedVebTree T) :=
  ⟨fun a b c rest hs hn t hr => h a b c rest hs hn t.val (box_inner _ hr),
    fun a b c rest hs hn t hr => h a b c rest hs hn t.tree (sized_inner _ hr)⟩

/-- **C96 for `iter()`.** After three or more descending insertions, iterating forwards gives the first and the third
entry, and then nothing, however many entries there are. -/
theorem C96_forward (h1 : TopLost (K := K) (V := V) T) (h2 : EndsEarly (K := K) (V := V) T) (a b c : K × V)
    (rest : SL K V) (hs : SL.Sorted (a :: b :: c :: rest)) (hn : (a :: b :: c :: rest).length ≤ usizeMax)
    (t : T) (hr : Reaches (descending (a :: b :: c :: rest)) t) (n : Nat) : ∃ it,
      (Iter.new t).calls (List.replicate (n + 2) .front) = .ok (it, some a :: some c :: List.replicate n none) := by
  obtain ⟨h3, -⟩ := h1 a b (c :: rest) hs t hr
  obtain ⟨h4, h5⟩ := h2 a b c rest hs hn t hr
  have hbc : b.1 < c.1 := (List.pairwise_cons.1 (List.pairwise_cons.1 hs).2).1 c (by simp)
  have stopped : ∀ n e, (⟨t, none, e⟩ : Iter T K).calls (List.replicate n .front) =
      .ok (⟨t, none, e⟩, List.replicate n none) := by
    intro n e
    induction n with
    | zero => rfl
    | succ n ih =>
      simp only [List.replicate_succ, Iter.calls, Iter.call, Iter.next, Iter.stop, R.ok_bind, R.pure_eq, ih]
  have a1 : addUsize 0 1 = .ok 1 := rfl
  have a2 : addUsize 1 1 = .ok 2 := by simp [addUsize, usizeMax]
  simp only [List.replicate_succ, Iter.calls, Iter.call, Iter.next, Iter.new, h3, h4, Iter.emit, a1, a2, R.ok_bind,
    R.pure_eq]
  obtain _ | n := n
  · exact ⟨_, rfl⟩
  · refine ⟨⟨t, none, 2⟩, ?_⟩
    simp only [List.replicate_succ, Iter.calls, Iter.call, Iter.next, h5 _ hbc.le, Iter.stop, R.ok_bind, R.pure_eq,
      stopped]

/-- **C96 for `remove_min` and `remove_max`.** Where the parts are the crate's, emptying the tree from below gives every
entry once, the second least one last; emptying it from above gives that one first. -/
theorem C96_drain {S C Hi Lo T : Type} [LinearOrder Hi] [LinearOrder Lo] [VebKey K Hi Lo] [VebKeyRef K Hi Lo]
    [VebTree S Hi Unit] [VebTree T Lo V] [TreeCollection C Hi T Lo V] {safeS : (Hi → Prop) → Hi → Prop}
    {safeT : (Lo → Prop) → Lo → Prop} (hk : GoodKey K Hi Lo) (hs : CrateTree S Hi Unit safeS)
    (ht : CrateTree T Lo V safeT) (hc : CrateColl C Hi T Lo V) : DrainsAskew (K := K) (V := V) (Tree K V S C) := by
  have := hk.lawful
  obtain ⟨LC⟩ := hc.lawful
  obtain ⟨PS⟩ := hs.phys
  obtain ⟨PT⟩ := ht.phys
  intro a b rest hs hn t hr
  exact descending_drains hs hn hr
/-- **C96 for `remove_min` and `remove_max`**, behind `Box`. -/
theorem C96_drain_box (h : DrainsAskew (K := K) (V := V) T) : DrainsAskew (K := K) (V := V) (Box T) := by
  intro a b rest hs hn t hr
  obtain ⟨⟨es, h1, h2⟩, es', h3, h4⟩ := h a b rest hs hn t.val (box_inner _ hr)
  exact ⟨⟨es, h1, box_replicate h2⟩, es', h3, box_replicate h4⟩
/-- **C96 for `remove_min` and `remove_max`**, for the predefined types. -/
theorem C96_drain_types (V : Type) :
    DrainsAskew (K := U 16) (V := V) (Map16 (U 16) V) ∧ DrainsAskew (K := S 16) (V := V) (Map16 (S 16) V) ∧
    DrainsAskew (K := U 32) (V := V) (Map32 (U 32) V) ∧ DrainsAskew (K := S 32) (V := V) (Map32 (S 32) V) ∧
    DrainsAskew (K := U 64) (V := V) (Map64 (U 64) V) ∧ DrainsAskew (K := S 64) (V := V) (Map64 (S 64) V) := by
  obtain ⟨⟨s16, m16⟩, -, -⟩ := crate16 V
  obtain ⟨⟨s32, m32⟩, -⟩ := crate32 V
  exact ⟨C96_drain goodKey .byteSet .byteMap (.array goodIndex), C96_drain goodKey .byteSet .byteMap (.array goodIndex),
    C96_drain goodKey s16 m16 (.array goodIndex), C96_drain goodKey s16 m16 (.array goodIndex),
    C96_drain goodKey s32 m32 (.array goodIndex), C96_drain goodKey s32 m32 (.array goodIndex)⟩

/-- The predefined sets and maps with 16-, 32- and 64-bit keys are trees, so all this is about them. -/
theorem C96_types (V : Type) :
    (TopLost (K := U 16) (V := V) (Map16 (U 16) V) ∧ TurnsBack (K := U 16) (V := V) (Map16 (U 16) V) ∧
      EndsEarly (K := U 16) (V := V) (Map16 (U 16) V)) ∧
    (TopLost (K := S 16) (V := V) (Map16 (S 16) V) ∧ TurnsBack (K := S 16) (V := V) (Map16 (S 16) V) ∧
      EndsEarly (K := S 16) (V := V) (Map16 (S 16) V)) ∧
    (TopLost (K := U 32) (V := V) (Map32 (U 32) V) ∧ TurnsBack (K := U 32) (V := V) (Map32 (U 32) V) ∧
      EndsEarly (K := U 32) (V := V) (Map32 (U 32) V)) ∧
    (TopLost (K := S 32) (V := V) (Map32 (S 32) V) ∧ TurnsBack (K := S 32) (V := V) (Map32 (S 32) V) ∧
      EndsEarly (K := S 32) (V := V) (Map32 (S 32) V)) ∧
    (TopLost (K := U 64) (V := V) (Map64 (U 64) V) ∧ TurnsBack (K := U 64) (V := V) (Map64 (U 64) V) ∧
      EndsEarly (K := U 64) (V := V) (Map64 (U 64) V)) ∧
    (TopLost (K := S 64) (V := V) (Map64 (S 64) V) ∧ TurnsBack (K := S 64) (V := V) (Map64 (S 64) V) ∧
      EndsEarly (K := S 64) (V := V) (Map64 (S 64) V)) := by
  obtain ⟨⟨s16, m16⟩, -, -⟩ := crate16 V
  obtain ⟨⟨s32, m32⟩, -⟩ := crate32 V
  exact ⟨⟨C96_tree, C96_turns goodKey .byteSet .byteMap (.array goodIndex), C96_ends goodKey .byteSet .byteMap (.array goodIndex)⟩,
    ⟨C96_tree, C96_turns goodKey .byteSet .byteMap (.array goodIndex), C96_ends goodKey .byteSet .byteMap (.array goodIndex)⟩,
    ⟨C96_tree, C96_turns goodKey s16 m16 (.array goodIndex), C96_ends goodKey s16 m16 (.array goodIndex)⟩,
    ⟨C96_tree, C96_turns goodKey s16 m16 (.array goodIndex), C96_ends goodKey s16 m16 (.array goodIndex)⟩,
    ⟨C96_tree, C96_turns goodKey s32 m32 (.array goodIndex), C96_ends goodKey s32 m32 (.array goodIndex)⟩,
    ⟨C96_tree, C96_turns goodKey s32 m32 (.array goodIndex), C96_ends goodKey s32 m32 (.array goodIndex)⟩⟩

end

section
variable {K V : Type} [LinearOrder K]

/-- **C96, the machine of C55.** Two or more descending insertions leave it with the first entry as the minimum, the
second as the maximum, and the others inside. -/
theorem C96_machine (a b : K × V) (rest : SL K V) (hs : SL.Sorted (a :: b :: rest)) (f : Flat K V) :
    Reaches (descending (a :: b :: rest)) f ↔ f = ⟨a, some (b, rest)⟩ := by
  have key : ∀ (rest : SL K V) (a b : K × V), SL.Sorted (a :: b :: rest) →
      Reaches (descending (a :: b :: rest)) (⟨a, some (b, rest)⟩ : Flat K V) := by
    intro rest
    induction rest with
    | nil =>
      intro a b hs
      have hab : a.1 < b.1 := (List.pairwise_cons.1 hs).1 b (by simp)
      refine ⟨[.kv none, .kv none], ?_⟩
      simp [descending, Exec.run, Exec.step, Exec.stepTree, VebTree.fromMonad, VebTree.insert, Flat.insert, hab, hab.ne]
    | cons c rest ih =>
      intro a b hs
      obtain ⟨ha, hs'⟩ := List.pairwise_cons.1 hs
      obtain ⟨hb, hs2⟩ := List.pairwise_cons.1 hs'
      obtain ⟨os, h1⟩ := ih b c hs'
      have hab := ha b (by simp)
      have hbc := hb c (by simp)
      have hc := (List.pairwise_cons.1 hs2).1
      have hi : SL.insert rest c.1 c.2 = c :: rest := by
        rw [SL.insert, List.filter_eq_nil_iff.2 (fun p hp => by simpa using (hc p hp).le),
          List.filter_eq_self.2 (fun p hp => by simpa using hc p hp)]
        rfl
      have hf : SL.find rest c.1 = none := by
        rw [SL.find, List.find?_eq_none]
        exact fun p hp => by simpa using (hc p hp).ne'
      refine ⟨os ++ [.kv none], ?_⟩
      rw [descending_cons]
      refine run_append_ok h1 ?_
      rw [run_single]
      simp [Exec.step, Exec.stepTree, VebTree.insert, Flat.insert, Flat.store, hab, hab.ne, hbc, hbc.ne', hi, hf]
      rfl
  refine ⟨fun h => ?_, fun h => h ▸ key rest a b hs⟩
  obtain ⟨os, h⟩ := h
  obtain ⟨os', h'⟩ := key rest a b hs
  rw [h] at h'
  cases h'
  rfl

/-- **C96, exactly.** Where summary, children and collection are correct, as in the 16-bit types: emptying the tree from
below gives the first entry, the third, the fourth, …, and the second; emptying it from above the same backwards. -/
theorem C96_exact {S C Hi Lo T : Type} [LinearOrder Hi] [LinearOrder Lo] [VebKey K Hi Lo] [VebKeyRef K Hi Lo]
    [VebTree S Hi Unit] [VebTree T Lo V] [TreeCollection C Hi T Lo V] (hk : GoodKey K Hi Lo)
    (hs : ∀ ops : List (Op Hi Unit), RunsLikeMap S ops) (ht : ∀ ops : List (Op Lo V), RunsLikeMap T ops)
    (hc : AnswersAsColl C (T := T)) (a b : K × V) (rest : SL K V) (hl : SL.Sorted (a :: b :: rest))
    (t : Tree K V S C) (hr : Reaches (descending (a :: b :: rest)) t) :
    Exec.run (some t) (List.replicate (rest.length + 2) .removeMin) =
        .ok (none, (a :: rest ++ [b]).map fun e => .kv (some e)) ∧
      Exec.run (some t) (List.replicate (rest.length + 2) .removeMax) =
        .ok (none, (b :: rest.reverse ++ [a]).map fun e => .kv (some e)) := by
  obtain ⟨f, h1, -, h2, h3⟩ := C55_drain hk hs ht hc _ t hr
  obtain rfl := (C96_machine a b rest hl f).1 h1
  simp only [Flat.line, List.length_cons, List.length_append, List.length_nil, Nat.zero_add] at h2 h3
  exact ⟨h2, by simpa using h3⟩

/-- **C96, exactly, for the 16-bit types.** -/
theorem C96_exact16 [VebKey K (U 8) (U 8)] [VebKeyRef K (U 8) (U 8)] (hk : GoodKey K (U 8) (U 8)) (a b : K × V)
    (rest : SL K V) (hl : SL.Sorted (a :: b :: rest)) (t : Map16 K V) (hr : Reaches (descending (a :: b :: rest)) t) :
    Exec.run (some t) (List.replicate (rest.length + 2) .removeMin) =
        .ok (none, (a :: rest ++ [b]).map fun e => .kv (some e)) ∧
      Exec.run (some t) (List.replicate (rest.length + 2) .removeMax) =
        .ok (none, (b :: rest.reverse ++ [a]).map fun e => .kv (some e)) :=
  C96_exact hk (fun o => C17_history_partial .byteSet o (safeHist_always _ o))
    (fun o => C17_history_partial .byteMap o (safeHist_always _ o)) (C51_crate_coll (.array goodIndex)) a b rest hl t hr
end

section

/-! Non-vacuity. -/

/-- five keys backwards: the tree says that 2 is the greatest of 1, 2, 3, 4, 5 -/
example : ∃ t : Set16 (U 16), Reaches (descending [(k16 1, ()), (k16 2, ()), (k16 3, ()), (k16 4, ()), (k16 5, ())]) t ∧
    maxVal t = .ok (k16 2, ()) ∧ find t (k16 5) = .ok (some (k16 5, ())) :=
  ⟨_, ⟨_, rfl⟩, by decide +kernel, by decide +kernel⟩
/-- the hypotheses of `C96_crate` hold for it -/
example : SL.Sorted [(k16 1, ()), (k16 2, ()), (k16 3, ())] ∧
    CrateTree (Set16 (U 16)) (U 16) Unit safe16 := ⟨by simp only [SL.Sorted]; decide +kernel, (crate16 Unit).1.1⟩
/-- backwards: 2, 5, 2, 5, 2, 5 -/
example : ∃ t : Set16 (U 16), Reaches (descending [(k16 1, ()), (k16 2, ()), (k16 5, ())]) t ∧
    ∃ it, (Iter.new t).calls (List.replicate 6 .back) = .ok (it, (List.range 6).map fun i =>
      some (alternating (k16 2, ()) (k16 5, ()) i)) := ⟨_, ⟨_, rfl⟩, _, rfl⟩
/-- forwards: 1 and 3 of 1, 2, 3, 4, 5 -/
example : ∃ t : Set16 (U 16), Reaches (descending [(k16 1, ()), (k16 2, ()), (k16 3, ()), (k16 4, ()), (k16 5, ())]) t ∧
    ∃ it, (Iter.new t).calls (List.replicate 4 .front) = .ok (it, [some (k16 1, ()), some (k16 3, ()), none, none]) :=
  ⟨_, ⟨_, rfl⟩, _, rfl⟩
/-- emptied from below: 1, 3, 4, 2 -/
example : ∃ t : Set16 (U 16), Reaches (descending [(k16 1, ()), (k16 2, ()), (k16 3, ()), (k16 4, ())]) t ∧
    Exec.run (some t) (List.replicate 4 .removeMin) =
      .ok (none, [.kv (some (k16 1, ())), .kv (some (k16 3, ())), .kv (some (k16 4, ())), .kv (some (k16 2, ()))]) :=
  ⟨_, ⟨_, rfl⟩, rfl⟩
/-- a bitset does not have the defect -/
example : ¬ TopLost (K := U 8) (V := Unit) ByteSet := by
  intro h
  have := (h (U.lit 1, ()) (U.lit 2, ()) [(U.lit 3, ())] (by simp only [SL.Sorted]; decide +kernel) _ ⟨_, rfl⟩).2.maxVal
  revert this
  decide +kernel

end

end Veb.Props
