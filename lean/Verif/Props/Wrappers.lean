import Verif.Proof.Black

/-!
# `Box<V>` and `SizedVebTree<V>` over any `VebTree`: C12, C13; exact length hints (C27); `ByteSet`'s own methods: C09
-/

set_option autoImplicit false

namespace Veb.Props
open VebTree

variable {T K V : Type} [VebTree T K V]

/-! ## C12 -/

/-- **C12.** Whatever `T` is (it need not even be correct): running a history on a `Box<T>` gives the outputs, or
the panic, of running it on `T`, and leaves the boxed tree; and the two give the same length hint. -/
theorem C12_box_transparent (t : Option T) (ops : List (Op K V)) :
    Exec.run (t.map Box.mk) ops = (Exec.run t ops).map (fun r => (r.1.map Box.mk, r.2)) ∧
    ∀ u : T, lenHint (⟨u⟩ : Box T) = lenHint u :=
  ⟨box_run t ops, fun _ => rfl⟩

/-- A history with removals, failed and successful, down to nothing. -/
example : outputs (Box ByteSet) [.insert (U.lit 3) (), .insert (U.lit 200) (), .remove (U.lit 4), .remove (U.lit 3),
      .intoMonad, .minVal] =
    .ok [.kv none, .kv none, .kv none, .kv (some (U.lit 3, ())), .kv (some (U.lit 200, ())), .kv none] := by
  decide +kernel

/-! ## C13 -/

section
variable [LinearOrder K] {safe : (K → Prop) → K → Prop}

/-- **C13.** Let `T` behave as an ordered map on every history meeting `safe` (`always` for a tree that always
does).  On each such history, as long as no more than `usize::MAX` entries are stored at any moment,
`SizedVebTree<T>` gives the specified outputs as `T` does, and its `len` and both bounds of its `len_hint` are the
number of entries stored. -/
theorem C13_sized (hT : ∀ ops : List (Op K V), SL.SafeHist safe [] ops → RunsLikeMap T ops)
    (ops : List (Op K V)) (hs : SL.SafeHist safe [] ops) (hf : FitsUsize ops) :
    RunsLikeMap (SizedVebTree T) ops ∧
    ∀ t : SizedVebTree T, Reaches ops t →
      t.len = (entries ops).length ∧ lenHint t = .ok ((entries ops).length, some (entries ops).length) ∧
      Reaches ops t.tree := by
  obtain ⟨t, h1, h2, h3⟩ := (sized_black hT ops hs).1 hf
  refine ⟨⟨_, h3, by simp [h2]⟩, fun u hu => ?_⟩
  obtain ⟨os, hu⟩ := hu
  rw [h3] at hu
  cases t with
  | none => cases hu
  | some t =>
    cases hu
    exact ⟨rfl, rfl, _, h1⟩

/-- … and if at some moment more would be stored, the panic is `size overflowed`: the only one there is. -/
theorem C13_only_panic (hT : ∀ ops : List (Op K V), SL.SafeHist safe [] ops → RunsLikeMap T ops)
    (ops : List (Op K V)) (hs : SL.SafeHist safe [] ops) :
    (¬ FitsUsize ops → Exec.run (none : Option (SizedVebTree T)) ops = .error (.expect "size overflowed")) ∧
    ∀ e, Exec.run (none : Option (SizedVebTree T)) ops = .error e → e = .expect "size overflowed" := by
  refine ⟨(sized_black hT ops hs).2, fun e he => ?_⟩
  by_cases hf : FitsUsize ops
  · obtain ⟨t, -, -, h3⟩ := (sized_black hT ops hs).1 hf
    rw [h3] at he; cases he
  · rw [(sized_black hT ops hs).2 hf] at he
    cases he; rfl

/-- Replacing a value does not change the length. -/
theorem C13_replace (hT : ∀ ops : List (Op K V), SL.SafeHist safe [] ops → RunsLikeMap T ops)
    (ops : List (Op K V)) (k : K) (v : V) (hk : (contents ops).Mem k) (hf : FitsUsize ops)
    (hs : SL.SafeHist safe [] (ops ++ [.insert k v])) (t t' : SizedVebTree T) (ht : Reaches ops t)
    (ht' : Reaches (ops ++ [.insert k v]) t') : t'.len = t.len := by
  have hs' := ((SL.safeHist_append safe [] ops [.insert k v]).1 hs).1
  have e : (entries (ops ++ [.insert k v])).length = (entries ops).length := by
    rw [← (entries_lists _).card, ← (entries_lists ops).card, ← Map.card_upd_of_mem (v := v) hk]
    congr 1
    exact (entries_lists _).ext (by rw [entries_snoc]; exact (entries_lists ops).insert k v)
  have hf' : FitsUsize (ops ++ [.insert k v]) :=
    fits_snoc.2 ⟨hf, by rw [e]; exact hf ops (List.prefix_refl _)⟩
  rw [((C13_sized hT ops hs' hf).2 t ht).1, ((C13_sized hT _ hs hf').2 t' ht').1, e]

/-- Non-vacuity: every tree type of the crate meets the hypothesis, the leaves without restriction. -/
example (ops : List (Op Nat Char)) : RunsLikeMap (BTreeMap Nat Char) ops :=
  runsLikeMap_of (inferInstance : LawfulVebTree (BTreeMap Nat Char) Nat Char) (safeHist_always _ ops)
example : FitsUsize [.insert (1 : Nat) 'a', .insert 2 'b', .insert 1 'c'] := by
  intro pre hp
  have hle : ∀ ops : List (Op Nat Char), (entries ops).length ≤ ops.length := by
    intro ops
    induction ops using List.reverseRecOn with
    | nil => exact Nat.le_refl _
    | append_singleton ops op ih =>
      rw [entries_snoc, List.length_append]
      by_cases h : ∀ k v, op ≠ .insert k v
      · exact (SL.length_step op h).trans (ih.trans (Nat.le_add_right _ _))
      · push Not at h
        obtain ⟨k, v, rfl⟩ := h
        have := SL.length_newSize (SL.sorted_run SL.sorted_nil ops) (.insert k v) (by simp [SL.step, SL.insert])
        rw [entries, this]
        refine le_trans ?_ (Nat.add_le_add_right ih 1)
        rcases h : SL.find (SL.run [] ops).1 k with _ | p
        · simp [SL.step, newSize, h, entries]
        · simp [SL.step, newSize, h, entries]
  exact (hle pre).trans (hp.length_le.trans (by decide))
example : (Exec.run (none : Option (SizedVebTree (BTreeMap Nat Char)))
    [.insert 1 'a', .insert 2 'b', .insert 1 'c', .removeMax]).map (fun r => (r.1.map (·.len), r.2)) =
    .ok (some 1, [.kv none, .kv none, .kv (some (1, 'a')), .kv (some (2, 'b'))]) := by decide +kernel

end

/-! ## C09 and the exact hints of C27 -/

/-- **C09.** For every `ByteSet` obtained from the API, `len` is the number of bytes it contains, `lowest` and
`highest` are its least and greatest element, and none of them panics. -/
theorem C09_byteSet_len (ops : List (Op (U 8) Unit)) (s : ByteSet) (h : Reaches ops s) :
    s.len = .ok (entries ops).length ∧
    (∃ k, s.lowest = .ok k ∧ (contents ops).Mem k ∧ ∀ j, (contents ops).Mem j → k ≤ j) ∧
    (∃ k, s.highest = .ok k ∧ (contents ops).Mem k ∧ ∀ j, (contents ops).Mem j → j ≤ k) := by
  obtain ⟨I, e⟩ := reach_inv (inferInstance : LawfulVebTree ByteSet (U 8) Unit) (safeHist_always [] ops) h
  refine ⟨?_, ?_, ?_⟩
  · obtain ⟨lo, hi, h1, -, h3⟩ := LawfulVebTree.lenHint s I
    rcases hl : s.len with p | n
    · simp [lenHint, ByteSet.lenHint, hl] at h1; cases h1
    · simp [lenHint, ByteSet.lenHint, hl] at h1
      have := h3 n (h1.2 ▸ rfl)
      rw [e, (entries_lists ops).card] at this
      rw [this]
  · obtain ⟨⟨k, v⟩, h1, h2⟩ := LawfulVebTree.minVal s I
    rw [e] at h2
    rcases hl : s.lowest with p | n
    · simp [minVal, ByteSet.minVal, hl] at h1; cases h1
    · simp [minVal, ByteSet.minVal, hl] at h1
      subst h1
      exact ⟨_, rfl, Map.mem_of h2.1, h2.2⟩
  · obtain ⟨⟨k, v⟩, h1, h2⟩ := LawfulVebTree.maxVal s I
    rw [e] at h2
    rcases hl : s.highest with p | n
    · simp [maxVal, ByteSet.maxVal, hl] at h1; cases h1
    · simp [maxVal, ByteSet.maxVal, hl] at h1
      subst h1
      exact ⟨_, rfl, Map.mem_of h2.1, h2.2⟩

example : ∃ s : ByteSet, Reaches [.insert (U.lit 127) (), .insert (U.lit 128) (), .insert (U.lit 255) ()] s ∧
    s.len = .ok 3 ∧ s.lowest = .ok (U.lit 127) ∧ s.highest = .ok (U.lit 255) :=
  ⟨_, ⟨_, rfl⟩, by decide +kernel, by decide +kernel, by decide +kernel⟩

/-- **C27, the exact hints**: for `ByteSet` and `BTreeMap` both bounds of `len_hint` are the number of entries
(for `SizedVebTree` this is part of `C13_sized`). -/
theorem C27_exact_hints :
    (∀ (ops : List (Op (U 8) Unit)) (s : ByteSet), Reaches ops s →
      lenHint s = .ok ((entries ops).length, some (entries ops).length)) ∧
    (∀ (K V : Type) [LinearOrder K] (ops : List (Op K V)) (t : BTreeMap K V), Reaches ops t →
      lenHint t = .ok ((entries ops).length, some (entries ops).length)) := by
  refine ⟨fun ops s h => ?_, fun K V _ ops t h => ?_⟩
  · simp [lenHint, ByteSet.lenHint, (C09_byteSet_len ops s h).1]
  · obtain ⟨I, e⟩ := reach_inv (inferInstance : LawfulVebTree (BTreeMap K V) K V) (safeHist_always [] ops) h
    obtain ⟨lo, hi, h1, -, h3⟩ := LawfulVebTree.lenHint t I
    cases h1
    have := h3 _ rfl
    rw [e, (entries_lists ops).card] at this
    rw [this]
    rfl

end Veb.Props
