import Verif.Proof.Alike
import Verif.Props.Tree
import Verif.Props.TreeDefect

/-!
# C53: the contents determine the tree

Nothing of how a tree came about is left in it: two histories with the same entries at the end leave trees that are equal in
every field. With hash tables inside they are equal up to the order of their buckets (Verif/SpecAlike.lean), which is not
part of the model; without hash tables (`PlainTree`, Verif/SpecCanon.lean) they are equal.
-/

set_option autoImplicit false

namespace Veb.Props
open VebTree

variable {T K V : Type} [LinearOrder K] [VebTree T K V] {safe : (K → Prop) → K → Prop}

/-- The types without hash tables are types of the crate. -/
theorem PlainColl.crate {C Hi T Lo V : Type} [LinearOrder Hi] [VebTree T Lo V] [TreeCollection C Hi T Lo V]
    (h : PlainColl C Hi T Lo V) : CrateColl C Hi T Lo V := by
  induction h with
  | array h => exact .array h
  | byte => exact .byte
  | box _ ih => exact .box ih

theorem PlainTree.crate (h : PlainTree T K V safe) : CrateTree T K V safe := by
  induction h with
  | byteSet => exact .byteSet
  | byteMap => exact .byteMap
  | btreeMap => exact .btreeMap
  | box _ ih => exact .box ih
  | sized _ ih => exact .sized ih
  | tree hk _ _ hc ihs iht => exact .tree hk ihs iht (PlainColl.crate hc)

/-- The full claim of C53: all histories, for the predefined types with 16-bit keys. -/
def C53_full : Prop := ∀ V : Type, Canonical (Set16 (U 16)) always ∧ Canonical (Map16 (U 16) V) always

/-- **C53.** Two histories of safe insertions and any other calls after which the same entries are stored leave the same
tree. Missing: histories with insertions that are not safe (`C53_refuted`). -/
theorem C53_canonical_partial (h : PlainTree T K V safe) : Canonical T safe := by
  obtain ⟨L, rfl, hL⟩ := h.canon
  exact hL.canonical

/-- **C53, with hash tables.** For every tree type of the crate, two such histories leave trees that are equal up to the
order of the entries in hash tables. Missing: histories with insertions that are not safe (`C53_refuted`). -/
theorem C53_upToOrder_partial {r : T → T → Prop} (h : AlikeTree T K V safe r) : CanonicalUpTo safe r := by
  obtain ⟨L, rfl, hL⟩ := h.canon
  exact hL.canonical

/-- Every tree type of the crate is covered. -/
theorem C53_upToOrder_all : CrateTree T K V safe ↔ ∃ r, AlikeTree T K V safe r :=
  ⟨CrateTree.alike, fun ⟨_, h⟩ => h.crate⟩

/-- Without hash tables, equal up to the order of hash tables is equal. -/
theorem C53_upToOrder_plain (h : PlainTree T K V safe) : ∃ r, AlikeTree T K V safe r ∧ ∀ t t', r t t' → t = t' :=
  h.alike_eq

/-- **C53, with hash tables, observed.** Trees left by such histories in which every search gives the same are equal up to
the order of hash tables. -/
theorem C53_upToOrder_observe_partial {r : T → T → Prop} (h : AlikeTree T K V safe r) {ops ops' : List (Op K V)}
    (hs : SL.SafeHist safe [] ops) (hs' : SL.SafeHist safe [] ops') {t t' : T} (hr : Reaches ops t)
    (hr' : Reaches ops' t') (he : ∀ k, find t k = find t' k) : r t t' := by
  obtain ⟨L, rfl, hL⟩ := h.canon
  obtain ⟨I, -⟩ := reach_inv L hs hr
  obtain ⟨I', -⟩ := reach_inv L hs' hr'
  refine hL t t' I I' (funext fun k => ?_)
  have := he k
  rw [L.find t k I, L.find t' k I'] at this
  have := Except.ok.inj this
  rcases e : L.abs t k with _ | v <;> rcases e' : L.abs t' k with _ | v' <;> simp_all

/-- **C53, with hash tables, corrected tree** (C42): all histories. -/
theorem C53_upToOrder_fixed {r : T → T → Prop} (h : AlikeFixed T K V r) : CanonicalUpTo always r := by
  obtain ⟨L, A, hL⟩ := h.canon
  intro ops ops' _ _ he
  exact hL.canonical ops ops' (safeHist_of_always A _ _) (safeHist_of_always A _ _) he

/-- **C53, leaves.** Every history of `ByteSet`, `ByteMap` and `BTreeMap`. -/
theorem C53_leaves : Canonical ByteSet always ∧ (∀ V : Type, Canonical (ByteMap V) always) ∧
    (∀ (K V : Type) [LinearOrder K], Canonical (BTreeMap K V) always) :=
  ⟨C53_canonical_partial .byteSet, fun _ => C53_canonical_partial .byteMap, fun _ _ _ => C53_canonical_partial .btreeMap⟩

/-- **C53, corrected tree.** With the comparison of `Tree::insert` turned around (C42) all histories. -/
theorem C53_fixed (h : PlainFixed T K V) : Canonical T always := by
  obtain ⟨L, A, hL⟩ := h.canon
  intro ops ops' _ _ he
  exact hL.canonical ops ops' (safeHist_of_always A _ _) (safeHist_of_always A _ _) he

theorem run_inserts (es : SL K V) : ∀ l : SL K V, SL.Sorted (l ++ es) →
    (SL.run l (es.map fun e => Op.insert e.1 e.2)).1 = l ++ es := by
  induction es with
  | nil => intro l _; simp [SL.run]
  | cons e es ih =>
    intro l hs
    have hlt : ∀ p ∈ l, p.1 < e.1 := fun p hp => (List.pairwise_append.1 hs).2.2 p hp e List.mem_cons_self
    have e1 : (SL.step l (.insert e.1 e.2)).1 = l ++ [e] := by
      simp only [SL.step, SL.insert]
      rw [List.filter_eq_self.2 (by simpa using fun a b h => hlt (a, b) h),
        List.filter_eq_nil_iff.2 (by simpa using fun a b h => (hlt (a, b) h).le)]
    have := ih (l ++ [e]) (by simpa using hs)
    rw [← e1] at this
    simpa [SL.run, e1] using this

/-- **C53, the fresh copy.** A tree is the one that inserting its entries in ascending order gives. -/
theorem C53_rebuild_partial (h : PlainTree T K V safe) (ops : List (Op K V)) (hs : SL.SafeHist safe [] ops)
    (hl : (entries ops).length ≤ usizeMax) :
    ∃ (t : Option T) (os os' : List (Out K V)), Exec.run none ops = .ok (t, os) ∧
      Exec.run none ((entries ops).map fun e => .insert e.1 e.2) = .ok (t, os') := by
  refine C53_canonical_partial h ops _ hs ?_ ?_
  · have ha := ascending_inserts (entries ops) [] (entries_lists ops).1 hl
    obtain ⟨L, rfl, M⟩ := (PlainTree.crate h).lawful
    refine SL.safeHist_mono SL.sorted_nil ?_ ha
    rintro P k hf (hk | ⟨hk, hc⟩)
    · exact M.present P k hf hk
    · exact M.append P k hf hk hc
  · exact (run_inserts (entries ops) [] (entries_lists ops).1).symm

/-- **C53, undoing an insertion.** Removing a key just added gives back the tree from before, in every field. -/
theorem C53_undo_partial (h : PlainTree T K V safe) (ops : List (Op K V)) (hs : SL.SafeHist safe [] ops) (k : K) (v : V)
    (hk : ¬ (contents ops).Mem k) (hsafe : entries ops = [] ∨ safe (SL.keys (entries ops)) k) :
    ∃ (t : Option T) (os os' : List (Out K V)), Exec.run none ops = .ok (t, os) ∧
      Exec.run none (ops ++ [.insert k v, .remove k]) = .ok (t, os') := by
  refine C53_canonical_partial h ops _ hs ?_ ?_
  · rw [SL.safeHist_append]
    exact ⟨hs, hsafe, trivial, trivial⟩
  · have hl := entries_lists ops
    have h2 := (hl.insert k v).erase k
    rw [Map.upd_upd, Map.upd_none_of_none (Map.not_mem.1 hk)] at h2
    have e := hl.unique h2
    rw [entries, entries, SL.run_append]
    exact e

/-- **C53, equality can be observed.** Trees left by such histories in which every search gives the same are equal. -/
theorem C53_observe_partial (h : PlainTree T K V safe) {ops ops' : List (Op K V)} (hs : SL.SafeHist safe [] ops)
    (hs' : SL.SafeHist safe [] ops') {t t' : T} (hr : Reaches ops t) (hr' : Reaches ops' t')
    (he : ∀ k, find t k = find t' k) : t = t' := by
  obtain ⟨L, rfl, hL⟩ := h.canon
  obtain ⟨I, -⟩ := reach_inv L hs hr
  obtain ⟨I', -⟩ := reach_inv L hs' hr'
  refine hL t t' I I' (funext fun k => ?_)
  have := he k
  rw [L.find t k I, L.find t' k I'] at this
  have := Except.ok.inj this
  rcases e : L.abs t k with _ | v <;> rcases e' : L.abs t' k with _ | v' <;> simp_all

/-- **C53, `==` on byte sets** (the derived comparison of the four words, src/bitset/set.rs:5) compares the elements: for
all values of the type, the empty one included. -/
theorem C53_byteSet_eq (s s' : ByteSet) : s = s' ↔ ∀ k, find s k = find s' k := by
  refine ⟨fun h k => h ▸ rfl, fun h => ByteSet.abs_inj (funext fun k => ?_)⟩
  have := h k
  have e : ∀ s : ByteSet, find s k = .ok ((s.abs k).map fun v => (k, v)) := fun s => by
    simp only [find, ByteSet.find, ByteSet.isPresent_eq, ByteSet.abs]
    split <;> rfl
  rw [e, e] at this
  have := Except.ok.inj this
  rcases e : s.abs k with _ | v <;> rcases e' : s'.abs k with _ | v' <;> simp_all

/-- **C53 refuted**: inserting 10, 20, 5 leaves another tree than inserting 5, 10, 20. -/
theorem C53_refuted : ¬ C53_full := by
  intro h
  obtain ⟨t, os, os', h1, h2⟩ := (h Nat).1 bad [.insert (k16 5) (), .insert (k16 10) (), .insert (k16 20) ()]
    (safeHist_always _ _) (safeHist_always _ _) (by decide +kernel)
  have e : ∀ ops os, Exec.run (none : Option (Set16 (U 16))) ops = .ok (t, os) →
      (Exec.run (none : Option (Set16 (U 16))) ops).map (fun r => r.1.map maxVal) = .ok (t.map maxVal) := by
    intro ops os h
    rw [h]; rfl
  have := (e _ _ h1).trans (e _ _ h2).symm
  revert this
  decide +kernel

/-! ## Non-vacuity -/

/-- two histories that insert in different orders, overwrite and remove -/
example : ∃ (t : Map16 (U 16) Nat) (os os' : List (Out (U 16) Nat)),
    Exec.run none sample = .ok (some t, os) ∧
    Exec.run none [.insert (k16 7) 5, .insert (k16 4000) 3, .insert (k16 70) 6, .insert (k16 301) 4] =
      .ok (some t, os') := by
  obtain ⟨t, os, os', h1, h2⟩ := C53_canonical_partial (PlainTree.tree (V := Nat) (K := U 16) goodKey .byteSet .byteMap (.array goodIndex))
    sample [.insert (k16 7) 5, .insert (k16 4000) 3, .insert (k16 70) 6, .insert (k16 301) 4] sample_safe
    ((notBelowMin_iff SL.sorted_nil _).1 (by decide +kernel)) (by decide +kernel)
  obtain ⟨t', os'', h3⟩ := sample_reaches
  obtain ⟨rfl, -⟩ := Prod.mk.inj (Except.ok.inj (h1.symm.trans h3))
  exact ⟨t', os, os', h1, h2⟩

/-- the tree after `sample` is the one its four entries give -/
example : ∃ (t : Option (Map16 (U 16) Nat)) (os os' : List (Out (U 16) Nat)), Exec.run none sample = .ok (t, os) ∧
    Exec.run none [.insert (k16 7) 5, .insert (k16 70) 6, .insert (k16 301) 4, .insert (k16 4000) 3] = .ok (t, os') := by
  obtain ⟨t, os, os', h1, h2⟩ := C53_rebuild_partial
    (PlainTree.tree (V := Nat) (K := U 16) goodKey .byteSet .byteMap (.array goodIndex)) sample sample_safe
    (by decide +kernel)
  have e : ((entries sample).map fun e => Op.insert e.1 e.2) =
    [.insert (k16 7) 5, .insert (k16 70) 6, .insert (k16 301) 4, .insert (k16 4000) 3] := by decide +kernel
  exact ⟨t, os, os', h1, e ▸ h2⟩

/-- adding 9 and removing it again -/
example : ∃ (t : Option (Map8 Nat)) (os os' : List (Out (U 8) Nat)),
    Exec.run none [.insert (U.lit 200) 1, .insert (U.lit 3) 2] = .ok (t, os) ∧
    Exec.run none ([.insert (U.lit 200) 1, .insert (U.lit 3) 2] ++ [.insert (U.lit 9) 3, .remove (U.lit 9)]) =
      .ok (t, os') :=
  C53_undo_partial .byteMap _ (safeHist_always _ _) _ _
    (by rw [← (entries_lists _).keys]
        rintro ⟨v, hv⟩
        have e : entries [Op.insert (U.lit 200 : U 8) 1, Op.insert (U.lit 3) 2] = [(U.lit 3, 2), (U.lit 200, 1)] := by
          decide +kernel
        rw [e] at hv
        have h1 : (U.lit 9 : U 8) ∈ [(U.lit 3 : U 8), U.lit 200] := by
          simpa using List.mem_map_of_mem (f := Prod.fst) hv
        revert h1
        decide +kernel) (.inr trivial)

/-- a nested type: counted, boxed, 64 bits -/
example (V : Type) : PlainTree (SizedVebTree (Box (Map64 (U 64) V))) (U 64) V (sizedSafe safe64) := by
  have s16 : PlainTree (Set16 (U 16)) (U 16) Unit safe16 := .tree goodKey .byteSet .byteSet (.array goodIndex)
  have m16 : PlainTree (Map16 (U 16) V) (U 16) V safe16 := .tree goodKey .byteSet .byteMap (.array goodIndex)
  have s32 : PlainTree (Set32 (U 32)) (U 32) Unit safe32 := .tree goodKey s16 s16 (.array goodIndex)
  have m32 : PlainTree (Map32 (U 32) V) (U 32) V safe32 := .tree goodKey s16 m16 (.array goodIndex)
  exact .sized (.box (.tree goodKey s32 m32 (.array goodIndex)))

/-- two histories on a tree with a hash table, whose model keeps the newest entry first: the tables differ, but only in their
order -/
example : ∃ t t' : Tree (U 16) Nat (BTreeMap (U 8) Unit) (HashMap (U 8) (BTreeMap (U 8) Nat)),
    Reaches [.insert (k16 7) 5, .insert (k16 4000) 3, .insert (k16 70) 6, .insert (k16 301) 4] t ∧
    Reaches [.insert (k16 7) 5, .insert (k16 4000) 3, .insert (k16 301) 4, .insert (k16 70) 6] t' ∧ t ≠ t' ∧
    Tree.Alike Eq (HashMap.Alike Eq) t t' := by
  obtain ⟨t, t', os, os', h1, h2, h3⟩ := C53_upToOrder_partial
    (AlikeTree.tree (V := Nat) (K := U 16) goodKey .btreeMap .btreeMap .hash)
    [.insert (k16 7) 5, .insert (k16 4000) 3, .insert (k16 70) 6, .insert (k16 301) 4]
    [.insert (k16 7) 5, .insert (k16 4000) 3, .insert (k16 301) 4, .insert (k16 70) 6]
    ((notBelowMin_iff SL.sorted_nil _).1 (by decide +kernel)) ((notBelowMin_iff SL.sorted_nil _).1 (by decide +kernel))
    (by decide +kernel)
  cases h1; cases h2
  cases h3 with | some h3 =>
  refine ⟨_, _, ⟨_, rfl⟩, ⟨_, rfl⟩, ?_, h3⟩
  intro e
  have := congrArg (fun t : Tree (U 16) Nat (BTreeMap (U 8) Unit) (HashMap (U 8) (BTreeMap (U 8) Nat)) =>
    t.data.bind fun d => d.children.map fun c => c.2.entries.map fun p => p.1) e
  revert this
  decide +kernel

/-- the corrected tree, on the history that spoils the original -/
example : ∃ (t : Option (FSet16 (U 16))) (os os' : List (Out (U 16) Unit)), Exec.run none bad = .ok (t, os) ∧
    Exec.run none [.insert (k16 5) (), .insert (k16 10) (), .insert (k16 20) ()] = .ok (t, os') :=
  C53_fixed (.tree goodKey .byteSet .byteSet (.array goodIndex)) _ _ (safeHist_always _ _) (safeHist_always _ _)
    (by decide +kernel)

end Veb.Props
