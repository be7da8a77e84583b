import Verif.Proof.Rescue
import Verif.Props.Entries
import Verif.Props.Look
import Verif.Props.Check
import Verif.Props.Canon

/-!
# C93: what can be saved from a damaged tree

The defect of `Tree::insert` makes trees answer wrongly.  As long as nothing has been removed, a program can still get
everything out that it has put in, and put it into a new tree; after a removal it cannot even know that something is wrong.
-/

set_option autoImplicit false

namespace Veb.Props

variable {T K V : Type} [LinearOrder K] [VebTree T K V] {safe : (K → Prop) → K → Prop}

/-- **C93.** A tree that has only been inserted into, in any order, gives back, when its minimum is popped until no tree is
left, the keys of the map and no others, and every entry of the map with its present value; no more in all than was inserted. -/
theorem C93_drain (h : CrateTree T K V safe) {ops : List (Op K V)} (hk : ∀ op ∈ ops, op.keeps = true)
    (hn : insertions ops ≤ usizeMax) {t : T} (hr : Reaches ops t) : ∃ es, DrainsTo t es ∧
      (∀ k, (∃ v, (k, v) ∈ es) ↔ (contents ops).Mem k) ∧ (∀ k v, contents ops k = some v → (k, v) ∈ es) ∧
      es.length ≤ insertions ops := by
  have hf := (C40_find h ops hk hr).1
  obtain ⟨P⟩ := h.phys
  obtain ⟨L⟩ := h.look
  obtain ⟨os, hr⟩ := hr
  have hW := phys_run_of (fun _ => hn) hr
  obtain ⟨es, h1, h2⟩ := drain_min_ents hW
  have hin : ∀ e, e ∈ es ↔ e ∈ P.ents t := fun e => by rw [← show _ = P.ents t from h2, Multiset.mem_coe]
  have live : ∀ k v, contents ops k = some v → (k, v) ∈ es := by
    intro k v hv
    obtain ⟨r, e1, e2⟩ := P.findE t k hW.1
    rw [hf k, hv] at e1
    cases e1
    exact (hin _).2 (e2 _ rfl)
  have hc : es.length ≤ insertions ops := by
    rw [← Multiset.coe_card, h2]
    exact (P.bag_card t).symm.le.trans hW.2
  refine ⟨es, h1, fun k => ⟨?_, fun hm => ?_⟩, live, hc⟩
  · rintro ⟨v, hv⟩
    refine (entries_lists ops).mem_key.2 ?_
    refine shown_run (T := T) (n := 0) (t := none) trivial (l := []) rfl ops hk (fun _ => by simpa using hn) hr ?_ k ?_
    · intro k hk; exact absurd hk (Multiset.notMem_zero k)
    · exact mem_keysOf_of ((hin _).1 hv)
  · cases hc : contents ops k with
    | none => exact absurd hc hm
    | some v => exact ⟨v, live k v hc⟩

omit [VebTree T K V] in
theorem pairwise_ext {l l' : List K} (h : l.Pairwise (· < ·)) (h' : l'.Pairwise (· < ·)) (e : ∀ k, k ∈ l ↔ k ∈ l') : l = l' :=
  (List.perm_of_nodup_nodup_toFinset_eq (h.imp fun h => ne_of_lt h) (h'.imp fun h => ne_of_lt h)
    (by ext k; simp [e k])).eq_of_pairwise (fun _ _ _ _ a b => absurd a (lt_asymm b)) h h'

omit [LinearOrder K] in
theorem drain_unique {t : Option T} {es es' : List (K × V)}
    (h : Exec.run t (List.replicate es.length .removeMin) = .ok (none, es.map fun e => .kv (some e)))
    (h' : Exec.run t (List.replicate es'.length .removeMin) = .ok (none, es'.map fun e => .kv (some e))) : es = es' := by
  induction es generalizing t es' with
  | nil =>
    cases h
    cases es' with
    | nil => rfl
    | cons e es' =>
      simp only [List.length_cons, List.replicate_succ, Exec.run] at h'
      obtain ⟨⟨t1, o⟩, h1, h'⟩ := R.bind_ok h'
      cases h1
      obtain ⟨⟨t2, os⟩, h2, h'⟩ := R.bind_ok h'
      cases h'
  | cons e es ih =>
    simp only [List.length_cons, List.replicate_succ, Exec.run] at h
    obtain ⟨⟨t1, o⟩, h1, h⟩ := R.bind_ok h
    obtain ⟨⟨t2, os⟩, h2, h⟩ := R.bind_ok h
    cases h
    cases es' with
    | nil => cases h'; cases h1
    | cons e' es' =>
      simp only [List.length_cons, List.replicate_succ, Exec.run] at h'
      obtain ⟨⟨t1', o'⟩, h1', h'⟩ := R.bind_ok h'
      rw [h1] at h1'
      cases h1'
      obtain ⟨⟨t2', os'⟩, h2', h'⟩ := R.bind_ok h'
      cases h'
      rw [ih h2 h2']

omit [LinearOrder K] in
theorem lookUp_eq {t : T} {M : Map K V} (hf : ∀ k, VebTree.find t k = .ok ((M k).map fun v => (k, v))) (l : SL K V)
    (hl : ∀ k v, (k, v) ∈ l → M k = some v) : lookUp t (l.map Prod.fst) = .ok (l.map some) := by
  induction l with
  | nil => rfl
  | cons e l ih =>
    rw [List.map_cons, lookUp, hf e.1, hl e.1 e.2 List.mem_cons_self, ih fun k v h => hl k v (List.mem_cons_of_mem _ h)]
    rfl

/-- **C93, saving.** Let a program pop everything from a copy, sort the keys, ask the tree for each of them, and insert the
answers into a new tree: then it has inserted the entries of the map, and the new tree runs like the ordered map, whatever is
done with it without inserting. -/
theorem C93_rescue (h : CrateTree T K V safe) {ops : List (Op K V)} (hk : ∀ op ∈ ops, op.keeps = true)
    (hn : insertions ops ≤ usizeMax) {t : T} (hr : Reaches ops t) {es : List (K × V)} (hd : DrainsTo t es) {ks : List K}
    (hs : SortedKeys es ks) : lookUp t ks = .ok ((entries ops).map some) ∧
      contents ((entries ops).map fun e => .insert e.1 e.2) = contents ops ∧
      ∀ rest : List (Op K V), (∀ op ∈ rest, ∀ k v, op ≠ .insert k v) →
        RunsLikeMap T ((entries ops).map (fun e => .insert e.1 e.2) ++ rest) := by
  obtain ⟨es', hd', h1, h2, h3⟩ := C93_drain h hk hn hr
  obtain rfl := drain_unique hd hd'
  have hE := entries_lists ops
  have hp : ((entries ops).map Prod.fst).Pairwise (· < ·) := List.pairwise_map.2 hE.1
  have he : ks = (entries ops).map Prod.fst := by
    refine pairwise_ext hs.1 hp fun k => ?_
    rw [hs.2, h1, hE.mem_key, List.mem_map]
    exact ⟨fun ⟨v, hv⟩ => ⟨_, hv, rfl⟩, fun ⟨e, hv, e'⟩ => ⟨e.2, e' ▸ hv⟩⟩
  subst he
  refine ⟨lookUp_eq (C40_find h ops hk hr).1 _ fun k v hv => (hE.2 k v).1 hv,
    congrArg SL.toMap (run_inserts (entries ops) [] hE.1), C36_sorted_inserts h _ hE.1 ?_⟩
  have hnd : (entries ops).Nodup := hE.1.imp fun hlt e => absurd (e ▸ hlt) (lt_irrefl _)
  exact (hnd.subperm fun e he => h2 e.1 e.2 ((hE.2 e.1 e.2).1 he)).length_le.trans (h3.trans hn)

/-- **C93, a test.** If what is popped comes in ascending order, it is what was put in: nothing needs to be saved. -/
theorem C93_ascending (h : CrateTree T K V safe) {ops : List (Op K V)} (hk : ∀ op ∈ ops, op.keeps = true)
    (hn : insertions ops ≤ usizeMax) {t : T} (hr : Reaches ops t) {es : List (K × V)} (hd : DrainsTo t es)
    (hs : SL.Sorted es) : es = entries ops := by
  obtain ⟨es', hd', h1, h2, -⟩ := C93_drain h hk hn hr
  obtain rfl := drain_unique hd hd'
  have hE := entries_lists ops
  refine hE.unique ⟨hs, fun k v => ⟨fun hv => ?_, h2 k v⟩⟩ |>.symm
  have hm := (h1 k).1 ⟨v, hv⟩
  cases hc : contents ops k with
  | none => exact absurd hc hm
  | some w =>
    have e := (((SL.lists_toMap hs).2 k v).1 hv).symm.trans (((SL.lists_toMap hs).2 k w).1 (h2 k w hc))
    cases e
    rfl

/-- the keys of `bad3` and 20, in ascending order -/
def good3 : List (Op (U 16) Unit) := [.insert (k16 5) (), .insert (k16 10) (), .insert (k16 20) ()]

theorem same_tree : ∃ (t t' : Set16 (U 16)), Reaches good3 t ∧ Reaches bad3 t' ∧ t' = t := by
  refine ⟨_, _, ⟨_, rfl⟩, ⟨_, rfl⟩, ?_⟩
  refine congrArg₂ Tree.mk rfl (congrArg some (congrArg₂ _ rfl (congrArg some (congrArg₂ Prod.mk ?_
    (congrArg₂ _ (congrArg₂ _ rfl (funext fun j => ?_)) ?_)))))
  · decide +kernel
  · cases j with
    | zero => decide +kernel
    | succ j => rfl
  · decide +kernel

/-- **C93 refuted after removals.** 10, 20, 5, 20 are inserted and 20 is removed; the tree is then the same as after inserting
5, 10, 20 in this order, which is all correct.  So nothing in the tree tells that 20 should have gone, and no program can save
the right entries. -/
theorem C93_refuted_removals : ∃ (ops ops' : List (Op (U 16) Unit)) (t : Set16 (U 16)),
    AnswersThroughout (Set16 (U 16)) ops ∧ Reaches ops t ∧ Reaches ops' t ∧ contents ops ≠ contents ops' := by
  obtain ⟨t, t', h1, h2, rfl⟩ := same_tree
  refine ⟨good3, bad3, _, ?_, h1, h2, fun h => ?_⟩
  · exact (C89_decides (CheckFor.tree goodKey .byteSet .byteSet (.array goodIndex)) _).1 (by decide +kernel)
  · exact absurd (congrFun h (k16 20)) (by decide +kernel)

/-! Non-vacuity: a damaged tree, in which 20 is stored twice, with different values. -/

/-- 10, 20, 5, 20 again, and reads that are answered wrongly -/
def damaged : List (Op (U 16) Nat) :=
  [.insert (k16 10) 1, .insert (k16 20) 2, .insert (k16 5) 3, .maxVal, .successor (k16 10), .insert (k16 20) 4, .findSet (k16 5) 6]

example : ∀ op ∈ damaged, op.keeps = true := by decide
example : insertions damaged ≤ usizeMax := by decide +kernel
/-- it comes out with a key twice; saved are the entries that were put in -/
example : ∃ t : Map16 (U 16) Nat, Reaches damaged t ∧
    DrainsTo t [(k16 5, 6), (k16 10, 1), (k16 20, 2), (k16 20, 4)] ∧
    SortedKeys [(k16 5, 6), (k16 10, 1), (k16 20, 2), (k16 20, 4)] [k16 5, k16 10, k16 20] ∧
    lookUp t [k16 5, k16 10, k16 20] = .ok [some (k16 5, 6), some (k16 10, 1), some (k16 20, 4)] ∧
    entries damaged = [(k16 5, 6), (k16 10, 1), (k16 20, 4)] := by
  refine ⟨_, ⟨_, rfl⟩, rfl, ⟨by decide +kernel, fun k => ?_⟩, rfl, by decide +kernel⟩
  simp only [List.mem_cons, List.not_mem_nil, or_false, Prod.mk.injEq]
  constructor
  · rintro (rfl | rfl | rfl)
    · exact ⟨_, .inl ⟨rfl, rfl⟩⟩
    · exact ⟨_, .inr (.inl ⟨rfl, rfl⟩)⟩
    · exact ⟨_, .inr (.inr (.inl ⟨rfl, rfl⟩))⟩
  · rintro ⟨v, ⟨rfl, -⟩ | ⟨rfl, -⟩ | ⟨rfl, -⟩ | ⟨rfl, -⟩⟩ <;> simp
example {t : Map16 (U 16) Nat} (hr : Reaches damaged t) {es : List (U 16 × Nat)} (hd : DrainsTo t es) (ks : List (U 16))
    (hs : SortedKeys es ks) : lookUp t ks = .ok ((entries damaged).map some) :=
  (C93_rescue (crate16 Nat).1.2 (by decide) (by decide +kernel) hr hd hs).1

end Veb.Props
