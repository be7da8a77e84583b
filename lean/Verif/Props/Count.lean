import Verif.SpecCount
import Verif.Proof.Heal
import Verif.Props.Rescue
import Verif.Props.IterAll
import Verif.Props.Iter

/-!
# C94: the counter of a tree shows the damage

`len` of a `SizedVebTree` counts what the tree stores, and the iterator shows what the tree can still find from left to right.
As long as nothing has been removed, the two agree only on a tree whose entries are the right ones.
-/

set_option autoImplicit false

namespace Veb.Props

variable {T K V : Type} [LinearOrder K] [VebTree T K V] {safe : (K → Prop) → K → Prop}

theorem none_notMem_map {α : Type} {n : Nat} {es : List α} (h : none ∉ es.map some ++ List.replicate (n - es.length) none) :
    n ≤ es.length := by
  by_contra hn
  refine h (List.mem_append_right _ ?_)
  rw [List.mem_replicate]
  exact ⟨by omega, rfl⟩

/-- what a counted tree stores: as many entries as it says, all of the map among them -/
theorem count_phys (h : CrateTree T K V safe) {ops : List (Op K V)} (hk : ∀ op ∈ ops, op.keeps = true)
    (hn : insertions ops ≤ usizeMax) {t : SizedVebTree T} (hr : Reaches ops t) :
    ∃ b : Multiset (K × V), b.card = t.len ∧ (∀ k v, contents ops k = some v → (k, v) ∈ b) ∧ t.len ≤ insertions ops ∧
      ∀ ss : List Side, ss.length ≤ usizeMax → ∀ (it : Iter (SizedVebTree T) K) (os : List (Option (K × V))),
        (Iter.new t).calls ss = .ok (it, os) → ∀ e, some e ∈ os → e ∈ b := by
  have hf := (C40_find h.sized ops hk hr).1
  obtain ⟨P⟩ := h.phys
  obtain ⟨os, hr⟩ := hr
  have hW := phys_run_of (T := SizedVebTree T) (fun _ => hn) hr
  have hsz : t.len = (P.ents t.tree).card := hW.1.2
  refine ⟨P.ents t.tree, hsz.symm, fun k v hv => ?_, ?_, fun ss hs it os hc e he => ?_⟩
  · obtain ⟨r, e1, e2⟩ := PhysTree.findE t k hW.1
    rw [hf k, hv] at e1
    cases e1
    exact e2 _ rfl
  · rw [hsz, ← P.bag_card]; exact hW.2
  · rcases Iter.calls_phys ss (it := Iter.new t) hW.1 (by simpa [Iter.new] using hs) (f := False) (b := False) trivial with
      ⟨it', os', h1, h2⟩ | ⟨h1, -, -⟩
    · rw [hc] at h1; cases h1
      exact h2 e he
    · rw [hc] at h1; cases h1

/-- **C94, the length.** As long as nothing is removed, `len` is at least the number of entries of the map. -/
theorem C94_len (h : CrateTree T K V safe) {ops : List (Op K V)} (hk : ∀ op ∈ ops, op.keeps = true)
    (hn : insertions ops ≤ usizeMax) {t : SizedVebTree T} (hr : Reaches ops t) :
    (entries ops).length ≤ t.len := by
  obtain ⟨b, h1, h2, -, -⟩ := count_phys h hk hn hr
  have hE := entries_lists ops
  have hnd : (entries ops).Nodup := hE.1.imp fun hlt e => absurd (e ▸ hlt) (lt_irrefl _)
  have : ((entries ops : List (K × V)) : Multiset (K × V)) ≤ b :=
    (Multiset.le_iff_subset (Multiset.coe_nodup.2 hnd)).2 fun e he => h2 e.1 e.2 ((hE.2 e.1 e.2).1 he)
  simpa [h1] using Multiset.card_le_card this

/-- **C94.** As long as nothing has been removed: if `next` answers an entry as often as `len` says, then these are the
entries of the map, in order and with their values; and the other way round. -/
theorem C94_count (h : CrateTree T K V safe) {ops : List (Op K V)} (hk : ∀ op ∈ ops, op.keeps = true)
    (hn : insertions ops ≤ usizeMax) {t : SizedVebTree T} (hr : Reaches ops t) :
    CountsUp t ↔ t.len = (entries ops).length ∧ ∃ it : Iter (SizedVebTree T) K,
      (Iter.new t).calls (List.replicate t.len .front) = .ok (it, (entries ops).map some) := by
  constructor
  · rintro ⟨it, os, hc, hnone⟩
    obtain ⟨b, h1, h2, h3, h4⟩ := count_phys h hk hn hr
    have hlen := C94_len h hk hn hr
    have hE := entries_lists ops
    have hsz : t.len ≤ usizeMax := h3.trans hn
    have h4 := h4 _ (by simpa using hsz) it os hc
    obtain ⟨es, rfl, g2, g3, -, g5⟩ := C44_ascending h.sized ops hk hr _ hc
    have hge := none_notMem_map hnone
    have hes : es.length = t.len := by omega
    have hel : (entries ops).length = t.len := by omega
    have hsort : SL.Sorted es := List.pairwise_map.1 g2
    have hnd : es.Nodup := hsort.imp fun hlt e => absurd (e ▸ hlt) (lt_irrefl _)
    have hle : (es : Multiset (K × V)) ≤ b := (Multiset.le_iff_subset (Multiset.coe_nodup.2 hnd)).2 fun e he =>
      h4 e (List.mem_append_left _ (List.mem_map.2 ⟨e, he, rfl⟩))
    have hb : (es : Multiset (K × V)) = b := Multiset.eq_of_le_of_card_le hle (by rw [h1, Multiset.coe_card, hes])
    have e : es = entries ops := by
      refine (SL.Lists.unique hE ⟨hsort, fun k v => ⟨fun hv => ?_, fun hv => ?_⟩⟩).symm
      · cases hc : contents ops k with
        | none => exact absurd hc (g3 _ hv)
        | some w =>
          have hw : (k, w) ∈ es := by rw [← Multiset.mem_coe, hb]; exact h2 k w hc
          have e := (((SL.lists_toMap hsort).2 k v).1 hv).symm.trans (((SL.lists_toMap hsort).2 k w).1 hw)
          cases e
          rfl
      · rw [← Multiset.mem_coe, hb]; exact h2 k v hv
    subst e
    exact ⟨hes.symm, it, by rw [hc, hes]; simp⟩
  · rintro ⟨-, it, h⟩
    exact ⟨it, _, h, by simp⟩

/-- **C94, the test is complete.** A tree that passes the test is in order, however it was built: whatever is done with it from
then on, as long as insertions are safe again, is answered as by an ordered map. -/
theorem C94_healthy (h : CrateTree T K V safe) {ops : List (Op K V)} (hk : ∀ op ∈ ops, op.keeps = true)
    (hn : insertions ops ≤ usizeMax) {t : SizedVebTree T} (hr : Reaches ops t) (hc : CountsUp t) (rest : List (Op K V))
    (hs : SL.SafeHist (sizedSafe safe) (entries ops) rest) :
    ∃ t' : Option (SizedVebTree T), Exec.run (some t) rest = .ok (t', (SL.run (entries ops) rest).2) := by
  obtain ⟨hlen, it, hc⟩ := (C94_count h hk hn hr).1 hc
  obtain ⟨J, P, L, rfl, H⟩ := h.heal
  obtain ⟨outs, hr⟩ := hr
  have hW := phys_run_of (T := SizedVebTree T) (fun _ => hn) hr
  obtain ⟨⟨g, hl⟩, -⟩ := look_run (T := SizedVebTree T) (t := none) (l := []) rfl ops hk hr
  have hl : SL.Lists (entries ops) (LookTree.look t) := hl
  have hsz : t.len = (P.ents t.tree).card := hW.1.2
  have hmem : ∀ j, (LookTree.look t).Mem j ↔ j ∈ (entries ops).map Prod.fst := fun j => by
    rw [Map.mem_iff, List.mem_map]
    exact ⟨fun ⟨v, hv⟩ => ⟨_, (hl.2 j v).2 hv, rfl⟩, fun ⟨e, he, e'⟩ => ⟨e.2, e' ▸ (hl.2 e.1 e.2).1 he⟩⟩
  have hp : ((entries ops).map Prod.fst).Pairwise (· < ·) := List.pairwise_map.2 hl.1
  have hnd : ((entries ops).map Prod.fst).Nodup := hp.imp fun h => ne_of_lt h
  have hbag : (PhysTree.bag t).Nodup := by
    have hle : (((entries ops).map Prod.fst : List K) : Multiset K) ≤ PhysTree.bag t :=
      (Multiset.le_iff_subset (Multiset.coe_nodup.2 hnd)).2 fun j hj => bag_of_look g hW.1 ((hmem j).2 hj)
    rw [← Multiset.eq_of_le_of_card_le hle]
    · exact Multiset.coe_nodup.2 hnd
    · rw [PhysTree.bag_card, Multiset.coe_card, List.length_map, ← hlen, hsz]; rfl
  have hnext : ∀ k, (LookTree.look t).Mem k → ∀ r, VebTree.successor t k = .ok r → NextKey (LookTree.look t) k r := by
    intro k hk
    obtain ⟨e, es, hes⟩ : ∃ e es, entries ops = e :: es := by
      cases he : entries ops with
      | nil => rw [hmem, he] at hk; cases hk
      | cons e es => exact ⟨e, es, rfl⟩
    rw [hlen, hes, List.length_cons, List.replicate_succ] at hc
    obtain ⟨i1, o, os', h1, h2, h3⟩ := Iter.calls_cons hc
    rw [List.map_cons, List.cons.injEq] at h3
    obtain ⟨rfl, rfl⟩ := h3
    simp only [Iter.call, Iter.next, Iter.new] at h1
    obtain ⟨e', h4, h5⟩ := R.bind_ok h1
    rcases i1 with ⟨t1, d1, m1⟩
    obtain ⟨e1, e2, -, e4⟩ := Iter.of_emit h5
    dsimp only at e1 e2
    cases e4
    subst e1 e2
    have hs := hl.1
    rw [hes] at hs
    refine Iter.front_next g es h2 (List.pairwise_cons.1 hs).2 (fun j hj hlt => ?_) k ?_
    · rw [hmem, hes] at hj
      rcases List.mem_cons.1 hj with rfl | hj
      · exact absurd hlt (lt_irrefl _)
      · exact hj
    · rw [hmem, hes] at hk
      exact List.mem_cons.1 hk
  obtain ⟨i, a⟩ := HealTree.heal t g hW.1 hbag hnext
  obtain ⟨t', r1, -⟩ := run_ok (T := SizedVebTree T) (t := some t) (l := entries ops) ⟨i, a ▸ hl⟩ rest hs
  exact ⟨t', r1⟩

/-- **C94, no false alarm.** After a safe history, whatever was removed, the test succeeds. -/
theorem C94_safe (h : CrateTree T K V safe) {ops : List (Op K V)} (hs : SL.SafeHist (sizedSafe safe) [] ops)
    {t : SizedVebTree T} (hr : Reaches ops t) : CountsUp t := by
  have ha := C28_answers_partial (CrateTree.sized h) ops t hs hr
  obtain ⟨L, rfl, -⟩ := h.lawful
  obtain ⟨I, e⟩ := reach_inv (T := SizedVebTree T) inferInstance hs hr
  have hsz : t.len = (entries ops).length := by
    rw [SizedVebTree.len, I.2]
    exact (e ▸ entries_lists ops : SL.Lists _ _).card
  have hu : (entries ops).length ≤ usizeMax := SL.run_small SL.sorted_nil (Nat.zero_le _) hs
  obtain ⟨it, h1, -⟩ := C28_forward ha hu t.len
  exact ⟨it, _, h1, by simp [hsz]⟩

/-- **C94 refuted after removals.** 10, 20, 5, 20 are inserted and 20 is removed: the test succeeds, and 20 is counted though
it should have gone. -/
theorem C94_refuted_removals : ∃ t : SizedVebTree (Set16 (U 16)), Reaches bad3 t ∧ CountsUp t ∧ t.len = 3 ∧
    (entries bad3).length = 2 := by
  refine ⟨_, ⟨_, rfl⟩, ⟨_, _, rfl, ?_⟩, rfl, ?_⟩ <;> decide +kernel

/-! Non-vacuity: a damaged tree does not pass, a tree built in ascending order does. -/

example : ∀ op ∈ damaged, op.keeps = true := by decide
example : ∃ t : SizedVebTree (Map16 (U 16) Nat), Reaches damaged t ∧ t.len = 4 ∧ (entries damaged).length = 3 ∧ ¬ CountsUp t := by
  refine ⟨_, ⟨_, rfl⟩, rfl, by decide +kernel, ?_⟩
  rintro ⟨it, os, h, hn⟩
  cases h
  revert hn
  decide +kernel
/-- 5 is inserted below 10 and 20, which damages the tree; 30 mends it -/
def mended : List (Op (U 16) Nat) := [.insert (k16 10) 1, .insert (k16 20) 2, .insert (k16 5) 3, .insert (k16 30) 4]

example : ∃ t : SizedVebTree (Map16 (U 16) Nat), Reaches (mended.take 3) t ∧ ¬ CountsUp t := by
  refine ⟨_, ⟨_, rfl⟩, ?_⟩
  rintro ⟨it, os, h, hn⟩
  cases h
  revert hn
  decide +kernel
theorem mended_counts : ∃ t : SizedVebTree (Map16 (U 16) Nat), Reaches mended t ∧ t.len = 4 ∧ CountsUp t :=
  ⟨_, ⟨_, rfl⟩, rfl, _, _, rfl, by decide +kernel⟩
/-- `C94_healthy` applies to the tree after 30 -/
example : ∃ t t' : _, Reaches mended t ∧ Exec.run (some (t : SizedVebTree (Map16 (U 16) Nat)))
    [.maxVal, .predecessor (k16 30), .remove (k16 30), .maxVal, .successor (k16 10)] =
    .ok (t', [.kv (some (k16 30, 4)), .kv (some (k16 20, 2)), .kv (some (k16 30, 4)), .kv (some (k16 20, 2)),
      .kv (some (k16 20, 2))]) := by
  obtain ⟨t, h1, -, h2⟩ := mended_counts
  obtain ⟨t', h⟩ := C94_healthy (crate16 Nat).1.2 (by decide) (by decide +kernel) h1 h2
    [.maxVal, .predecessor (k16 30), .remove (k16 30), .maxVal, .successor (k16 10)] (by simp [SL.SafeHist])
  exact ⟨t, t', h1, h.trans (congrArg (fun l => Except.ok (t', l)) (by decide +kernel))⟩

end Veb.Props
