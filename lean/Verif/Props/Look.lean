import Verif.Proof.Look
import Verif.Props.Ledger

/-!
# C40: searching without removals

If nothing is ever removed, the defect of `Tree::insert` does not show in `find`, `find_mut`, the minimum, `is_monad`
and `into_monad`, whatever the order of the insertions.  It does show in everything else.
-/

set_option autoImplicit false

namespace Veb.Props

variable {T K V : Type} [LinearOrder K] [VebTree T K V] {safe : (K → Prop) → K → Prop}

/-- **C40.** In every history without removals, on every tree type, every `find`, `find_mut` (with a write through
it), `min_val`, `min_val_mut` (with a write through it), `is_monad` and `into_monad` is answered as by an ordered map,
and no tree is left exactly when the map is empty. -/
theorem C40_lookup (h : CrateTree T K V safe) (ops : List (Op K V)) (hk : ∀ op ∈ ops, op.keeps = true)
    {t : Option T} {os : List (Out K V)} (hr : Exec.run none ops = .ok (t, os)) :
    AgreeOn Op.pointwise ops os (SL.run [] ops).2 ∧ (t = none ↔ entries ops = []) := by
  obtain ⟨L⟩ := h.look
  obtain ⟨h1, h2⟩ := look_run (T := T) (t := none) (l := []) rfl ops hk hr
  refine ⟨h2, ?_⟩
  obtain _ | t := t
  · exact ⟨fun _ => h1, fun _ => rfl⟩
  · refine ⟨fun h => (by cases h), fun h => ?_⟩
    obtain ⟨k, hk⟩ := L.nonempty t h1.1
    have h3 : SL.Lists (entries ops) _ := h1.2
    rw [h3.nil_iff.1 h] at hk
    exact absurd hk (Map.mem_empty k)

/-- **C40 for every argument.** On the tree left by such a history, `find` is right about every key, and `min_val` is
the least entry. -/
theorem C40_find (h : CrateTree T K V safe) (ops : List (Op K V)) (hk : ∀ op ∈ ops, op.keeps = true) {t : T}
    (hr : Reaches ops t) :
    (∀ k, VebTree.find t k = .ok ((contents ops k).map fun v => (k, v))) ∧
    ∃ kv, VebTree.minVal t = .ok kv ∧ (contents ops).IsMin kv := by
  obtain ⟨L⟩ := h.look
  obtain ⟨os, hr⟩ := hr
  obtain ⟨⟨h1, h2⟩, -⟩ := look_run (T := T) (t := none) (l := []) rfl ops hk hr
  have h3 : contents ops = L.look t := SL.Lists.toMap_eq h2
  rw [h3]
  exact ⟨fun k => L.find t k h1, L.minVal t h1⟩

/-- **C40 for `successor`.** On such a tree `successor` can miss the next key (`C40_sharp`), but what it answers is a key
of the map that is greater than the one asked for. -/
theorem C40_successor (h : CrateTree T K V safe) (ops : List (Op K V)) (hk : ∀ op ∈ ops, op.keeps = true) {t : T}
    (hr : Reaches ops t) {k : K} {e : K × V} (he : VebTree.successor t k = .ok (some e)) :
    k < e.1 ∧ (contents ops).Mem e.1 := by
  obtain ⟨L⟩ := h.look
  obtain ⟨os, hr⟩ := hr
  obtain ⟨⟨h1, h2⟩, -⟩ := look_run (T := T) (t := none) (l := []) rfl ops hk hr
  rw [show contents ops = L.look t from SL.Lists.toMap_eq h2]
  exact L.successor t k e h1 he

/-- **C40 is sharp**: insertions alone are enough for wrong answers of `insert` itself, `max_val`, `predecessor` and
`successor`; and one removal is enough for a wrong answer of `find`. -/
theorem C40_sharp :
    ¬ RunsLikeMap (Set16 (U 16)) (bad ++ [.maxVal]) ∧
    ¬ RunsLikeMap (Set16 (U 16)) (bad ++ [.predecessor (k16 10)]) ∧
    ¬ RunsLikeMap (Set16 (U 16)) (bad ++ [.successor (k16 10)]) ∧
    ¬ RunsLikeMap (Set16 (U 16)) bad2 ∧
    ¬ RunsLikeMap (Set16 (U 16)) (bad ++ [.insert (k16 20) (), .remove (k16 20), .find (k16 20)]) := by
  refine ⟨?_, ?_, ?_, ?_, ?_⟩ <;>
  · rintro ⟨t, h, -⟩
    have := congrArg (Except.map Prod.snd) h
    revert this
    show ¬ outputs (Set16 (U 16)) _ = .ok (SL.run [] _).2
    decide +kernel

/-! Non-vacuity. -/

/-- the history `bad2` is covered, and 20 is found after it although the maximum is wrong in between -/
example : (∀ op ∈ bad2, op.keeps = true) ∧ (∀ op ∈ bad2 ++ [.find (k16 20), .minVal], op.keeps = true) ∧
    Op.pointwise (.find (k16 20) : Op (U 16) Unit) = true := by
  refine ⟨by decide +kernel, by decide +kernel, rfl⟩
/-- the next key after 6 is 10, the answer is 20 -/
example : ∃ t : Set16 (U 16), Reaches bad t ∧ VebTree.successor t (k16 6) = .ok (some (k16 20, ())) :=
  ⟨_, ⟨_, rfl⟩, rfl⟩
example : ∃ t : Set16 (U 16), Reaches bad2 t ∧ VebTree.find t (k16 20) = .ok (some (k16 20, ())) ∧
    VebTree.find t (k16 21) = .ok none := by
  obtain ⟨t, ht⟩ := bad2_reaches
  have h := (C40_find (crate16 Unit).1.1 bad2 (by decide +kernel) ht).1
  exact ⟨t, ht, by rw [h, show contents bad2 (k16 20) = some () from by decide +kernel]; rfl,
    by rw [h, show contents bad2 (k16 21) = none from by decide +kernel]; rfl⟩

end Veb.Props
