import Verif.Proof.Ledger
import Verif.Props.NoPanic

/-!
# C37 – C39: what survives the defect of `Tree::insert`

The order of a tree can be broken (`C17_refuted`), but the stored keys are never miscounted: whatever the history,
the keys in the tree are exactly those that the answers account for.
-/

set_option autoImplicit false

namespace Veb.Props

variable {T K V : Type} [LinearOrder K] [VebTree T K V]

/-- **C37.** After any history, popping the minimum until no tree is left gives back, in some order, exactly the keys
accounted for: those inserted, without those reported as replaced or removed. -/
theorem C37_conservation {ops : List (Op K V)} (h : Covered T ops) {t : Option T} {os : List (Out K V)}
    (hr : Exec.run none ops = .ok (t, os)) : ∃ es : List (K × V),
      Exec.run t (List.replicate es.length .removeMin) = .ok (none, es.map fun e => .kv (some e)) ∧
      ((es.map Prod.fst : List K) : Multiset K) = ledger 0 ops os := by
  obtain ⟨P, hl⟩ := h.phys
  obtain ⟨es, h1, h2⟩ := drain_min (phys_run_of hl hr)
  exact ⟨es, h1, h2.trans (ledger_run (n := 0) (t := none) trivial ops (by simpa using hl) hr)⟩

/-- **C37 from the other end.** So does popping the maximum. -/
theorem C37_conservation_max {ops : List (Op K V)} (h : Covered T ops) {t : Option T} {os : List (Out K V)}
    (hr : Exec.run none ops = .ok (t, os)) : ∃ es : List (K × V),
      Exec.run t (List.replicate es.length .removeMax) = .ok (none, es.map fun e => .kv (some e)) ∧
      ((es.map Prod.fst : List K) : Multiset K) = ledger 0 ops os := by
  obtain ⟨P, hl⟩ := h.phys
  obtain ⟨es, h1, h2⟩ := drain_max (phys_run_of hl hr)
  exact ⟨es, h1, h2.trans (ledger_run (n := 0) (t := none) trivial ops (by simpa using hl) hr)⟩

/-- **C37 for one call.** Every key that a call answers is accounted for at that moment. -/
theorem C37_no_invented_key {ops : List (Op K V)} {op : Op K V} (h : Covered T (ops ++ [op])) {t t' : Option T}
    {os : List (Out K V)} {o : Out K V} (hr : Exec.run none ops = .ok (t, os)) (hs : Exec.step t op = .ok (t', o))
    {k : K} (hk : o.key? = some k) : k ∈ ledger 0 ops os := by
  obtain ⟨P, hl⟩ := h.phys
  have hl' : P.limited → insertions ops + insertions [op] ≤ usizeMax := fun x => by
    have := hl x
    rwa [insertions, List.countP_append] at this
  have hW := phys_run_of (fun x => by have := hl' x; omega) hr
  have h1 := (ledger_step hW op hl' hs).2 k hk
  rwa [ledger_run (n := 0) (t := none) trivial ops (fun x => by have := hl' x; omega) hr] at h1

/-- **C37 for removals.** A removal succeeds exactly for the keys accounted for, and answers the key asked for. -/
theorem C37_remove_iff {ops : List (Op K V)} (h : Covered T ops) {t : T} {os : List (Out K V)}
    (hr : Exec.run none ops = .ok (some t, os)) (k : K) :
    (k ∈ ledger 0 ops os → ∃ o v, VebTree.remove t k = .ok (.Ok (o, (k, v)))) ∧
    (k ∉ ledger 0 ops os → VebTree.remove t k = .ok (.Err t)) := by
  obtain ⟨P, hl⟩ := h.phys
  obtain ⟨hW, -⟩ := phys_run_of hl hr
  have hb : P.bag t = _ := ledger_run (n := 0) (t := none) trivial ops (by simpa using hl) hr
  change P.bag t = ledger 0 ops os at hb
  rw [← hb]
  rcases P.remove t k hW with ⟨h1, h2⟩ | ⟨o, v, h1, h2⟩
  · exact ⟨fun x => absurd x h2, fun _ => h1⟩
  · refine ⟨fun _ => ⟨o, v, h1⟩, fun x => absurd ?_ x⟩
    cases o with
    | none => rw [show P.bag t = {k} from h2]; exact Multiset.mem_singleton_self _
    | some t' => rw [h2.2]; exact Multiset.mem_cons_self _ _

/-- **C38.** `SizedVebTree::len` counts the keys accounted for, whatever the history. -/
theorem C38_len {safe : (K → Prop) → K → Prop} (h : CrateTree T K V safe) {ops : List (Op K V)}
    (hn : insertions ops ≤ usizeMax) {t : SizedVebTree T} {os : List (Out K V)}
    (hr : Exec.run none ops = .ok (some t, os)) : t.len = (ledger 0 ops os).card := by
  obtain ⟨P⟩ := h.phys
  obtain ⟨hW, -⟩ := phys_run_of (fun _ => hn) hr
  have hb : P.bag t.tree = _ :=
    ledger_run (T := SizedVebTree T) (n := 0) (t := none) trivial ops (by simpa using fun _ => hn) hr
  exact hW.2.trans ((PhysTree.bag_card _).symm.trans (congrArg Multiset.card hb))

/-- **C38 for hints.** So do the two bounds of `len_hint`, whatever the tree type: the lower bound does not exceed the
number of keys accounted for, and the upper bound, if given, equals it. -/
theorem C38_len_hint {ops : List (Op K V)} (h : Covered T ops) {t : T} {os : List (Out K V)}
    (hr : Exec.run none ops = .ok (some t, os)) : ∃ lo hi, VebTree.lenHint t = .ok (lo, hi) ∧
      lo ≤ (ledger 0 ops os).card ∧ ∀ n, hi = some n → n = (ledger 0 ops os).card := by
  obtain ⟨P, hl⟩ := h.phys
  obtain ⟨hW, -⟩ := phys_run_of hl hr
  have hb : P.bag t = _ := ledger_run (n := 0) (t := none) trivial ops (by simpa using hl) hr
  change P.bag t = ledger 0 ops os at hb
  obtain ⟨⟨lo, hi⟩, h1, h2, h3⟩ := P.lenHint t hW
  rw [hb] at h2 h3
  exact ⟨lo, hi, h1, h2, h3⟩

/-- **C38 for singletons.** `is_monad` and `into_monad` recognise a single key. -/
theorem C38_monad {ops : List (Op K V)} (h : Covered T ops) {t : T} {os : List (Out K V)}
    (hr : Exec.run none ops = .ok (some t, os)) :
    VebTree.isMonad t = .ok (decide ((ledger 0 ops os).card = 1)) ∧
    ((∃ kv, VebTree.intoMonad t = .ok (.Ok kv)) ↔ (ledger 0 ops os).card = 1) := by
  obtain ⟨P, hl⟩ := h.phys
  obtain ⟨hW, -⟩ := phys_run_of hl hr
  have hb : P.bag t = _ := ledger_run (n := 0) (t := none) trivial ops (by simpa using hl) hr
  change P.bag t = ledger 0 ops os at hb
  rw [← hb]
  obtain ⟨b, h1, h2⟩ := P.isMonad t hW
  constructor
  · rw [h1]; congr 1; rw [Bool.eq_iff_iff, h2, decide_eq_true_iff]
  · rcases P.intoMonad t hW with ⟨k, v, e, he⟩ | ⟨e, he⟩
    · exact ⟨fun _ => by rw [he]; rfl, fun _ => ⟨_, e⟩⟩
    · exact ⟨fun ⟨kv, x⟩ => by rw [e] at x; exact (by cases x), fun x => absurd x he⟩

/-- **C39.** As long as neither end is popped, no key is lost, whatever the order of the insertions: every key that
should be stored can be removed. -/
theorem C39_no_key_lost {ops : List (Op K V)} (h : Covered T ops) (hp : noPops ops = true) {t : Option T}
    {os : List (Out K V)} (hr : Exec.run none ops = .ok (t, os)) {k : K} (hk : (contents ops).Mem k) :
    ∃ t0 o v, t = some t0 ∧ VebTree.remove t0 k = .ok (.Ok (o, (k, v))) := by
  obtain ⟨P, hl⟩ := h.phys
  have hW := phys_run_of hl hr
  have hm : (entries ops).keys k :=
    ((SL.lists_toMap (SL.sorted_run SL.sorted_nil ops)).mem_key).1 hk
  have hb := kept_run (T := T) (n := 0) (t := none) trivial ops hp (by simpa using hl) hr (l := []) SL.sorted_nil
    (by rintro j ⟨v, hv⟩; cases hv) k hm
  obtain _ | t := t
  · exact absurd hb (Multiset.notMem_zero k)
  · rcases P.remove t k hW.1 with ⟨-, h2⟩ | ⟨o, v, h1, -⟩
    · exact absurd hb h2
    · exact ⟨t, o, v, rfl, h1⟩

/-- **C39 refuted for histories that pop**: 10, 20, 5 are inserted, the minimum is popped twice, and 20 has gone instead
of 10. -/
theorem C39_refuted_pops : ∃ t : Set16 (U 16),
    Reaches (bad ++ [.removeMin, .removeMin]) t ∧ (contents (bad ++ [.removeMin, .removeMin])).Mem (k16 20) ∧
    VebTree.remove t (k16 20) = .ok (.Err t) := by
  refine ⟨_, ⟨_, rfl⟩, ?_, rfl⟩
  rw [Map.Mem, show contents (bad ++ [.removeMin, .removeMin]) (k16 20) = some () from by decide +kernel]
  exact Option.some_ne_none _

/-! Non-vacuity: histories that run into the defect are covered. -/

example : Covered (Set16 (U 16)) bad2 := .uncounted (uncounted16 Unit).1
/-- 20 is stored twice after `bad2`, and the books say so -/
example : ∃ (t : Set16 (U 16)) (os : List (Out (U 16) Unit)), Exec.run none bad2 = .ok (some t, os) ∧
    ledger 0 bad2 os = {k16 20, k16 20, k16 10, k16 5} := ⟨_, _, rfl, by decide +kernel⟩
example : ∃ (t : SizedVebTree (Set16 (U 16))) (os : List (Out (U 16) Unit)),
    Exec.run none bad2 = .ok (some t, os) ∧ t.len = 4 := ⟨_, _, rfl, rfl⟩
example : noPops bad3 = true ∧ (contents bad).Mem (k16 20) := ⟨by decide +kernel, bad_20⟩

end Veb.Props
