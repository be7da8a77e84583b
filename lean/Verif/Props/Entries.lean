import Verif.Proof.Entries
import Verif.Props.Ledger

/-!
# C43: entries are neither lost, nor duplicated, nor taken apart

The defect of `Tree::insert` moves entries to wrong places, but it moves them whole: whatever the history, each entry
handed over is given back exactly once, with the value it was handed over with.
-/

set_option autoImplicit false

namespace Veb.Props

variable {T K V : Type} [LinearOrder K] [VebTree T K V]

/-- **C43.** After any history, popping the minimum until no tree is left gives back, in some order, exactly the entries
handed over and not yet given back. -/
theorem C43_conservation {ops : List (Op K V)} (h : Covered T ops) {t : Option T} {os : List (Out K V)}
    (hr : Exec.run none ops = .ok (t, os)) : ∃ es : List (K × V),
      Exec.run t (List.replicate es.length .removeMin) = .ok (none, es.map fun e => .kv (some e)) ∧
      (es : Multiset (K × V)) + taken ops os = given ops os := by
  obtain ⟨P, hl⟩ := h.phys
  obtain ⟨es, h1, h2⟩ := drain_min_ents (phys_run_of hl hr)
  refine ⟨es, h1, ?_⟩
  rw [h2, balanced_run (n := 0) (t := none) trivial ops (by simpa using hl) hr]
  exact zero_add _

/-- **C43 from the other end.** So does popping the maximum. -/
theorem C43_conservation_max {ops : List (Op K V)} (h : Covered T ops) {t : Option T} {os : List (Out K V)}
    (hr : Exec.run none ops = .ok (t, os)) : ∃ es : List (K × V),
      Exec.run t (List.replicate es.length .removeMax) = .ok (none, es.map fun e => .kv (some e)) ∧
      (es : Multiset (K × V)) + taken ops os = given ops os := by
  obtain ⟨P, hl⟩ := h.phys
  obtain ⟨es, h1, h2⟩ := drain_max_ents (phys_run_of hl hr)
  refine ⟨es, h1, ?_⟩
  rw [h2, balanced_run (n := 0) (t := none) trivial ops (by simpa using hl) hr]
  exact zero_add _

/-- **C43 for one call.** Every entry that a call answers was handed over, with this value, and has not been given back
before. -/
theorem C43_no_invented_entry {ops : List (Op K V)} {op : Op K V} (h : Covered T (ops ++ [op])) {t t' : Option T}
    {os : List (Out K V)} {o : Out K V} (hr : Exec.run none ops = .ok (t, os)) (hs : Exec.step t op = .ok (t', o))
    {e : K × V} (he : o.entry? = some e) : e ::ₘ taken ops os ≤ given ops os := by
  obtain ⟨P, hl⟩ := h.phys
  have hl' : P.limited → insertions ops + insertions [op] ≤ usizeMax := fun x => by
    have := hl x
    rwa [insertions, List.countP_append] at this
  have hW := phys_run_of (fun x => by have := hl' x; omega) hr
  have h1 := (balanced_step hW op hl' hs).2 e he
  have h2 := balanced_run (n := 0) (t := none) trivial ops (fun x => by have := hl' x; omega) hr
  obtain ⟨r, hr⟩ := Multiset.exists_cons_of_mem h1
  rw [hr, Multiset.cons_add] at h2
  rw [show given ops os = _ from ((zero_add _).symm.trans h2.symm : given ops os = e ::ₘ (r + taken ops os))]
  exact Multiset.cons_le_cons _ (Multiset.le_add_left _ _)

/-- **C43 for values.** Every value handed over comes back exactly once: in an answer, or when the tree is emptied. -/
theorem C43_values {ops : List (Op K V)} (h : Covered T ops) {t : Option T} {os : List (Out K V)}
    (hr : Exec.run none ops = .ok (t, os)) : ∃ es : List (K × V),
      Exec.run t (List.replicate es.length .removeMin) = .ok (none, es.map fun e => .kv (some e)) ∧
      ((es.map Prod.snd : List V) : Multiset V) + (taken ops os).map Prod.snd = (given ops os).map Prod.snd := by
  obtain ⟨es, h1, h2⟩ := C43_conservation h hr
  exact ⟨es, h1, by rw [← h2, Multiset.map_add]; rfl⟩

/-! Non-vacuity: a history that runs into the defect, with a replaced value and a value written by reference. -/

/-- 10, 20, 5, 20 again, then a write through `find_mut` -/
def badMap : List (Op (U 16) Nat) :=
  [.insert (k16 10) 1, .insert (k16 20) 2, .insert (k16 5) 3, .insert (k16 20) 4, .findSet (k16 20) 5, .removeMin]

example : Covered (Map16 (U 16) Nat) badMap := .uncounted (uncounted16 Nat).2
example : ∃ (t : Map16 (U 16) Nat) (os : List (Out (U 16) Nat)), Exec.run none badMap = .ok (some t, os) ∧
    taken badMap os = {(k16 20, 4), (k16 5, 3)} ∧
    given badMap os = {(k16 10, 1), (k16 20, 2), (k16 5, 3), (k16 20, 4), (k16 20, 5)} :=
  ⟨_, _, rfl, by decide +kernel, by decide +kernel⟩
/-- what is left: 20 twice, with two different values -/
example : ∃ (t : Map16 (U 16) Nat) (os : List (Out (U 16) Nat)), Exec.run none badMap = .ok (some t, os) ∧
    Exec.run (some t) (List.replicate 3 .removeMin) =
      .ok (none, [.kv (some (k16 10, 1)), .kv (some (k16 20, 2)), .kv (some (k16 20, 5))]) :=
  ⟨_, _, rfl, rfl⟩

end Veb.Props
