import Verif.Proof.LoggedRun
import Verif.Props.Work
import Verif.Props.Honest

/-!
# C69: the user sees the calls that the cost log says

C66 bounds what the cost log says.  Here the keys write a log of their own: every comparison, split and join that runs is
written down by the code that runs.  What they write is the cost log, call for call and in its order.
-/

set_option autoImplicit false

namespace Veb.Props

section
variable {T K V : Type} [VebTree T K V] [TickTree T K V] [ActTree (List Ev) T K V]

/-- **C69.** A history over keys that write a log returns what it returns without, and leaves in the log the comparisons,
splits and joins of the cost log, in this order. -/
theorem C69_log (h : LoggedTree T K V) (ops : List (Op K V)) (log : List Ev) :
    ActExec.run (none : Option T) ops log =
      (Exec.run none ops).map fun r => (r, log ++ (historyLog (none : Option T) ops).filter Ev.ofKey) := by
  obtain ⟨⟨P⟩, _⟩ := h.sim
  have := logged_run (P := P) (t := none) allO_none ops log
  cases e : Exec.run (none : Option T) ops with
  | error p => rw [e] at this; exact this
  | ok r => rw [e] at this; exact this.2

theorem same_log {α : Type} {Q : α → Prop} {x : Act (List Ev) α} {r : Tk α} (h : Logs Q x r) : SameLog x r := by
  intro log
  have := h log
  obtain ⟨run, l⟩ := r
  cases run with
  | error p => exact this
  | ok a => exact this.2

/-- **C69 for every method**, on every tree a history leads to. -/
theorem C69_methods (h : LoggedTree T K V) {ops : List (Op K V)} {t : T} {os : List (Out K V)}
    (hr : Exec.run (none : Option T) ops = .ok (some t, os)) : LogsRight t := by
  obtain ⟨⟨P⟩, _⟩ := h.sim
  have := logged_run (P := P) (t := none) allO_none ops []
  rw [hr] at this
  have ht := this.1 t rfl
  exact ⟨same_log (P.isMonad t ht), same_log (P.lenHint t ht), same_log (P.intoMonad t ht), same_log (P.minVal t ht),
    same_log (P.minValMut t ht), same_log (P.maxVal t ht), same_log (P.maxValMut t ht), fun k => same_log (P.find t k ht),
    fun k => same_log (P.findMut t k ht), fun k => same_log (P.predecessor t k ht),
    fun k => same_log (P.predecessorMut t k ht), fun k => same_log (P.successor t k ht),
    fun k => same_log (P.successorMut t k ht), fun k v => same_log (P.insert t k v ht), fun k => same_log (P.remove t k ht),
    same_log (P.removeMin t ht), same_log (P.removeMax t ht)⟩

omit [VebTree T K V] [ActTree (List Ev) T K V] in
theorem opCost_log (w : Ev → Nat) (t : Option T) (op : Op K V) : opCost w t op = ((opLog t op).map w).sum := by
  obtain _ | t := t
  · cases op <;> rfl
  · cases op <;> rfl

omit [ActTree (List Ev) T K V] in
/-- The cost log of a history adds up to what C66 bounds. -/
theorem totalCost_log (w : Ev → Nat) (t : Option T) (ops : List (Op K V)) :
    totalCost w t ops = ((historyLog t ops).map w).sum := by
  induction ops generalizing t with
  | nil => rfl
  | cons op ops ih =>
    show opCost w t op + (match Exec.step t op with
      | .ok (t', _) => totalCost w t' ops
      | .error _ => 0) = ((opLog t op ++ match Exec.step t op with
      | .ok (t', _) => historyLog t' ops
      | .error _ => []).map w).sum
    rw [List.map_append, List.sum_append_nat, opCost_log]
    cases Exec.step t op with
    | error p => rfl
    | ok r => exact congrArg (_ + ·) (ih r.1)

theorem count_priceOf (e : Ev) (l : List Ev) : l.count e = (l.map (priceOf e)).sum := by
  induction l with
  | nil => rfl
  | cons a l ih =>
    rw [List.count_cons, List.map_cons, List.sum_cons, ih, priceOf]
    by_cases h : a = e
    · simp [h, Nat.add_comm]
    · simp [h]

/-- **C69 and C66.** How often code of the user runs: over a history on `n` levels at most `5 * n - 2` comparisons, `n`
splits and `n` joins for each operation. -/
theorem C69_calls (h : LoggedTree T K V) {b N n r : Nat} (hn : Nested b N T K V n r) {ops : List (Op K V)} {log : List Ev}
    {a : Option T × List (Out K V)} (hr : ActExec.run (none : Option T) ops [] = .ok (a, log)) :
    log.count .cmp ≤ ops.length * (5 * n - 2) ∧ log.count .split ≤ ops.length * n ∧ log.count .join ≤ ops.length * n ∧
      ∀ e ∈ log, e = .cmp ∨ e = .split ∨ e = .join := by
  rw [C69_log h] at hr
  have hl : log = (historyLog (none : Option T) ops).filter Ev.ofKey := by
    cases e : Exec.run (none : Option T) ops with
    | error p => rw [e] at hr; cases hr
    | ok r => rw [e] at hr; cases hr; rfl
  have key : ∀ e : Ev, e.ofKey = true → log.count e = totalCost (priceOf e) (none : Option T) ops := fun e he => by
    rw [hl, List.count_filter he, count_priceOf, totalCost_log]
  refine ⟨?_, ?_, ?_, fun e he => ?_⟩
  · rw [key .cmp rfl]
    simpa [priceOf] using C66_history hn (priceOf .cmp) (m := 0) (fun k _ => Nat.le_refl _) ops
  · rw [key .split rfl]
    simpa [priceOf] using C66_history hn (priceOf .split) (m := 0) (fun k _ => Nat.le_refl _) ops
  · rw [key .join rfl]
    simpa [priceOf] using C66_history hn (priceOf .join) (m := 0) (fun k _ => Nat.le_refl _) ops
  · rw [hl] at he
    have := (List.mem_filter.1 he).2
    cases e <;> first | exact .inl rfl | exact .inr (.inl rfl) | exact .inr (.inr rfl) | cases this
end

/-! ## The hypotheses are met -/

theorem logged16 {V : Type} : LoggedTree (Map16 (U 16) V) (U 16) V := .tree .byteSet .byteMap .array
theorem logged16s : LoggedTree (Set16 (U 16)) (U 16) Unit := .tree .byteSet .byteSet .array
theorem logged32 {V : Type} :
    LoggedTree (SizedVebTree (Box (Tree (U 32) V (Set16 (U 16)) (HashMap (U 16) (Map16 (U 16) V))))) (U 32) V :=
  .sized (.box (.tree logged16s logged16 .hash))

/-- This history calls code of the keys 26 times. -/
example : ((ActExec.run (none : Option (Map16 (U 16) Nat)) sample ([] : List Ev)).map fun r => r.2.length) = .ok 26 := by decide +kernel
example {log : List Ev} {a : Option (Map16 (U 16) Nat) × List (Out (U 16) Nat)} (h : ActExec.run none sample [] = .ok (a, log)) :
    log.count .cmp ≤ sample.length * (5 * 1 - 2) := (C69_calls logged16 (nested16 (U 16) Nat (Nat.le_refl _)).2 h).1

/-! ## Whole logs

Visits, calls of collections and new collections are no code of the user; these are the complete logs of a history with
every operation, one list for each operation. -/

/-- every operation, on one to six keys -/
def everyOp : List (Op (U 16) Nat) :=
  let u := fun n => U.lit (w := 16) n
  [.insert (u 300) 1, .isMonad, .minVal, .maxVal, .minSet 9, .maxSet 8, .find (u 300), .insert (u 300) 2, .find (u
  5), .insert (u 4000) 3, .insert (u 301) 4, .insert (u 302) 4, .insert (u 1301) 4, .insert (u 301) 5, .minVal,
  .maxVal, .minSet 9, .maxSet 8, .isMonad, .intoMonad, .find (u 301), .find (u 4000), .find (u 2000), .find (u 310),
  .find (u 10), .findSet (u 301) 6, .findSet (u 4000) 6, .findSet (u 2000) 6, .findSet (u 310) 6, .findSet (u 300)
  6, .predecessor (u 4000), .predecessor (u 5000), .predecessor (u 302), .predecessor (u 1301), .predecessor (u
  301), .predecessor (u 300), .predecessor (u 2000), .successor (u 4000), .successor (u 50), .successor (u 301),
  .successor (u 302), .successor (u 1301), .successor (u 300), .successor (u 2000), .predecessorSet (u 4000) 1,
  .predecessorSet (u 5000) 1, .predecessorSet (u 302) 1, .predecessorSet (u 1301) 1, .predecessorSet (u 301) 1,
  .predecessorSet (u 300) 1, .predecessorSet (u 2000) 1, .successorSet (u 4000) 1, .successorSet (u 50) 1,
  .successorSet (u 301) 1, .successorSet (u 302) 1, .successorSet (u 1301) 1, .successorSet (u 300) 1, .successorSet
  (u 2000) 1, .remove (u 6), .remove (u 2000), .remove (u 310), .remove (u 302), .remove (u 4000), .removeMin,
  .removeMax, .insert (u 800) 1, .insert (u 900) 1, .insert (u 10000) 1, .remove (u 800), .remove (u 900), .remove
  (u 7), .removeMax, .removeMax, .removeMin, .insert (u 1) 1, .insert (u 0) 0, .insert (u 5) 0, .insert (u 6) 0,
  .insert (u 7) 0, .insert (u 8) 0, .removeMin, .removeMax, .remove (u 5), .remove (u 6), .intoMonad, .minVal,
  .remove (u 1)]

/-- the log of each operation -/
def logEach {T K V : Type} [VebTree T K V] [TickTree T K V] (t : Option T) : List (Op K V) → List (List Ev)
  | [] => []
  | op :: ops => opLog t op :: match Exec.step t op with
    | .ok (t', _) => logEach t' ops
    | .error _ => []

section
local notation "v" => Ev.visit
local notation "c" => Ev.cmp
local notation "s" => Ev.split
local notation "j" => Ev.join
local notation "k" => Ev.call
local notation "m" => Ev.make

example : logEach (none : Option (Map16 (U 16) Nat)) everyOp =
    [[v], [v], [v], [v], [v], [v], [v, c], [v, c], [v, c], [v, c], [v, c, c, s, v, k, m 256, v], [v, c, c, s, k, v],
    [v, c, c, s, k, v, v], [v, c, c, s, k, v, j], [v], [v], [v], [v], [v], [v, v], [v, c, c, s, k, v, j], [v, c, c],
    [v, c, c, s, k], [v, c, c, s, k, v], [v, c], [v, c, c, s, k, v, j], [v, c, c], [v, c, c, s, k], [v, c, c, s, k,
    v], [v, c], [v, c, c, v, k, v, j], [v, c, c], [v, c, c, s, k, v, j], [v, c, c, s, k, v, v, k, v, j], [v, c, c,
    s, k, v, v], [v, c], [v, c, c, s, k, v, k, v, j], [v, c, c], [v, c], [v, c, c, c, s, k, v, j], [v, c, c, c, s,
    k, v, v, k, v, j], [v, c, c, c, s, k, v, v], [v, c, c, c, v, k, v, j], [v, c, c, c, s, k, v], [v, c, c, c, v, k,
    v, j], [v, c, c], [v, c, c, s, k, v, j], [v, c, c, s, k, v, v, k, v, j], [v, c, c, s, k, v, v], [v, c], [v, c,
    c, s, k, v, k, v, j], [v, c, c], [v, c], [v, c, c, c, s, k, v, j], [v, c, c, c, s, k, v, v, k, v, j], [v, c, c,
    c, s, k, v, v], [v, c, c, c, v, k, v, j], [v, c, c, c, s, k, v], [v, c, c, s, k], [v, c, c, s, k], [v, c, c, s,
    k, v], [v, c, c, s, k, v, j], [v, c, c, v, k, v, j, v], [v, v, k, v, j], [v], [v, c], [v, c, c, s, v, k, m 256,
    v], [v, c, c, s, k, v], [v, c, c, s, k, v, j], [v, c, c, s, k, v, j], [v, c, c], [v], [v], [], [v], [v, c], [v,
    c, c, s, v, k, m 256, v], [v, c, c, s, k, v], [v, c, c, s, k, v], [v, c, c, s, k, v], [v, v, k, v, j], [v, v, k,
    v, j], [v, c, c, s, k, v, j], [v, c, c, s, k, v, j], [v, v], [v], [v, c, v]] := by
  decide +kernel
example : logEach (none : Option (SizedVebTree (Box (Tree (U 16) Nat (Box ByteSet) (Box (HashMap (U 8) (Box (ByteMap Nat)))))))) everyOp =
    [[v, v, v], [v, v, v], [v, v, v], [v, v, v], [v, v, v], [v, v, v], [v, v, v, c], [v, v, v, c], [v, v, v, c], [v,
    v, v, c], [v, v, v, c, c, s, v, v, k, m 0, v, v], [v, v, v, c, c, s, k, v, v], [v, v, v, c, c, s, k, v, v, v,
    v], [v, v, v, c, c, s, k, v, v, j], [v, v, v], [v, v, v], [v, v, v], [v, v, v], [v, v, v], [v, v, v, v], [v, v,
    v, c, c, s, k, v, v, j], [v, v, v, c, c], [v, v, v, c, c, s, k], [v, v, v, c, c, s, k, v, v], [v, v, v, c], [v,
    v, v, c, c, s, k, v, v, j], [v, v, v, c, c], [v, v, v, c, c, s, k], [v, v, v, c, c, s, k, v, v], [v, v, v, c],
    [v, v, v, c, c, v, v, k, v, v, j], [v, v, v, c, c], [v, v, v, c, c, s, k, v, v, j], [v, v, v, c, c, s, k, v, v,
    v, v, k, v, v, j], [v, v, v, c, c, s, k, v, v, v, v], [v, v, v, c], [v, v, v, c, c, s, k, v, v, k, v, v, j], [v,
    v, v, c, c], [v, v, v, c], [v, v, v, c, c, c, s, k, v, v, j], [v, v, v, c, c, c, s, k, v, v, v, v, k, v, v, j],
    [v, v, v, c, c, c, s, k, v, v, v, v], [v, v, v, c, c, c, v, v, k, v, v, j], [v, v, v, c, c, c, s, k, v, v], [v,
    v, v, c, c, c, v, v, k, v, v, j], [v, v, v, c, c], [v, v, v, c, c, s, k, v, v, j], [v, v, v, c, c, s, k, v, v,
    v, v, k, v, v, j], [v, v, v, c, c, s, k, v, v, v, v], [v, v, v, c], [v, v, v, c, c, s, k, v, v, k, v, v, j], [v,
    v, v, c, c], [v, v, v, c], [v, v, v, c, c, c, s, k, v, v, j], [v, v, v, c, c, c, s, k, v, v, v, v, k, v, v, j],
    [v, v, v, c, c, c, s, k, v, v, v, v], [v, v, v, c, c, c, v, v, k, v, v, j], [v, v, v, c, c, c, s, k, v, v], [v,
    v, v, c, c, s, k], [v, v, v, c, c, s, k], [v, v, v, c, c, s, k, v, v], [v, v, v, c, c, s, k, v, v, j], [v, v, v,
    c, c, v, v, k, v, v, j, v, v], [v, v, v, v, v, k, v, v, j], [v, v, v], [v, v, v, c], [v, v, v, c, c, s, v, v, k,
    m 0, v, v], [v, v, v, c, c, s, k, v, v], [v, v, v, c, c, s, k, v, v, j], [v, v, v, c, c, s, k, v, v, j], [v, v,
    v, c, c], [v, v, v], [v, v, v], [], [v, v, v], [v, v, v, c], [v, v, v, c, c, s, v, v, k, m 0, v, v], [v, v, v,
    c, c, s, k, v, v], [v, v, v, c, c, s, k, v, v], [v, v, v, c, c, s, k, v, v], [v, v, v, v, v, k, v, v, j], [v, v,
    v, v, v, k, v, v, j], [v, v, v, c, c, s, k, v, v, j], [v, v, v, c, c, s, k, v, v, j], [v, v, v, v], [v, v, v],
    [v, v, v, c, v]] := by
  decide +kernel
example : logEach (none : Option (Tree (U 16) Nat (BTreeMap (U 8) Unit) (ByteMap (SizedVebTree (BTreeMap (U 8) Nat))))) everyOp =
    [[v], [v], [v], [v], [v], [v], [v, c], [v, c], [v, c], [v, c], [v, c, c, s, v, v, k, m 0, v], [v, c, c, s, k, v,
    v], [v, c, c, s, k, v, v, v], [v, c, c, s, k, v, v, j], [v], [v], [v], [v], [v], [v, v], [v, c, c, s, k, v, v,
    j], [v, c, c], [v, c, c, s, k], [v, c, c, s, k, v, v], [v, c], [v, c, c, s, k, v, v, j], [v, c, c], [v, c, c, s,
    k], [v, c, c, s, k, v, v], [v, c], [v, c, c, v, k, v, v, j], [v, c, c], [v, c, c, s, k, v, v, j], [v, c, c, s,
    k, v, v, v, k, v, v, j], [v, c, c, s, k, v, v, v], [v, c], [v, c, c, s, k, v, k, v, v, j], [v, c, c], [v, c],
    [v, c, c, c, s, k, v, v, j], [v, c, c, c, s, k, v, v, v, k, v, v, j], [v, c, c, c, s, k, v, v, v], [v, c, c, c,
    v, k, v, v, j], [v, c, c, c, s, k, v], [v, c, c, c, v, k, v, v, j], [v, c, c], [v, c, c, s, k, v, v, j], [v, c,
    c, s, k, v, v, v, k, v, v, j], [v, c, c, s, k, v, v, v], [v, c], [v, c, c, s, k, v, k, v, v, j], [v, c, c], [v,
    c], [v, c, c, c, s, k, v, v, j], [v, c, c, c, s, k, v, v, v, k, v, v, j], [v, c, c, c, s, k, v, v, v], [v, c, c,
    c, v, k, v, v, j], [v, c, c, c, s, k, v], [v, c, c, s, k], [v, c, c, s, k], [v, c, c, s, k, v, v], [v, c, c, s,
    k, v, v, j], [v, c, c, v, k, v, v, j, v], [v, v, k, v, v, j], [v], [v, c], [v, c, c, s, v, v, k, m 0, v], [v, c,
    c, s, k, v, v], [v, c, c, s, k, v, v, j], [v, c, c, s, k, v, v, j], [v, c, c], [v], [v], [], [v], [v, c], [v, c,
    c, s, v, v, k, m 0, v], [v, c, c, s, k, v, v], [v, c, c, s, k, v, v], [v, c, c, s, k, v, v], [v, v, k, v, v, j],
    [v, v, k, v, v, j], [v, c, c, s, k, v, v, j], [v, c, c, s, k, v, v, j], [v, v], [v], [v, c, v]] := by
  decide +kernel
end

end Veb.Props
