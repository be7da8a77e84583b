import Verif.Proof.LoggedTree
import Verif.Proof.HonestRun

/-!
Whole histories over keys that write a log.
-/

set_option autoImplicit false
set_option linter.unusedSectionVars false

namespace Veb

theorem LoggedColl.sim {C Hi T Lo V : Type} [VebTree T Lo V] [TickTree T Lo V] [ActTree (List Ev) T Lo V]
    [TreeCollection C Hi T Lo V] [TickColl C Hi T Lo V] [ActColl (List Ev) C Hi T Lo V] (h : LoggedColl C Hi T Lo V) :
    ∀ [P : LTree T Lo V] [ErTree T], Nonempty (LColl C Hi T Lo V) ∧ ErColl C := by
  induction h with
  | array => intro P _; exact ⟨⟨ArrayColl.loggedColl⟩, inferInstance⟩
  | hash => intro P _; exact ⟨⟨HashMap.loggedColl⟩, inferInstance⟩
  | byte => intro P _; exact ⟨⟨ByteMap.Coll.loggedColl⟩, inferInstance⟩
  | box _ ih =>
    intro P _
    obtain ⟨⟨Q⟩, _⟩ := ih (P := P)
    exact ⟨⟨loggedCollBox⟩, inferInstance⟩

theorem LoggedTree.sim {T K V : Type} [VebTree T K V] [TickTree T K V] [ActTree (List Ev) T K V] (h : LoggedTree T K V) :
    Nonempty (LTree T K V) ∧ ErTree T := by
  induction h with
  | byteSet => exact ⟨⟨LTree.leaf⟩, inferInstance⟩
  | byteMap => exact ⟨⟨LTree.leaf⟩, inferInstance⟩
  | btreeMap => exact ⟨⟨LTree.leaf⟩, inferInstance⟩
  | box _ ih =>
    obtain ⟨⟨P⟩, _⟩ := ih
    exact ⟨⟨LTree.instBox⟩, inferInstance⟩
  | sized _ ih =>
    obtain ⟨⟨P⟩, _⟩ := ih
    exact ⟨⟨LTree.instSized⟩, inferInstance⟩
  | tree _ _ hc ihs iht =>
    obtain ⟨⟨PS⟩, _⟩ := ihs
    obtain ⟨⟨PT⟩, _⟩ := iht
    obtain ⟨⟨PC⟩, _⟩ := hc.sim
    exact ⟨⟨Tree.loggedTree⟩, inferInstance⟩

variable {T K V : Type} [VebTree T K V] [TickTree T K V] [ActTree (List Ev) T K V] [P : LTree T K V] [E : ErTree T]

/-- `x` does what `r` does and writes `l`; `Q` holds of the result -/
def WritesL {α : Type} (Q : α → Prop) (l : List Ev) (x : Act (List Ev) α) (r : R α) : Prop := Logs Q x ⟨r, l⟩

theorem WritesL.of {α β : Type} {Q : α → Prop} {P : β → Prop} {x : Act (List Ev) α} {y : Tk α} {r : R α} (h : Logs Q x y)
    (e : Er y r) {f : α → Act (List Ev) β} {g : α → R β}
    (h' : ∀ a, Q a → ∀ s, SameL P s [] (f a s) (g a)) : WritesL P y.log (x >>= f) (r >>= g) := by
  obtain ⟨run, log⟩ := y
  replace e : run = r := e
  subst e
  have := h.bind (f := f) (g := fun a => ⟨g a, []⟩) h'
  cases run with
  | error p => exact this
  | ok a =>
    have e : (⟨Except.ok a, log⟩ >>= fun a => (⟨g a, []⟩ : Tk β)) = ⟨g a, log ++ []⟩ := rfl
    rw [e, List.append_nil] at this
    exact this

theorem logged_pure {β : Type} {P : β → Prop} {b : β} (h : P b) (s : List Ev) :
    SameL P s [] ((pure b : Act (List Ev) β) s) (pure b) :=
  ⟨h, congrArg (fun l => Except.ok (b, l)) (List.append_nil s).symm⟩

theorem writeOpt_logged {t : T} (ht : P.W t) (w : V) {o : Option (K × V × (V → T))} (h : PutO P.W o) :
    AllO P.W (Exec.writeOpt t w o).1 := by
  obtain _ | ⟨k, v, put⟩ := o
  · exact allO_some ht
  · exact allO_some (h _ rfl w)

theorem logged_stepTree {t : T} (ht : P.W t) (op : Op K V) :
    WritesL (fun r => AllO P.W r.1) (opLog (some t) op) (ActExec.stepTree (σ := List Ev) t op) (Exec.stepTree t op) := by
  have hs := allO_some ht
  cases op with
  | insert k v => exact .of (P.insert t k v ht) (E.insert t k v) fun r hr => logged_pure (allO_some hr)
  | remove k =>
    refine .of (P.remove t k ht) (E.remove t k) fun r hr => ?_
    obtain r | u := r
    · exact logged_pure (show AllO P.W (Exec.removed r).1 from hr)
    · exact logged_pure (allO_some hr)
  | removeMin => exact .of (P.removeMin t ht) (E.removeMin t) fun r hr => logged_pure (show AllO P.W (Exec.removed r).1 from hr)
  | removeMax => exact .of (P.removeMax t ht) (E.removeMax t) fun r hr => logged_pure (show AllO P.W (Exec.removed r).1 from hr)
  | find k => exact .of (P.find t k ht) (E.find t k) fun _ _ => logged_pure hs
  | predecessor k => exact .of (P.predecessor t k ht) (E.predecessor t k) fun _ _ => logged_pure hs
  | successor k => exact .of (P.successor t k ht) (E.successor t k) fun _ _ => logged_pure hs
  | minVal => exact .of (P.minVal t ht) (E.minVal t) fun _ _ => logged_pure hs
  | maxVal => exact .of (P.maxVal t ht) (E.maxVal t) fun _ _ => logged_pure hs
  | isMonad => exact .of (P.isMonad t ht) (E.isMonad t) fun _ _ => logged_pure hs
  | intoMonad =>
    refine .of (P.intoMonad t ht) (E.intoMonad t) fun r hr => ?_
    obtain r | u := r
    · exact logged_pure allO_none
    · exact logged_pure (allO_some (hr u rfl))
  | findSet k w => exact .of (P.findMut t k ht) (E.findMut t k) fun _ h => logged_pure (writeOpt_logged ht w h)
  | predecessorSet k w =>
    exact .of (P.predecessorMut t k ht) (E.predecessorMut t k) fun _ h => logged_pure (writeOpt_logged ht w h)
  | successorSet k w => exact .of (P.successorMut t k ht) (E.successorMut t k) fun _ h => logged_pure (writeOpt_logged ht w h)
  | minSet w => exact .of (P.minValMut t ht) (E.minValMut t) fun _ h => logged_pure (writeOpt_logged ht w (putO_some h))
  | maxSet w => exact .of (P.maxValMut t ht) (E.maxValMut t) fun _ h => logged_pure (writeOpt_logged ht w (putO_some h))

theorem logged_step {t : Option T} (ht : AllO P.W t) (op : Op K V) (s : List Ev) :
    SameL (fun r => AllO P.W r.1) s (opLog t op) (ActExec.step (σ := List Ev) t op s) (Exec.step t op) := by
  obtain _ | t := t
  · cases op with
    | insert k v =>
      have h := P.fromMonad k v
      have e : VebTree.fromMonad k v = ActTree.fromMonad (List Ev) (T := T) k v := Except.ok.inj ((E.fromMonad k v).symm.trans h.1.1)
      show SameL _ s (TickTree.fromMonad k v : Tk T).log (Except.ok (_, s)) (Except.ok (some (VebTree.fromMonad k v), _))
      rw [e]
      refine ⟨allO_some h.2, ?_⟩
      rw [h.1.2, List.append_nil]
    | isMonad => exact logged_pure (b := (none, .bool false)) (P := fun r : Option T × Out K V => AllO P.W r.1) allO_none s
    | _ => exact logged_pure (b := (none, .kv none)) (P := fun r : Option T × Out K V => AllO P.W r.1) allO_none s
  · exact logged_stepTree (ht t rfl) op s

theorem logged_run {t : Option T} (ht : AllO P.W t) (ops : List (Op K V)) (s : List Ev) :
    SameL (fun r => AllO P.W r.1) s (historyLog t ops) (ActExec.run (σ := List Ev) t ops s) (Exec.run t ops) := by
  induction ops generalizing t s with
  | nil => exact logged_pure (b := (t, [])) (P := fun r : Option T × List (Out K V) => AllO P.W r.1) ht s
  | cons op ops ih =>
    have h := logged_step ht op s
    show SameL _ s (opLog t op ++ match Exec.step t op with
      | .ok (t', _) => historyLog t' ops
      | .error _ => []) (ActExec.step (σ := List Ev) t op s >>= fun p => (do
        let (t, os) ← ActExec.run p.1.1 ops
        pure (t, p.1.2 :: os) : Act (List Ev) _) p.2) (Exec.step t op >>= fun p => do
          let (t, os) ← Exec.run p.1 ops
          pure (t, p.2 :: os))
    cases e : Exec.step t op with
    | error p =>
      rw [e] at h
      rw [show ActExec.step (σ := List Ev) t op s = _ from h]; rfl
    | ok r =>
      obtain ⟨t', o⟩ := r
      rw [e] at h
      obtain ⟨h1, h2⟩ := h
      rw [h2]
      have := ih (t := t') h1 (s ++ (opLog t op).filter Ev.ofKey)
      show SameL _ s (opLog t op ++ historyLog t' ops) (ActExec.run (σ := List Ev) t' ops _ >>= fun p => Except.ok ((p.1.1, o :: p.1.2), p.2))
        (Exec.run t' ops >>= fun p => Except.ok (p.1, o :: p.2))
      cases e' : Exec.run t' ops with
      | error p =>
        rw [e'] at this
        rw [show ActExec.run (σ := List Ev) t' ops _ = _ from this]; rfl
      | ok r =>
        rw [e'] at this
        rw [this.2]
        refine ⟨this.1, ?_⟩
        rw [List.filter_append, ← List.append_assoc]; rfl

end Veb
