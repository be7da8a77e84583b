import Verif.SpecIterCost
import Verif.Proof.Cost

/-!
What the calls of an iterator cost.
-/

set_option autoImplicit false
set_option linter.unusedSectionVars false

namespace Veb.Iter
variable {T K V : Type} [LinearOrder K] [VebTree T K V] [TickTree T K V]

section
variable (H : CountsFaithfully T)
include H

theorem er_call (it : Iter T K) (s : Side) : Er (it.callT s) (it.call s) := by
  cases s with
  | front =>
    show Er it.nextT it.next
    unfold nextT next
    rcases it.data with _ | (_ | k | k | ⟨a, b⟩)
    · exact Er.liftM _
    · exact Er.bind (H.minVal _) fun p => Er.liftM _
    · refine Er.bind (H.successor _ _) fun o => ?_
      cases o with
      | none => exact Er.liftM _
      | some p => exact Er.liftM _
    · refine Er.bind (H.minVal _) fun p => Er.evBind ?_
      dsimp only
      split
      · exact Er.liftM _
      · exact Er.liftM _
    · refine Er.bind (H.successor _ _) fun o => ?_
      cases o with
      | none => exact Er.bind (Er.liftM _) fun _ => Er.liftM _
      | some p =>
        refine Er.evBind ?_
        dsimp only
        split
        · exact Er.liftM _
        · exact Er.liftM _
  | back =>
    show Er it.nextBackT it.nextBack
    unfold nextBackT nextBack
    rcases it.data with _ | (_ | k | k | ⟨a, b⟩)
    · exact Er.liftM _
    · exact Er.bind (H.maxVal _) fun p => Er.liftM _
    · refine Er.bind (H.maxVal _) fun p => Er.evBind ?_
      dsimp only
      split
      · exact Er.liftM _
      · exact Er.liftM _
    · refine Er.bind (H.predecessor _ _) fun o => ?_
      cases o with
      | none => exact Er.liftM _
      | some p => exact Er.liftM _
    · refine Er.bind (H.predecessor _ _) fun o => ?_
      cases o with
      | none => exact Er.bind (Er.liftM _) fun _ => Er.liftM _
      | some p =>
        refine Er.evBind ?_
        dsimp only
        split
        · exact Er.liftM _
        · exact Er.liftM _

theorem er_calls (ss : List Side) (it : Iter T K) : Er (it.callsT ss) (it.calls ss) := by
  induction ss generalizing it with
  | nil => exact Er.pure _
  | cons s ss ih =>
    refine Er.bind (er_call H it s) fun p => Er.bind (ih p.1) fun q => Er.pure _

theorem er_sizeHint (it : Iter T K) : Er it.sizeHintT it.sizeHint := by
  unfold sizeHintT sizeHint
  rcases it.data with _ | d
  · exact Er.pure _
  · refine Er.bind (H.lenHint _) fun p => ?_
    obtain ⟨a, _ | b⟩ := p
    · exact Er.pure _
    · exact Er.bind (Er.liftM _) fun _ => Er.pure _
end

/-- What a call leaves: an item and an iterator that can go on, or nothing and one that has stopped. -/
def Left : Iter T K × Option (K × V) → Prop
  | (it, none) => it.data = none
  | (_, some _) => True

theorem left_stop (it : Iter T K) {r : Iter T K × Option (K × V)} (h : it.stop = .ok r) : Left r := by
  cases h; rfl
theorem left_emit (it : Iter T K) {d : IterData K} {kv : K × V} {r : Iter T K × Option (K × V)} (h : it.emit d kv = .ok r) :
    Left r := by
  unfold emit at h
  cases hx : addUsize it.emitted 1 with
  | error e => rw [hx] at h; cases h
  | ok n => rw [hx] at h; cases h; trivial

/-- At the prices `w`, `x` costs at most `n`, and when it returns, it leaves an iterator as a call does. -/
def Call (w : Ev → Nat) (x : Tk (Iter T K × Option (K × V))) (n : Nat) : Prop :=
  x.bill w ≤ n ∧ ∀ r, x.run = .ok r → Left r

namespace Call
variable {w : Ev → Nat} {α : Type} {n : Nat}
theorem lift {x : R (Iter T K × Option (K × V))} (h : ∀ r, x = .ok r → Left r) : Call w (liftM x) n :=
  ⟨Nat.zero_le _, h⟩
theorem stop (it : Iter T K) : Call (T := T) (K := K) (V := V) w (liftM it.stop) n := lift fun _ h => left_stop it h
theorem emit (it : Iter T K) (d : IterData K) (kv : K × V) : Call w (liftM (it.emit d kv)) n :=
  lift fun _ h => left_emit it h
theorem bind {x : Tk α} {f : α → Tk (Iter T K × Option (K × V))} {a b : Nat} (hx : x.bill w ≤ a)
    (hf : ∀ y, Call w (f y) b) (hn : a + b ≤ n) : Call w (x >>= f) n := by
  cases e : x.run with
  | error p =>
    refine ⟨by rw [Tk.bill_bind_error w x f e]; omega, fun r hr => ?_⟩
    rcases x with ⟨_, l⟩
    cases e
    cases hr
  | ok y =>
    have := (hf y).1
    refine ⟨by rw [Tk.bill_bind w x f e]; omega, fun r hr => ?_⟩
    rcases x with ⟨_, l⟩
    cases e
    exact (hf y).2 r hr
theorem evBind {e : Ev} {f : Unit → Tk (Iter T K × Option (K × V))} {b : Nat} (hf : Call w (f ()) b) (hn : w e + b ≤ n) :
    Call w (Tk.ev e >>= f) n :=
  bind (a := w e) (Nat.le_of_eq (Nat.add_zero _)) (fun _ => hf) hn
theorem weaken {x : Tk (Iter T K × Option (K × V))} {m : Nat} (h : Call w x m) (hn : m ≤ n) : Call w x n :=
  ⟨h.1.trans hn, h.2⟩
end Call

variable {w : Ev → Nat} {s d m : Nat}

/-- A call of a stopped iterator. -/
theorem call_none_left (it : Iter T K) (si : Side) (h : it.data = none) :
    (it.callT si : Tk (Iter T K × Option (K × V))) = ⟨.ok (⟨it.tree, none, it.emitted⟩, none), []⟩ := by
  obtain ⟨t, o, n⟩ := it
  cases h
  cases si <;> rfl

/-- A call of any iterator. -/
theorem call_cost (H : CostsAtMost w T s d m) (hsd : s ≤ d) (it : Iter T K) (si : Side) :
    Call w (it.callT si) (d + w .cmp) := by
  cases si with
  | front =>
    show Call w it.nextT _
    unfold nextT
    rcases it.data with _ | (_ | k | k | ⟨a, b⟩)
    · exact .stop _
    · exact .bind (b := 0) (H.minVal _) (fun p => .emit _ _ _) (by omega)
    · refine .bind (b := 0) (H.successor _ _) (fun o => ?_) (by omega)
      cases o with
      | none => exact .stop _
      | some p => exact .emit _ _ _
    · refine .bind (b := w .cmp) (H.minVal _) (fun p => .evBind (b := 0) ?_ (by omega)) (by omega)
      split
      · exact .stop _
      · exact .emit _ _ _
    · refine .bind (b := w .cmp) (H.successor _ _) (fun o => ?_) (by omega)
      cases o with
      | none => exact .bind (a := 0) (b := 0) (Nat.le_refl _) (fun _ => .stop _) (by omega)
      | some p =>
        refine .evBind (b := 0) ?_ (by omega)
        split
        · exact .stop _
        · exact .emit _ _ _
  | back =>
    show Call w it.nextBackT _
    unfold nextBackT
    rcases it.data with _ | (_ | k | k | ⟨a, b⟩)
    · exact .stop _
    · exact .bind (b := 0) (H.maxVal _) (fun p => .emit _ _ _) (by omega)
    · refine .bind (b := w .cmp) (H.maxVal _) (fun p => .evBind (b := 0) ?_ (by omega)) (by omega)
      split
      · exact .stop _
      · exact .emit _ _ _
    · refine .bind (b := 0) (H.predecessor _ _) (fun o => ?_) (by omega)
      cases o with
      | none => exact .stop _
      | some p => exact .emit _ _ _
    · refine .bind (b := w .cmp) (H.predecessor _ _) (fun o => ?_) (by omega)
      cases o with
      | none => exact .bind (a := 0) (b := 0) (Nat.le_refl _) (fun _ => .stop _) (by omega)
      | some p =>
        refine .evBind (b := 0) ?_ (by omega)
        split
        · exact .stop _
        · exact .emit _ _ _

theorem bill_pure {α : Type} (a : α) : (Pure.pure a : Tk α).bill w = 0 := rfl

theorem callsT_cons (it : Iter T K) (si : Side) (ss : List Side) :
    (it.callsT (si :: ss) : Tk (Iter T K × List (Option (K × V)))) =
      it.callT si >>= fun p => p.1.callsT ss >>= fun q => Pure.pure (q.1, p.2 :: q.2) := rfl

theorem run_bind_ok {α β : Type} {x : Tk α} {f : α → Tk β} {b : β} (h : (x >>= f).run = .ok b) :
    ∃ a, x.run = .ok a ∧ (f a).run = .ok b := by
  rcases x with ⟨x, l⟩
  cases x with
  | error e => cases h
  | ok a => exact ⟨a, rfl, h⟩

/-- what a sequence of calls is -/
theorem callsT_ok {it : Iter T K} {si : Side} {ss : List Side} {r : Iter T K × List (Option (K × V))}
    (h : (it.callsT (si :: ss)).run = .ok r) :
    ∃ it' o os, (it.callT si).run = .ok (it', o) ∧ (it'.callsT ss).run = .ok (r.1, os) ∧ r.2 = o :: os ∧
      (it.callsT (si :: ss)).bill w = (it.callT si).bill w + (it'.callsT ss).bill w := by
  rw [callsT_cons] at h ⊢
  obtain ⟨p, h1, h2⟩ := run_bind_ok h
  obtain ⟨q, h3, h4⟩ := run_bind_ok h2
  rw [Tk.bill_bind w _ _ h1, Tk.bill_bind w _ _ h3, bill_pure, Nat.add_zero]
  cases h4
  exact ⟨p.1, p.2, q.2, h1, h3, rfl, rfl⟩

theorem calls_none_left (ss : List Side) (it : Iter T K) (h : it.data = none) :
    (it.callsT ss : Tk (Iter T K × List (Option (K × V)))) = ⟨.ok (⟨it.tree, none, it.emitted⟩, ss.map fun _ => none), []⟩ := by
  induction ss generalizing it with
  | nil => obtain ⟨t, o, n⟩ := it; cases h; rfl
  | cons si ss ih =>
    rw [callsT_cons, call_none_left it si h]
    have e := ih ⟨it.tree, none, it.emitted⟩ rfl
    show ((Iter.mk it.tree none it.emitted).callsT ss >>= fun q => Pure.pure (q.1, none :: q.2) : Tk (Iter T K × List (Option (K × V)))) = _
    rw [e]
    rfl

theorem items_none {α : Type} (os : List (Option α)) : items (none :: os) = items os := by simp [items]
theorem items_some {α : Type} (a : α) (os : List (Option α)) : items (some a :: os) = items os + 1 := by simp [items]

/-- Any calls that return. -/
theorem calls_cost (H : CostsAtMost w T s d m) (hsd : s ≤ d) (ss : List Side) (it : Iter T K)
    {r : Iter T K × List (Option (K × V))} (h : (it.callsT ss).run = .ok r) :
    (it.callsT ss).bill w ≤ (items r.2 + 1) * (d + w .cmp) := by
  induction ss generalizing it r with
  | nil => exact Nat.zero_le _
  | cons si ss ih =>
    obtain ⟨it', o, os, h1, h2, h3, h4⟩ := callsT_ok (w := w) h
    rw [h4, h3]
    have c := call_cost H hsd it si
    have c1 := c.1
    have c2 := c.2 _ h1
    cases o with
    | none =>
      rw [items_none, calls_none_left ss it' c2]
      have : 1 * (d + w .cmp) ≤ (items os + 1) * (d + w .cmp) := Nat.mul_le_mul_right _ (by omega)
      show _ + 0 ≤ _
      omega
    | some a =>
      rw [items_some, Nat.succ_mul]
      have := ih it' h2
      dsimp only at this
      omega

/-- Any calls, also when they panic. -/
theorem calls_any (H : CostsAtMost w T s d m) (hsd : s ≤ d) (ss : List Side) (it : Iter T K) :
    (it.callsT ss : Tk (Iter T K × List (Option (K × V)))).bill w ≤ ss.length * (d + w .cmp) := by
  induction ss generalizing it with
  | nil => exact Nat.zero_le _
  | cons si ss ih =>
    have c := (call_cost H hsd it si).1
    unfold callsT
    rw [List.length_cons, Nat.succ_mul]
    cases e : (it.callT si : Tk (Iter T K × Option (K × V))).run with
    | error p => rw [Tk.bill_bind_error w _ _ e]; omega
    | ok q =>
      rw [Tk.bill_bind w _ _ e]
      have := ih q.1
      obtain ⟨it', o⟩ := q
      dsimp only at this ⊢
      cases e2 : (it'.callsT ss : Tk (Iter T K × List (Option (K × V)))).run with
      | error p => rw [Tk.bill_bind_error w _ _ e2]; omega
      | ok q => rw [Tk.bill_bind w _ _ e2, bill_pure]; omega

/-- An iterator that has been used from the side `si` only, at least once. -/
def OneWay (si : Side) (o : Option (IterData K)) : Prop :=
  match si, o with
  | _, none => True
  | .front, some (.front _) => True
  | .back, some (.back _) => True
  | _, _ => False

/-- a call in the only direction so far -/
theorem oneWay_call (H : CostsAtMost w T s d m) (si : Side) (it : Iter T K) (h : OneWay si it.data) :
    (it.callT si : Tk (Iter T K × Option (K × V))).bill w ≤ d ∧
      ∀ r, (it.callT si : Tk (Iter T K × Option (K × V))).run = .ok r → Left r ∧ OneWay si r.1.data := by
  cases si with
  | front =>
    show (it.nextT : Tk (Iter T K × Option (K × V))).bill w ≤ d ∧ ∀ r, it.nextT.run = .ok r → _
    unfold nextT
    rcases e : it.data with _ | (_ | k | k | ⟨a, b⟩) <;> rw [e] at h <;> try exact h.elim
    · exact ⟨Nat.zero_le _, fun r hr => by cases hr; exact ⟨rfl, trivial⟩⟩
    · dsimp only
      have hb := H.successor it.tree k
      cases hx : (TickTree.successor it.tree k : Tk (Option (K × V))).run with
      | error p =>
        refine ⟨by rw [Tk.bill_bind_error w _ _ hx]; exact hb, fun r hr => ?_⟩
        rcases hy : (TickTree.successor it.tree k : Tk (Option (K × V))) with ⟨_, l⟩
        rw [hy] at hx hr; cases hx; cases hr
      | ok o =>
        rw [Tk.bill_bind w _ _ hx]
        rcases hy : (TickTree.successor it.tree k : Tk (Option (K × V))) with ⟨_, l⟩
        rw [hy] at hx hb; cases hx
        cases o with
        | none => exact ⟨hb, fun r hr => by cases hr; exact ⟨rfl, trivial⟩⟩
        | some p =>
          refine ⟨hb, fun r hr => ?_⟩
          have hr : it.emit (.front p.1) (p.1, p.2) = .ok r := hr
          unfold emit at hr
          cases ha : addUsize it.emitted 1 with
          | error e => rw [ha] at hr; cases hr
          | ok n => rw [ha] at hr; cases hr; exact ⟨trivial, trivial⟩
  | back =>
    show (it.nextBackT : Tk (Iter T K × Option (K × V))).bill w ≤ d ∧ ∀ r, it.nextBackT.run = .ok r → _
    unfold nextBackT
    rcases e : it.data with _ | (_ | k | k | ⟨a, b⟩) <;> rw [e] at h <;> try exact h.elim
    · exact ⟨Nat.zero_le _, fun r hr => by cases hr; exact ⟨rfl, trivial⟩⟩
    · dsimp only
      have hb := H.predecessor it.tree k
      cases hx : (TickTree.predecessor it.tree k : Tk (Option (K × V))).run with
      | error p =>
        refine ⟨by rw [Tk.bill_bind_error w _ _ hx]; exact hb, fun r hr => ?_⟩
        rcases hy : (TickTree.predecessor it.tree k : Tk (Option (K × V))) with ⟨_, l⟩
        rw [hy] at hx hr; cases hx; cases hr
      | ok o =>
        rw [Tk.bill_bind w _ _ hx]
        rcases hy : (TickTree.predecessor it.tree k : Tk (Option (K × V))) with ⟨_, l⟩
        rw [hy] at hx hb; cases hx
        cases o with
        | none => exact ⟨hb, fun r hr => by cases hr; exact ⟨rfl, trivial⟩⟩
        | some p =>
          refine ⟨hb, fun r hr => ?_⟩
          have hr : it.emit (.back p.1) (p.1, p.2) = .ok r := hr
          unfold emit at hr
          cases ha : addUsize it.emitted 1 with
          | error e => rw [ha] at hr; cases hr
          | ok n => rw [ha] at hr; cases hr; exact ⟨trivial, trivial⟩

theorem oneWay_calls (H : CostsAtMost w T s d m) (si : Side) (n : Nat) (it : Iter T K) (hw : OneWay si it.data)
    {r : Iter T K × List (Option (K × V))} (h : (it.callsT (List.replicate n si)).run = .ok r) :
    (it.callsT (List.replicate n si)).bill w ≤ (items r.2 + 1) * d := by
  induction n generalizing it r with
  | zero => exact Nat.zero_le _
  | succ n ih =>
    rw [List.replicate_succ] at h ⊢
    obtain ⟨it', o, os, h1, h2, h3, h4⟩ := callsT_ok (w := w) h
    rw [h4, h3]
    obtain ⟨c1, c2⟩ := oneWay_call H si it hw
    obtain ⟨c2, c3⟩ := c2 _ h1
    cases o with
    | none =>
      rw [items_none, calls_none_left _ it' c2]
      have : 1 * d ≤ (items os + 1) * d := Nat.mul_le_mul_right _ (by omega)
      show _ + 0 ≤ _
      omega
    | some a =>
      rw [items_some, Nat.succ_mul]
      have := ih it' c3 h2
      dsimp only at this
      omega

/-- the first call -/
theorem first_call (H : CostsAtMost w T s d m) (si : Side) (t : T) :
    ((new t).callT si : Tk (Iter T K × Option (K × V))).bill w ≤ s ∧
      ∀ r, ((new t).callT si : Tk (Iter T K × Option (K × V))).run = .ok r → r.2.isSome ∧ OneWay si r.1.data := by
  cases si with
  | front =>
    have hb := H.minVal t
    show ((TickTree.minVal t : Tk (K × V)) >>= fun p => liftM ((new t).emit (.front p.1) (p.1, p.2))).bill w ≤ s ∧
      ∀ r, ((TickTree.minVal t : Tk (K × V)) >>= fun p => liftM ((new t).emit (.front p.1) (p.1, p.2))).run = .ok r → _
    rcases hy : (TickTree.minVal t : Tk (K × V)) with ⟨x, l⟩
    rw [hy] at hb
    cases x with
    | error e => exact ⟨hb, fun r hr => by cases hr⟩
    | ok p =>
      refine ⟨by rw [Tk.bill_bind w _ _ rfl]; exact hb, fun r hr => ?_⟩
      cases hr
      exact ⟨rfl, trivial⟩
  | back =>
    have hb := H.maxVal t
    show ((TickTree.maxVal t : Tk (K × V)) >>= fun p => liftM ((new t).emit (.back p.1) (p.1, p.2))).bill w ≤ s ∧
      ∀ r, ((TickTree.maxVal t : Tk (K × V)) >>= fun p => liftM ((new t).emit (.back p.1) (p.1, p.2))).run = .ok r → _
    rcases hy : (TickTree.maxVal t : Tk (K × V)) with ⟨x, l⟩
    rw [hy] at hb
    cases x with
    | error e => exact ⟨hb, fun r hr => by cases hr⟩
    | ok p =>
      refine ⟨by rw [Tk.bill_bind w _ _ rfl]; exact hb, fun r hr => ?_⟩
      cases hr
      exact ⟨rfl, trivial⟩

theorem pass_cost (H : CostsAtMost w T s d m) (si : Side) (n : Nat) (t : T)
    {r : Iter T K × List (Option (K × V))} (h : ((new t).callsT (List.replicate n si)).run = .ok r) :
    ((new t).callsT (List.replicate n si) : Tk (Iter T K × List (Option (K × V)))).bill w ≤ s + items r.2 * d := by
  cases n with
  | zero => exact Nat.zero_le _
  | succ n =>
    rw [List.replicate_succ] at h ⊢
    obtain ⟨it', o, os, h1, h2, h3, h4⟩ := callsT_ok (w := w) h
    rw [h4, h3]
    obtain ⟨c1, c2⟩ := first_call H si t
    obtain ⟨c2, c3⟩ := c2 _ h1
    have := oneWay_calls H si n it' c3 h2
    dsimp only at this
    cases o with
    | none => cases c2
    | some a => rw [items_some]; omega

end Veb.Iter
