import Verif.SpecActIter
import Verif.Proof.HonestRun
import Verif.Proof.LoggedRun
import Verif.Proof.AuditRun
import Verif.Proof.IterCost

/-!
Iterators over code of the user with a state.
-/

set_option autoImplicit false
set_option linter.unusedSectionVars false

namespace Veb.Iter

/-! ## Proper code -/

section
variable {Us : Panic → Prop} {σ T K V : Type} [LinearOrder K] [ActTree σ T K V] [VebTree T K V] [P : HTree Us σ T K V] [ActIterKey σ K]

/-- the tree stays the same -/
def SameTree (t : T) (r : Iter T K × Option (K × V)) : Prop := r.1.tree = t

theorem stop_same (it : Iter T K) :
    Follows Us (SameTree it.tree) (finishA (σ := σ) (V := V) it none) it.stop := .ret rfl
theorem emit_same (it : Iter T K) (d : IterData K) (kv : K × V) :
    Follows Us (SameTree it.tree) (finishA (σ := σ) it (some (d, kv))) (it.emit d kv) :=
  Follows.lift'.bind fun _ _ => .ret rfl

theorem bind_assoc' {α β γ : Type} (x : Act σ α) (f : α → Act σ β) (g : β → Act σ γ) :
    (x >>= f) >>= g = x >>= fun a => f a >>= g := bind_assoc x f g

theorem _root_.Veb.HonestIterKey.sound (h : HonestIterKey σ K) : SoundIterKey σ Us K := ⟨fun a b => (h.eq a b).or, fun a => (h.clone a).or⟩

theorem honest_call (hk : SoundIterKey σ Us K) (it : Iter T K) (ht : P.W it.tree) (si : Side) :
    Follows Us (SameTree it.tree) (it.callA (σ := σ) si) (it.call si) := by
  cases si with
  | front =>
    show Follows _ _ (it.frontA >>= it.finishA) it.next
    unfold frontA next
    rcases it.data with _ | (_ | k | k | ⟨a, b⟩)
    · exact stop_same it
    · dsimp only
      rw [bind_assoc']
      refine (P.minVal _ ht).bind fun p _ => ?_
      rw [bind_assoc']
      exact .left (hk.clone _) (emit_same it _ _)
    · dsimp only
      rw [bind_assoc']
      refine (P.successor _ _ ht).bind fun o _ => ?_
      cases o with
      | none => exact stop_same it
      | some p =>
        dsimp only
        rw [bind_assoc']
        exact .left (hk.clone _) (emit_same it _ _)
    · dsimp only
      rw [bind_assoc']
      refine (P.minVal _ ht).bind fun p _ => ?_
      rw [bind_assoc']
      refine .left (hk.eq _ _) ?_
      by_cases h : p.1 = k
      · rw [if_pos (decide_eq_true h), if_pos h]; exact stop_same it
      · rw [if_neg (by simpa using h), if_neg h, bind_assoc']
        exact .left (hk.clone _) (emit_same it _ _)
    · dsimp only
      rw [bind_assoc']
      refine (P.successor _ _ ht).bind fun o _ => ?_
      cases o with
      | none =>
        dsimp only
        rw [bind_assoc']
        exact Follows.lift'.bind fun _ _ => stop_same it
      | some p =>
        dsimp only
        rw [bind_assoc']
        refine .left (hk.eq _ _) ?_
        by_cases h : p.1 = b
        · rw [if_pos (decide_eq_true h), if_pos h]; exact stop_same it
        · rw [if_neg (by simpa using h), if_neg h, bind_assoc']
          exact .left (hk.clone _) (emit_same it _ _)
  | back =>
    show Follows _ _ (it.backA >>= it.finishA) it.nextBack
    unfold backA nextBack
    rcases it.data with _ | (_ | k | k | ⟨a, b⟩)
    · exact stop_same it
    · dsimp only
      rw [bind_assoc']
      refine (P.maxVal _ ht).bind fun p _ => ?_
      rw [bind_assoc']
      exact .left (hk.clone _) (emit_same it _ _)
    · dsimp only
      rw [bind_assoc']
      refine (P.maxVal _ ht).bind fun p _ => ?_
      rw [bind_assoc']
      refine .left (hk.eq _ _) ?_
      by_cases h : k = p.1
      · rw [if_pos (decide_eq_true h), if_pos h]; exact stop_same it
      · rw [if_neg (by simpa using h), if_neg h, bind_assoc']
        exact .left (hk.clone _) (emit_same it _ _)
    · dsimp only
      rw [bind_assoc']
      refine (P.predecessor _ _ ht).bind fun o _ => ?_
      cases o with
      | none => exact stop_same it
      | some p =>
        dsimp only
        rw [bind_assoc']
        exact .left (hk.clone _) (emit_same it _ _)
    · dsimp only
      rw [bind_assoc']
      refine (P.predecessor _ _ ht).bind fun o _ => ?_
      cases o with
      | none =>
        dsimp only
        rw [bind_assoc']
        exact Follows.lift'.bind fun _ _ => stop_same it
      | some p =>
        dsimp only
        rw [bind_assoc']
        refine .left (hk.eq _ _) ?_
        by_cases h : a = p.1
        · rw [if_pos (decide_eq_true h), if_pos h]; exact stop_same it
        · rw [if_neg (by simpa using h), if_neg h, bind_assoc']
          exact .left (hk.clone _) (emit_same it _ _)

theorem honest_calls (hk : SoundIterKey σ Us K) (ss : List Side) (it : Iter T K) (ht : P.W it.tree) :
    Follows Us (fun r => r.1.tree = it.tree) (it.callsA (σ := σ) ss) (it.calls ss) := by
  induction ss generalizing it with
  | nil => exact .ret rfl
  | cons s ss ih =>
    refine (honest_call hk it ht s).bind fun p hp => ?_
    replace hp : p.1.tree = it.tree := hp
    exact (ih p.1 (hp ▸ ht)).bind fun q hq => .ret (hq.trans hp)

theorem honest_sizeHint (it : Iter T K) (ht : P.W it.tree) :
    Follows Us (fun _ => True) (it.sizeHintA (σ := σ)) it.sizeHint := by
  unfold sizeHintA sizeHint
  rcases it.data with _ | d
  · exact .ret trivial
  · refine (P.lenHint _ ht).bind fun p _ => ?_
    obtain ⟨a, _ | b⟩ := p
    · exact .ret trivial
    · exact Follows.lift'.bind fun _ _ => .ret trivial
end

/-! ## Keys that write a log -/

section
variable {T K V : Type} [LinearOrder K] [VebTree T K V] [TickTree T K V] [ActTree (List Ev) T K V] [P : LTree T K V]

theorem stop_log (it : Iter T K) :
    Logs (SameTree it.tree) (finishA (σ := List Ev) (V := V) it none) (liftM it.stop) := .liftPure (.ret rfl)
theorem emit_log (it : Iter T K) (d : IterData K) (kv : K × V) :
    Logs (SameTree it.tree) (finishA (σ := List Ev) it (some (d, kv))) (liftM (it.emit d kv)) :=
  .liftBind (Logs.lift'.bind fun _ _ => .liftPure (.ret rfl))
theorem clone_log {β : Type} {Q : β → Prop} (k : K) {f : K → Act (List Ev) β} {g : Tk β} (h : Logs Q (f k) g) :
    Logs Q (ActIterKey.clone k >>= f) g := .left (x := silently k) (fun _ => rfl) h

theorem logged_call (it : Iter T K) (ht : P.W it.tree) (si : Side) :
    Logs (SameTree it.tree) (it.callA (σ := List Ev) si) (it.callT si) := by
  cases si with
  | front =>
    show Logs _ (it.frontA >>= it.finishA) it.nextT
    unfold frontA nextT
    rcases it.data with _ | (_ | k | k | ⟨a, b⟩)
    · exact stop_log it
    · dsimp only
      rw [bind_assoc']
      refine (P.minVal _ ht).bind fun p _ => ?_
      rw [bind_assoc']
      exact clone_log _ (emit_log it _ _)
    · dsimp only
      rw [bind_assoc']
      refine (P.successor _ _ ht).bind fun o _ => ?_
      cases o with
      | none => exact stop_log it
      | some p =>
        dsimp only
        rw [bind_assoc']
        exact clone_log _ (emit_log it _ _)
    · dsimp only
      rw [bind_assoc']
      refine (P.minVal _ ht).bind fun p _ => ?_
      rw [bind_assoc']
      refine .log rfl ?_
      by_cases h : p.1 = k
      · rw [if_pos (decide_eq_true h), if_pos h]; exact stop_log it
      · rw [if_neg (by simpa using h), if_neg h, bind_assoc']
        exact clone_log _ (emit_log it _ _)
    · dsimp only
      rw [bind_assoc']
      refine (P.successor _ _ ht).bind fun o _ => ?_
      cases o with
      | none =>
        dsimp only
        rw [bind_assoc']
        exact Logs.lift'.bind fun _ _ => stop_log it
      | some p =>
        dsimp only
        rw [bind_assoc']
        refine .log rfl ?_
        by_cases h : p.1 = b
        · rw [if_pos (decide_eq_true h), if_pos h]; exact stop_log it
        · rw [if_neg (by simpa using h), if_neg h, bind_assoc']
          exact clone_log _ (emit_log it _ _)
  | back =>
    show Logs _ (it.backA >>= it.finishA) it.nextBackT
    unfold backA nextBackT
    rcases it.data with _ | (_ | k | k | ⟨a, b⟩)
    · exact stop_log it
    · dsimp only
      rw [bind_assoc']
      refine (P.maxVal _ ht).bind fun p _ => ?_
      rw [bind_assoc']
      exact clone_log _ (emit_log it _ _)
    · dsimp only
      rw [bind_assoc']
      refine (P.maxVal _ ht).bind fun p _ => ?_
      rw [bind_assoc']
      refine .log rfl ?_
      by_cases h : k = p.1
      · rw [if_pos (decide_eq_true h), if_pos h]; exact stop_log it
      · rw [if_neg (by simpa using h), if_neg h, bind_assoc']
        exact clone_log _ (emit_log it _ _)
    · dsimp only
      rw [bind_assoc']
      refine (P.predecessor _ _ ht).bind fun o _ => ?_
      cases o with
      | none => exact stop_log it
      | some p =>
        dsimp only
        rw [bind_assoc']
        exact clone_log _ (emit_log it _ _)
    · dsimp only
      rw [bind_assoc']
      refine (P.predecessor _ _ ht).bind fun o _ => ?_
      cases o with
      | none =>
        dsimp only
        rw [bind_assoc']
        exact Logs.lift'.bind fun _ _ => stop_log it
      | some p =>
        dsimp only
        rw [bind_assoc']
        refine .log rfl ?_
        by_cases h : a = p.1
        · rw [if_pos (decide_eq_true h), if_pos h]; exact stop_log it
        · rw [if_neg (by simpa using h), if_neg h, bind_assoc']
          exact clone_log _ (emit_log it _ _)

theorem logged_calls (ss : List Side) (it : Iter T K) (ht : P.W it.tree) :
    Logs (fun r => r.1.tree = it.tree) (it.callsA (σ := List Ev) ss) (it.callsT ss) := by
  induction ss generalizing it with
  | nil => exact .ret rfl
  | cons s ss ih =>
    refine (logged_call it ht s).bind fun p hp => ?_
    replace hp : p.1.tree = it.tree := hp
    exact (ih p.1 (hp ▸ ht)).bind fun q hq => .ret (hq.trans hp)
end

/-! ## Any code -/

section
variable {σ T K V : Type} [ActTree σ T K V] [P : Keeps σ T K V] [ActIterKey σ K]

/-- the value, if there is one, is stored -/
def Stored (t : T) (o : Option (IterData K × (K × V))) : Prop := ∀ d e, o = some (d, e) → e.2 ∈ P.vals t

theorem stored_none {t : T} : Stored (σ := σ) (K := K) t none := by rintro d e ⟨⟩
theorem stored_some {t : T} {d : IterData K} {e : K × V} (h : e.2 ∈ P.vals t) : Stored (σ := σ) t (some (d, e)) := by
  rintro _ _ ⟨⟩; exact h

theorem stored_match (it : Iter T K) (ht : P.W it.tree) (si : Side) :
    Post (it.matchA (σ := σ) si) (Stored (σ := σ) it.tree) := by
  cases si with
  | front =>
    show Post it.frontA _
    unfold frontA
    rcases it.data with _ | (_ | k | k | ⟨a, b⟩)
    · exact .ret stored_none
    · exact (P.minVal _ ht).bind fun p hp => .then_ fun _ => .ret (stored_some hp)
    · refine (P.successor _ _ ht).bind fun o ho => ?_
      cases o with
      | none => exact .ret stored_none
      | some p => exact .then_ fun _ => .ret (stored_some (ho p rfl))
    · exact (P.minVal _ ht).bind fun p hp => .then_ fun _ => .ite (.ret stored_none)
        (.then_ fun _ => .ret (stored_some hp))
    · refine (P.successor _ _ ht).bind fun o ho => ?_
      cases o with
      | none => exact .then_ fun _ => .ret stored_none
      | some p => exact .then_ fun _ => .ite (.ret stored_none) (.then_ fun _ => .ret (stored_some (ho p rfl)))
  | back =>
    show Post it.backA _
    unfold backA
    rcases it.data with _ | (_ | k | k | ⟨a, b⟩)
    · exact .ret stored_none
    · exact (P.maxVal _ ht).bind fun p hp => .then_ fun _ => .ret (stored_some hp)
    · exact (P.maxVal _ ht).bind fun p hp => .then_ fun _ => .ite (.ret stored_none)
        (.then_ fun _ => .ret (stored_some hp))
    · refine (P.predecessor _ _ ht).bind fun o ho => ?_
      cases o with
      | none => exact .ret stored_none
      | some p => exact .then_ fun _ => .ret (stored_some (ho p rfl))
    · refine (P.predecessor _ _ ht).bind fun o ho => ?_
      cases o with
      | none => exact .then_ fun _ => .ret stored_none
      | some p => exact .then_ fun _ => .ite (.ret stored_none) (.then_ fun _ => .ret (stored_some (ho p rfl)))

/-- what a call leaves and returns -/
structure Went (held : Multiset V) (it : Iter T K) (r : Iter T K × Option (K × V)) : Prop where
  tree : r.1.tree = it.tree
  mem : ∀ e, r.2 = some e → e.2 ∈ held
  over : r.2 = none → r.1.data = none ∧ r.1.emitted = it.emitted
  next : ∀ e, r.2 = some e → r.1.emitted = it.emitted + 1 ∧ r.1.emitted ≤ usizeMax

theorem add_ok {a n : Nat} (h : addUsize a 1 = .ok n) : n = a + 1 ∧ n ≤ usizeMax := by
  unfold addUsize at h
  split at h
  · cases h; exact ⟨rfl, by assumption⟩
  · cases h
theorem add_error {a : Nat} {p : Panic} (h : addUsize a 1 = .error p) : p = .arith ∧ usizeMax ≤ a := by
  unfold addUsize at h
  split at h
  · cases h
  · cases h; exact ⟨rfl, by omega⟩

omit [ActIterKey σ K] in
theorem went_finish (it : Iter T K) {o : Option (IterData K × (K × V))} (h : Stored (σ := σ) it.tree o) :
    Post (it.finishA (σ := σ) o) (Went (P.vals it.tree) it) := by
  cases o with
  | none => exact .ret ⟨rfl, by rintro _ ⟨⟩, fun _ => ⟨rfl, rfl⟩, by rintro _ ⟨⟩⟩
  | some p =>
    refine Post.bind (Post.lift (Q := fun n => n = it.emitted + 1 ∧ n ≤ usizeMax) fun _ => add_ok) fun n hn => ?_
    exact .ret ⟨rfl, by rintro _ ⟨⟩; exact h _ _ rfl, by rintro ⟨⟩, fun _ _ => hn⟩

theorem went_call (it : Iter T K) (ht : P.W it.tree) (si : Side) :
    Post (it.callA (σ := σ) si) (Went (P.vals it.tree) it) := by
  have h := stored_match (σ := σ) it ht si
  cases si with
  | front => exact h.bind fun o ho => went_finish it ho
  | back => exact h.bind fun o ho => went_finish it ho

omit P in
theorem stopped_call (it : Iter T K) (h : it.data = none) (si : Side) :
    (it.callA si : Act σ (Iter T K × Option (K × V))) = pure (⟨it.tree, none, it.emitted⟩, none) := by
  obtain ⟨t, d, n⟩ := it
  cases h
  cases si <;> rfl
omit P in
theorem stopped_calls (ss : List Side) (it : Iter T K) (h : it.data = none) (s : σ) :
    it.callsA ss s = .ok ((it, ss.map fun _ => none), s) := by
  induction ss generalizing it with
  | nil => rfl
  | cons si ss ih =>
    have e : (it.callsA (si :: ss) : Act σ (Iter T K × List (Option (K × V)))) =
        it.callA si >>= fun p => p.1.callsA ss >>= fun q => pure (q.1, p.2 :: q.2) := rfl
    rw [e, stopped_call it h si]
    have := ih it h
    obtain ⟨t, d, n⟩ := it
    cases h
    show ((callsA ⟨t, none, n⟩ ss : Act σ _) >>= fun q => pure (q.1, none :: q.2)) s = _
    show (callsA ⟨t, none, n⟩ ss s >>= fun q => (pure (q.1.1, none :: q.1.2) : Act σ _) q.2) = _
    rw [this]
    rfl

/-- `F`: `next` has been called, `B`: `next_back` has -/
def Used (F B : Prop) : Option (IterData K) → Prop
  | some (.front _) => F
  | some (.back _) => B
  | some (.both _ _) => F ∧ B
  | _ => True

omit P in
theorem used_match (it : Iter T K) {F B : Prop} (h : Used F B it.data) (si : Side) :
    Post (it.matchA (σ := σ) si) fun o => Used (F ∨ si = .front) (B ∨ si = .back) (o.map Prod.fst) := by
  cases si with
  | front =>
    show Post it.frontA _
    unfold frontA
    rcases hd : it.data with _ | (_ | k | k | ⟨a, b⟩) <;> rw [hd] at h
    · exact .ret trivial
    · exact .then_ fun p => .then_ fun _ => .ret (.inr rfl)
    · refine .then_ fun o => ?_
      cases o with
      | none => exact .ret trivial
      | some p => exact .then_ fun _ => .ret (.inr rfl)
    · exact .then_ fun p => .then_ fun _ => .ite (.ret trivial) (.then_ fun _ => .ret ⟨.inr rfl, .inl h⟩)
    · refine .then_ fun o => ?_
      cases o with
      | none => exact .then_ fun _ => .ret trivial
      | some p => exact .then_ fun _ => .ite (.ret trivial) (.then_ fun _ => .ret ⟨.inr rfl, .inl h.2⟩)
  | back =>
    show Post it.backA _
    unfold backA
    rcases hd : it.data with _ | (_ | k | k | ⟨a, b⟩) <;> rw [hd] at h
    · exact .ret trivial
    · exact .then_ fun p => .then_ fun _ => .ret (.inr rfl)
    · exact .then_ fun p => .then_ fun _ => .ite (.ret trivial) (.then_ fun _ => .ret ⟨.inl h, .inr rfl⟩)
    · refine .then_ fun o => ?_
      cases o with
      | none => exact .ret trivial
      | some p => exact .then_ fun _ => .ret (.inr rfl)
    · refine .then_ fun o => ?_
      cases o with
      | none => exact .then_ fun _ => .ret trivial
      | some p => exact .then_ fun _ => .ite (.ret trivial) (.then_ fun _ => .ret ⟨.inl h.1, .inr rfl⟩)

omit P in
theorem used_call (it : Iter T K) {F B : Prop} (h : Used F B it.data) (si : Side) :
    Post (it.callA (σ := σ) si) fun r => Used (F ∨ si = .front) (B ∨ si = .back) r.1.data := by
  have key : ∀ (F B : Prop) (o : Option (IterData K × (K × V))), Used F B (o.map Prod.fst) →
      Post (it.finishA (σ := σ) o) fun r => Used F B r.1.data := fun F B o ho => by
    cases o with
    | none => exact .ret trivial
    | some p => exact .then_ fun _ => .ret ho
  have h := used_match (σ := σ) it h si
  cases si with
  | front => exact h.bind fun o ho => key _ _ o ho
  | back => exact h.bind fun o ho => key _ _ o ho

variable {Us : Panic → Prop} {L : Prop} [N : Audit Us L σ T K V]

theorem aud_match (hk : IterKeyPanics σ K Us) (it : Iter T K) {n : Nat} (I : P.W it.tree) (J : N.A n it.tree) (si : Side) :
    Aud (fun p => N.E p ∨ p = .debugAssert ∧ ∃ a b, it.data = some (.both a b)) (it.matchA (σ := σ) si) fun _ => True := by
  have eq {a b : K} {E : Panic → Prop} : Aud (fun p => N.E p ∨ E p) (ActIterKey.eq (σ := σ) a b) fun _ => True :=
    .user (hk.eq a b) fun p h => .inl (N.user p h)
  have cl {a : K} {E : Panic → Prop} : Aud (fun p => N.E p ∨ E p) (ActIterKey.clone (σ := σ) a) fun _ => True :=
    .user (hk.clone a) fun p h => .inl (N.user p h)
  have mn {E : Panic → Prop} := (N.minVal _ _ I J).more (F := E) fun _ h => h.elim
  have mx {E : Panic → Prop} := (N.maxVal _ _ I J).more (F := E) fun _ h => h.elim
  have su {k : K} {E : Panic → Prop} := (N.successor _ _ k I J).more (F := fun p => N.E p ∨ E p) fun _ h => .inl h
  have pr {k : K} {E : Panic → Prop} := (N.predecessor _ _ k I J).more (F := fun p => N.E p ∨ E p) fun _ h => .inl h
  cases si with
  | front =>
    show Aud _ it.frontA _
    unfold frontA
    rcases hd : it.data with _ | (_ | k | k | ⟨a, b⟩)
    · exact .ret trivial
    · exact mn.bind fun p _ => cl.bind fun _ _ => .ret trivial
    · refine su.bind fun o _ => ?_
      cases o with
      | none => exact .ret trivial
      | some p => exact cl.bind fun _ _ => .ret trivial
    · exact mn.bind fun p _ => eq.bind fun _ _ => .ite (fun _ => .ret trivial) fun _ => cl.bind fun _ _ => .ret trivial
    · refine su.bind fun o _ => ?_
      cases o with
      | none => exact (Aud.assert fun _ => .inr ⟨rfl, a, b, rfl⟩).bind fun _ _ => .ret trivial
      | some p => exact eq.bind fun _ _ => .ite (fun _ => .ret trivial) fun _ => cl.bind fun _ _ => .ret trivial
  | back =>
    show Aud _ it.backA _
    unfold backA
    rcases hd : it.data with _ | (_ | k | k | ⟨a, b⟩)
    · exact .ret trivial
    · exact mx.bind fun p _ => cl.bind fun _ _ => .ret trivial
    · exact mx.bind fun p _ => eq.bind fun _ _ => .ite (fun _ => .ret trivial) fun _ => cl.bind fun _ _ => .ret trivial
    · refine pr.bind fun o _ => ?_
      cases o with
      | none => exact .ret trivial
      | some p => exact cl.bind fun _ _ => .ret trivial
    · refine pr.bind fun o _ => ?_
      cases o with
      | none => exact (Aud.assert fun _ => .inr ⟨rfl, a, b, rfl⟩).bind fun _ _ => .ret trivial
      | some p => exact eq.bind fun _ _ => .ite (fun _ => .ret trivial) fun _ => cl.bind fun _ _ => .ret trivial

omit P N [ActIterKey σ K] in
theorem aud_finish (it : Iter T K) (o : Option (IterData K × (K × V))) :
    Aud (fun p => p = .arith ∧ usizeMax ≤ it.emitted) (it.finishA (σ := σ) o) fun _ => True := by
  cases o with
  | none => exact .ret trivial
  | some p => exact (Aud.lift (Q := fun _ => True) (fun _ _ => trivial) fun p hp => add_error hp).bind fun _ _ => .ret trivial

theorem aud_call (hk : IterKeyPanics σ K Us) (it : Iter T K) {n : Nat} (I : P.W it.tree) (J : N.A n it.tree) (si : Side) :
    Aud (fun p => (N.E p ∨ p = .debugAssert ∧ ∃ a b, it.data = some (.both a b)) ∨ p = .arith ∧ usizeMax ≤ it.emitted)
      (it.callA (σ := σ) si) fun _ => True := by
  have h := (aud_match hk it I J si).more (F := fun p =>
    (N.E p ∨ p = .debugAssert ∧ ∃ a b, it.data = some (.both a b)) ∨ p = .arith ∧ usizeMax ≤ it.emitted) fun _ h => .inl h
  have f (o : Option (IterData K × (K × V))) := (aud_finish (σ := σ) it o).more (F := fun p =>
    (N.E p ∨ p = .debugAssert ∧ ∃ a b, it.data = some (.both a b)) ∨ p = .arith ∧ usizeMax ≤ it.emitted) fun _ h => .inr h
  cases si with
  | front => exact h.bind fun o _ => f o
  | back => exact h.bind fun o _ => f o

theorem aud_calls (hk : IterKeyPanics σ K Us) (ss : List Side) (it : Iter T K) {n : Nat} (I : P.W it.tree)
    (J : N.A n it.tree) {F B : Prop} (h : Used F B it.data) (hl : it.emitted ≤ usizeMax) :
    Aud (fun p => N.E p ∨ (p = .debugAssert ∧ (F ∨ Side.front ∈ ss) ∧ (B ∨ Side.back ∈ ss)) ∨
      p = .arith ∧ usizeMax < it.emitted + ss.length) (it.callsA (σ := σ) ss) fun _ => True := by
  induction ss generalizing it F B with
  | nil => exact .ret trivial
  | cons si ss ih =>
    refine ((((aud_call hk it I J si).and (went_call it I si)).and (used_call it h si)).more ?_).bind fun p hp => ?_
    · rintro p ((hp | ⟨hp, a, b, hd⟩) | ⟨hp, hx⟩)
      · exact .inl hp
      · rw [hd] at h
        exact .inr (.inl ⟨hp, .inl h.1, .inl h.2⟩)
      · exact .inr (.inr ⟨hp, by rw [List.length_cons]; omega⟩)
    · obtain ⟨⟨-, hw⟩, hu⟩ := hp
      have hl' : p.1.emitted ≤ it.emitted + 1 ∧ p.1.emitted ≤ usizeMax := by
        cases ho : p.2 with
        | none => rw [(hw.over ho).2]; omega
        | some e => have := hw.next e ho; omega
      have ht := hw.tree
      refine ((ih p.1 (ht ▸ I) (ht ▸ J) hu hl'.2).more ?_).bind fun _ _ => .ret trivial
      have mem : ∀ {G : Prop} {x : Side}, (G ∨ si = x) ∨ x ∈ ss → G ∨ x ∈ si :: ss := by
        rintro G x ((h | rfl) | h)
        · exact .inl h
        · exact .inr (.head _)
        · exact .inr (.tail _ h)
      rintro p (hp | ⟨hp, h1, h2⟩ | ⟨hp, hx⟩)
      · exact .inl hp
      · exact .inr (.inl ⟨hp, mem h1, mem h2⟩)
      · exact .inr (.inr ⟨hp, by rw [List.length_cons]; omega⟩)
end

end Veb.Iter
