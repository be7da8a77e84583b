import Verif.SpecLogged
import Verif.Proof.HonestColl
import Verif.Proof.Tick

/-!
What keys that write a log find in it is what the cost log says.
-/

set_option autoImplicit false
set_option linter.unusedSectionVars false

namespace Veb
open Tk (ev tick)

/-- the same outcome, and the log written -/
def SameL {α : Type} (Q : α → Prop) (s l : List Ev) (y : R (α × List Ev)) : R α → Prop
  | .ok a => Q a ∧ y = .ok (a, s ++ l.filter Ev.ofKey)
  | .error p => y = .error p

/-- `x` does what `r` does and writes the log of `r`; `Q` holds of the result -/
def Logs {α : Type} (Q : α → Prop) (x : Act (List Ev) α) (r : Tk α) : Prop := ∀ s, SameL Q s r.log (x s) r.run

/-- `x` answers `a` and writes nothing -/
def Silent {α : Type} (x : Act (List Ev) α) (a : α) : Prop := ∀ s, x s = .ok (a, s)
/-- `r` answers `a` and logs no code of keys -/
def Quiet {α : Type} (r : Tk α) (a : α) : Prop := r.run = .ok a ∧ r.log.filter Ev.ofKey = []

theorem Quiet.wrap {α β : Type} {r : Tk α} {a : α} {f : α → β} (h : Quiet r a) :
    Quiet (do tick; pure (f (← r))) (f a) := by
  obtain ⟨run, log⟩ := r
  obtain ⟨h, hl⟩ := h
  replace h : run = .ok a := h
  subst h
  refine ⟨rfl, ?_⟩
  show List.filter Ev.ofKey (.visit :: (log ++ [])) = []
  rw [List.append_nil]
  exact hl

namespace Logs
variable {α β : Type} {x : Act (List Ev) α} {r : Tk α} {Q Q' : α → Prop}

theorem ret {a : α} (h : Q a) : Logs Q (pure a : Act (List Ev) α) (pure a) := fun s =>
  ⟨h, congrArg (fun l => Except.ok (a, l)) (List.append_nil s).symm⟩
theorem bind {f : α → Act (List Ev) β} {g : α → Tk β} {P : β → Prop} (h : Logs Q x r) (h' : ∀ a, Q a → Logs P (f a) (g a)) :
    Logs P (x >>= f) (r >>= g) := by
  intro s
  have h1 := h s
  obtain ⟨run, log⟩ := r
  cases run with
  | error p =>
    show (x s >>= fun p => f p.1 p.2) = _
    rw [show x s = .error p from h1]; rfl
  | ok a =>
    obtain ⟨hq, h1⟩ := h1
    have h2 := h' a hq (s ++ log.filter Ev.ofKey)
    have e : (x >>= f) s = f a (s ++ log.filter Ev.ofKey) := by
      show (x s >>= fun p => f p.1 p.2) = _
      rw [h1]; rfl
    show SameL P s (log ++ (g a).log) _ (g a).run
    rw [e]
    generalize f a (s ++ log.filter Ev.ofKey) = y at h2 ⊢
    generalize g a = z at h2 ⊢
    obtain ⟨run, log'⟩ := z
    cases run with
    | error p => exact h2
    | ok b =>
      refine ⟨h2.1, h2.2.trans ?_⟩
      rw [List.filter_append, List.append_assoc]
theorem left {a : α} {f : α → Act (List Ev) β} {g : Tk β} {P : β → Prop} (h : Silent x a) (h' : Logs P (f a) g) :
    Logs P (x >>= f) g := by
  intro s
  have e : (x >>= f) s = f a s := by
    show (x s >>= fun p => f p.1 p.2) = _
    rw [h s]; rfl
  rw [e]
  exact h' s
theorem right {a : α} {f : Act (List Ev) β} {g : α → Tk β} {P : β → Prop} (h : Quiet r a) (h' : Logs P f (g a)) :
    Logs P f (r >>= g) := by
  intro s
  have h2 := h' s
  obtain ⟨run, log⟩ := r
  obtain ⟨h, hl⟩ := h
  replace h : run = .ok a := h
  subst h
  replace hl : log.filter Ev.ofKey = [] := hl
  show SameL P s (log ++ (g a).log) _ (g a).run
  generalize g a = z at h2 ⊢
  obtain ⟨run, log'⟩ := z
  cases run with
  | error p => exact h2
  | ok b =>
    refine ⟨h2.1, h2.2.trans ?_⟩
    rw [List.filter_append, hl, List.nil_append]
theorem tick {f : Act (List Ev) β} {g : Unit → Tk β} {P : β → Prop} (h' : Logs P f (g ())) :
    Logs P f (Tk.tick >>= g) := right ⟨rfl, rfl⟩ h'
theorem call {f : Act (List Ev) β} {g : Unit → Tk β} {P : β → Prop} (h' : Logs P f (g ())) :
    Logs P f (ev .call >>= g) := right ⟨rfl, rfl⟩ h'
theorem make {n : Nat} {f : Act (List Ev) β} {g : Unit → Tk β} {P : β → Prop} (h' : Logs P f (g ())) :
    Logs P f (ev (.make n) >>= g) := right ⟨rfl, rfl⟩ h'
theorem log {e : Ev} {a : α} {f : α → Act (List Ev) β} {g : Unit → Tk β} {P : β → Prop} (he : e.ofKey = true)
    (h : Logs P (f a) (g ())) : Logs P (logs e a >>= f) (ev e >>= g) := by
  refine bind (Q := fun b => b = ()) (x := (logs e ()) ) (f := fun _ => f a) (r := ev e) (fun s => ⟨rfl, ?_⟩) ?_
  · show _ = Except.ok ((), s ++ List.filter Ev.ofKey [e])
    rw [List.filter_cons, if_pos he]; rfl
  · rintro _ rfl; exact h
theorem mono (h : Logs Q x r) (i : ∀ a, Q a → Q' a) : Logs Q' x r := by
  intro s
  have h1 := h s
  obtain ⟨run, log⟩ := r
  cases run with
  | error p => exact h1
  | ok a => exact ⟨i a h1.1, h1.2⟩
theorem fail {p : Panic} : Logs Q (throw p : Act (List Ev) α) (Tk.lift (.error p)) := fun _ => rfl
theorem lift {r : R α} (h : ∀ a, r = .ok a → Q a) : Logs Q (liftM r : Act (List Ev) α) (liftM r : Tk α) := by
  intro s
  cases r with
  | error p => rfl
  | ok a => exact ⟨h a rfl, congrArg (fun l => Except.ok (a, l)) (List.append_nil s).symm⟩
theorem lift' {r : R α} : Logs (fun _ => True) (liftM r : Act (List Ev) α) (liftM r : Tk α) := lift fun _ _ => trivial
theorem exp {o : Option α} {m : String} :
    Logs (fun a => o = some a) (liftM (expect m o) : Act (List Ev) α) (liftM (expect m o) : Tk α) := by
  refine lift fun a h => ?_
  cases o with
  | none => cases h
  | some b => cases h; rfl
theorem ite {p : Prop} [Decidable p] {y : Act (List Ev) α} {r' : Tk α} (h : Logs Q x r) (h' : Logs Q y r') :
    Logs Q (if decide p = true then x else y) (if p then r else r') := by
  by_cases hp : p
  · rw [if_pos (decide_eq_true hp), if_pos hp]; exact h
  · rw [if_neg (by simpa using hp), if_neg hp]; exact h'
theorem ite' {p : Prop} [Decidable p] {y : Act (List Ev) α} {r' : Tk α} (h : p → Logs Q x r) (h' : ¬ p → Logs Q y r') :
    Logs Q (if p then x else y) (if p then r else r') := by
  by_cases hp : p
  · rw [if_pos hp, if_pos hp]; exact h hp
  · rw [if_neg hp, if_neg hp]; exact h' hp
theorem split {K Hi Lo : Type} [LinearOrder K] [VebKey K Hi Lo] [VebKeyRef K Hi Lo] {k : K} {f : Hi → Lo → Act (List Ev) α}
    {g : Unit → Tk α} (h : Logs Q (f (VebKeyRef.splitRef k).1 (VebKeyRef.splitRef k).2) (g ())) :
    Logs Q (withSplit k f) (ev .split >>= g) := by
  refine log rfl ?_
  intro s
  have h2 := h s
  show SameL Q s _ (f (VebKeyRef.splitRef k).1 (VebKeyRef.splitRef k).2 s >>= fun p => Except.ok (p.1, p.2)) _
  generalize g () = z at h2 ⊢
  obtain ⟨run, l⟩ := z
  cases run with
  | error p => rw [show f _ _ s = .error p from h2]; rfl
  | ok a => rw [h2.2]; exact ⟨h2.1, rfl⟩
theorem is (a : α) (hx : Silent x a) (hr : Quiet r a) (h : Q a) : Logs Q x r := by
  intro s
  rw [hx s, hr.1]
  refine ⟨h, ?_⟩
  rw [hr.2, List.append_nil]
theorem liftBind {x : Act (List Ev) β} {P : β → Prop} {r : R α} {g : α → R β}
    (h : Logs P x ((liftM r : Tk α) >>= fun a => (liftM (g a) : Tk β))) : Logs P x (liftM (r >>= g) : Tk β) := by
  cases r <;> exact h
theorem liftPure {x : Act (List Ev) α} {a : α} (h : Logs Q x (pure a)) : Logs Q x (liftM (pure a : R α) : Tk α) := h
end Logs

/-- `ActTree` and `TickTree` do the same on good trees, and leave good trees. -/
class LTree (T : Type) (K V : outParam Type) [A : ActTree (List Ev) T K V] [B : TickTree T K V] where
  W : T → Prop
  fromMonad : ∀ k v, Quiet (B.fromMonad k v) (A.fromMonad k v) ∧ W (A.fromMonad k v)
  isMonad : ∀ t, W t → Logs (fun _ => True) (A.isMonad t) (B.isMonad t)
  lenHint : ∀ t, W t → Logs (fun _ => True) (A.lenHint t) (B.lenHint t)
  intoMonad : ∀ t, W t → Logs (fun r => ∀ u, r = .Err u → W u) (A.intoMonad t) (B.intoMonad t)
  minVal : ∀ t, W t → Logs (fun _ => True) (A.minVal t) (B.minVal t)
  minValMut : ∀ t, W t → Logs (fun r => ∀ w, W (r.2.2 w)) (A.minValMut t) (B.minValMut t)
  maxVal : ∀ t, W t → Logs (fun _ => True) (A.maxVal t) (B.maxVal t)
  maxValMut : ∀ t, W t → Logs (fun r => ∀ w, W (r.2.2 w)) (A.maxValMut t) (B.maxValMut t)
  find : ∀ t k, W t → Logs (fun _ => True) (A.find t k) (B.find t k)
  findMut : ∀ t k, W t → Logs (PutO W) (A.findMut t k) (B.findMut t k)
  predecessor : ∀ t k, W t → Logs (fun _ => True) (A.predecessor t k) (B.predecessor t k)
  predecessorMut : ∀ t k, W t → Logs (PutO W) (A.predecessorMut t k) (B.predecessorMut t k)
  successor : ∀ t k, W t → Logs (fun _ => True) (A.successor t k) (B.successor t k)
  successorMut : ∀ t k, W t → Logs (PutO W) (A.successorMut t k) (B.successorMut t k)
  insert : ∀ t k v, W t → Logs (fun r => W r.1) (A.insert t k v) (B.insert t k v)
  remove : ∀ t k, W t → Logs (RemO W) (A.remove t k) (B.remove t k)
  removeMin : ∀ t, W t → Logs (fun r => AllO W r.1) (A.removeMin t) (B.removeMin t)
  removeMax : ∀ t, W t → Logs (fun r => AllO W r.1) (A.removeMax t) (B.removeMax t)

/-- `ActColl` and `TickColl` do the same. -/
class LColl (C : Type) (Hi T Lo V : outParam Type) [ActTree (List Ev) T Lo V] [TickTree T Lo V] [P : LTree T Lo V]
    [A : ActColl (List Ev) C Hi T Lo V] [G : TreeCollection C Hi T Lo V]
    [B : TickColl C Hi T Lo V] where
  W : C → Prop
  create : ∀ h t, P.W t → Logs W (A.create h t) (B.create h t)
  get : ∀ c h, W c → Logs (AllO P.W) (A.get c h) (liftM (G.get c h) : Tk _)
  getMut : ∀ c h, W c → Logs (fun o => ∀ p, o = some p → P.W p.1 ∧ ∀ u, P.W u → W (p.2 u)) (A.getMut c h)
    (liftM (G.getMut c h) : Tk _)
  insertKey : ∀ c h e, W c → Logs (fun r => W r.1) (A.insertKey c h e) (B.insertKey c h e)
  removeKey : ∀ c h f g, W c → (∀ t, P.W t → Logs (fun r => AllO P.W r.1) (f t) (g t)) →
    Logs (fun r => AllO (fun p : C × Bool => W p.1) r.1) (A.removeKey c h f) (B.removeKey c h g)
  maybeRemoveKey : ∀ c h f g, W c → (∀ t, P.W t → Logs (RemO P.W) (f t) (g t)) →
    Logs (fun r => match r with
      | .Ok r => AllO (fun p : C × Bool => W p.1) r.1
      | .Err c => W c) (A.maybeRemoveKey c h f) (B.maybeRemoveKey c h g)

namespace LTree

/-- code without a state -/
@[reducible] def leaf {T K V : Type} [VebTree T K V] : @LTree T K V (ActTree.plain (List Ev)) (TickTree.leaf T) :=
  letI : ActTree (List Ev) T K V := ActTree.plain (List Ev)
  letI : TickTree T K V := TickTree.leaf T
  { W := fun _ => True
    fromMonad := fun _ _ => ⟨⟨rfl, rfl⟩, trivial⟩
    isMonad := fun _ _ => .tick .lift'
    lenHint := fun _ _ => .tick .lift'
    intoMonad := fun _ _ => .tick (.lift fun _ _ _ _ => trivial)
    minVal := fun _ _ => .tick .lift'
    minValMut := fun _ _ => .tick (.lift fun _ _ _ => trivial)
    maxVal := fun _ _ => .tick .lift'
    maxValMut := fun _ _ => .tick (.lift fun _ _ _ => trivial)
    find := fun _ _ _ => .tick .lift'
    findMut := fun _ _ _ => .tick (.lift fun _ _ _ _ _ => trivial)
    predecessor := fun _ _ _ => .tick .lift'
    predecessorMut := fun _ _ _ => .tick (.lift fun _ _ _ _ _ => trivial)
    successor := fun _ _ _ => .tick .lift'
    successorMut := fun _ _ _ => .tick (.lift fun _ _ _ _ _ => trivial)
    insert := fun _ _ _ _ => .tick .lift'
    remove := fun _ _ _ => .tick (.lift fun r _ => by cases r <;> first | trivial | exact fun _ _ => trivial)
    removeMin := fun _ _ => .tick (.lift fun _ _ _ _ => trivial)
    removeMax := fun _ _ => .tick (.lift fun _ _ _ _ => trivial) }

variable {T K V : Type} [ActTree (List Ev) T K V] [TickTree T K V] [P : LTree T K V]

theorem map_put {T' : Type} {W' : T' → Prop} {f : T → T'} (hf : ∀ t, P.W t → W' (f t)) {o : Option (K × V × (V → T))}
    (h : PutO P.W o) : PutO W' (o.map (mapPut f)) := by
  cases o with
  | none => exact putO_none
  | some p => exact putO_some fun w => hf _ (h p rfl w)

instance instBox : LTree (Box T) K V where
  W t := P.W t.val
  fromMonad k v := ⟨(P.fromMonad k v).1.wrap, (P.fromMonad k v).2⟩
  isMonad t I := .tick <| P.isMonad t.val I
  lenHint t I := .tick <| P.lenHint t.val I
  intoMonad t I := .tick <| (P.intoMonad t.val I).bind fun r hr => by
    cases r with
    | Ok e => exact .ret (by rintro _ ⟨⟩)
    | Err u => exact .ret (by rintro _ ⟨⟩; exact hr u rfl)
  minVal t I := .tick <| P.minVal t.val I
  minValMut t I := .tick <| (P.minValMut t.val I).bind fun r hr => .ret hr
  maxVal t I := .tick <| P.maxVal t.val I
  maxValMut t I := .tick <| (P.maxValMut t.val I).bind fun r hr => .ret hr
  find t k I := .tick <| P.find t.val k I
  findMut t k I := .tick <| (P.findMut t.val k I).bind fun r hr => .ret (map_put (f := Box.mk) (fun _ h => h) hr)
  predecessor t k I := .tick <| P.predecessor t.val k I
  predecessorMut t k I := .tick <| (P.predecessorMut t.val k I).bind fun r hr => .ret (map_put (f := Box.mk) (fun _ h => h) hr)
  successor t k I := .tick <| P.successor t.val k I
  successorMut t k I := .tick <| (P.successorMut t.val k I).bind fun r hr => .ret (map_put (f := Box.mk) (fun _ h => h) hr)
  insert t k v I := .tick <| (P.insert t.val k v I).bind fun r hr => .ret hr
  remove t k I := .tick <| (P.remove t.val k I).bind fun r hr => by
    obtain ⟨_ | u, e⟩ | u := r
    · exact .ret allO_none
    · exact .ret (allO_some (hr u rfl))
    · exact .ret hr
  removeMin t I := .tick <| (P.removeMin t.val I).bind fun r hr => by
    obtain ⟨_ | u, e⟩ := r
    · exact .ret allO_none
    · exact .ret (allO_some (hr u rfl))
  removeMax t I := .tick <| (P.removeMax t.val I).bind fun r hr => by
    obtain ⟨_ | u, e⟩ := r
    · exact .ret allO_none
    · exact .ret (allO_some (hr u rfl))

instance instSized : LTree (SizedVebTree T) K V where
  W t := P.W t.tree
  fromMonad k v := ⟨(P.fromMonad k v).1.wrap, (P.fromMonad k v).2⟩
  isMonad t I := .tick <| (P.isMonad t.tree I).bind fun b _ => by
    cases b with
    | false => exact .ret trivial
    | true => exact Logs.lift'.bind fun _ _ => .ret trivial
  lenHint t I := .tick (.ret trivial)
  intoMonad t I := .tick <| (P.intoMonad t.tree I).bind fun r hr => by
    cases r with
    | Ok e => exact .ret (by rintro _ ⟨⟩)
    | Err u => exact .ret (by rintro _ ⟨⟩; exact hr u rfl)
  minVal t I := .tick <| P.minVal t.tree I
  minValMut t I := .tick <| (P.minValMut t.tree I).bind fun r hr => .ret hr
  maxVal t I := .tick <| P.maxVal t.tree I
  maxValMut t I := .tick <| (P.maxValMut t.tree I).bind fun r hr => .ret hr
  find t k I := .tick <| P.find t.tree k I
  findMut t k I := .tick <| (P.findMut t.tree k I).bind fun r hr => .ret (map_put (f := fun u => { t with tree := u }) (fun _ h => h) hr)
  predecessor t k I := .tick <| P.predecessor t.tree k I
  predecessorMut t k I := .tick <| (P.predecessorMut t.tree k I).bind fun r hr => .ret (map_put (f := fun u => { t with tree := u }) (fun _ h => h) hr)
  successor t k I := .tick <| P.successor t.tree k I
  successorMut t k I := .tick <| (P.successorMut t.tree k I).bind fun r hr => .ret (map_put (f := fun u => { t with tree := u }) (fun _ h => h) hr)
  insert t k v I := .tick <| (P.insert t.tree k v I).bind fun r hr => by
    obtain ⟨u, _ | e⟩ := r
    · exact Logs.lift'.bind fun _ _ => .ret hr
    · exact .ret hr
  remove t k I := .tick <| (P.remove t.tree k I).bind fun r hr => by
    obtain ⟨_ | u, e⟩ | u := r
    · exact .ret allO_none
    · exact Logs.lift'.bind fun _ _ => Logs.lift'.bind fun _ _ => .ret (allO_some (hr u rfl))
    · exact .ret hr
  removeMin t I := .tick <| Logs.lift'.bind fun _ _ => (P.removeMin t.tree I).bind fun r hr => by
    obtain ⟨_ | u, e⟩ := r
    · exact .ret allO_none
    · exact Logs.lift'.bind fun _ _ => .ret (allO_some (hr u rfl))
  removeMax t I := .tick <| Logs.lift'.bind fun _ _ => (P.removeMax t.tree I).bind fun r hr => by
    obtain ⟨_ | u, e⟩ := r
    · exact .ret allO_none
    · exact Logs.lift'.bind fun _ _ => .ret (allO_some (hr u rfl))

end LTree
end Veb
