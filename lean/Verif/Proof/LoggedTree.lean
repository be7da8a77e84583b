import Verif.Proof.LoggedColl
import Verif.Proof.HonestTree

/-!
`Tree` over keys that write a log.
-/

set_option autoImplicit false
set_option linter.unusedSectionVars false

namespace Veb
open Tk (ev tick)
namespace Tree
variable {K V S C Hi Lo T : Type} [LinearOrder K] [VebKey K Hi Lo] [VebKeyRef K Hi Lo]
  [ActTree (List Ev) S Hi Unit] [TickTree S Hi Unit] [PS : LTree S Hi Unit] [ActTree (List Ev) T Lo V] [TickTree T Lo V]
  [PT : LTree T Lo V] [ActColl (List Ev) C Hi T Lo V] [TreeCollection C Hi T Lo V] [TickColl C Hi T Lo V]
  [PC : LColl C Hi T Lo V]

local notation "WS" => LTree.W (T := S) (K := Hi) (V := Unit)
local notation "WT" => LTree.W (T := T) (K := Lo) (V := V)
local notation "WC" => LColl.W (C := C) (Hi := Hi) (T := T) (Lo := Lo) (V := V)
local notation "WW" => BelowGood (K := K) (V := V) WS WC

theorem logged_find (t : Tree K V S C) (k : K) (I : WW t) : Logs (fun _ => True) (findA (σ := List Ev) t k) (findT t k) := by
  obtain ⟨m, d⟩ := t
  unfold findA findT
  refine .tick ?_
  refine .log rfl ?_
  dsimp only
  generalize cmp k m.1 = o
  cases o with
  | lt => exact .ret trivial
  | eq => exact .ret trivial
  | gt =>
    obtain _ | ⟨x, ch⟩ := d
    · exact .ret trivial
    refine .log rfl ?_
    refine .ite (.ret trivial) ?_
    obtain _ | ⟨s, c⟩ := ch
    · exact .ret trivial
    have ⟨hs, hc⟩ := I _ rfl _ rfl
    refine .split ?_
    generalize VebKeyRef.splitRef k = hl
    obtain ⟨hi, lo⟩ := hl
    refine .call <| (PC.get c hi hc).bind fun o ho => ?_
    obtain _ | u := o
    · exact .ret trivial
    refine (PT.find u lo (ho u rfl)).bind fun r _ => ?_
    obtain _ | ⟨lo, v⟩ := r
    · exact .ret trivial
    exact .log rfl (.ret trivial)

theorem logged_findMut (t : Tree K V S C) (k : K) (I : WW t) : Logs (PutO WW) (findMutA (σ := List Ev) t k) (findMutT t k) := by
  obtain ⟨m, d⟩ := t
  unfold findMutA findMutT
  refine .tick ?_
  refine .log rfl ?_
  dsimp only
  generalize cmp k m.1 = o
  cases o with
  | lt => exact .ret putO_none
  | eq => exact .ret (putO_some fun w => I)
  | gt =>
    obtain _ | ⟨x, ch⟩ := d
    · exact .ret putO_none
    refine .log rfl ?_
    refine .ite (.ret (putO_some fun w => good_some (I ⟨x, ch⟩ rfl))) ?_
    obtain _ | ⟨s, c⟩ := ch
    · exact .ret putO_none
    have ⟨hs, hc⟩ := I _ rfl _ rfl
    refine .split ?_
    generalize VebKeyRef.splitRef k = hl
    obtain ⟨hi, lo⟩ := hl
    refine .call <| (PC.getMut c hi hc).bind fun o ho => ?_
    obtain _ | ⟨u, put⟩ := o
    · exact .ret putO_none
    have hu := ho _ rfl
    refine (PT.findMut u lo hu.1).bind fun r hr => ?_
    obtain _ | ⟨lo, v, put'⟩ := r
    · exact .ret putO_none
    exact .log rfl (.ret (putO_some fun w => good_kids hs (hu.2 _ (hr _ rfl w))))

/-- the greatest entry below -/
theorem logged_below {β : Type} {f : T → Act (List Ev) (Lo × V)} {g : T → Tk (Lo × V)} (hf : ∀ t, WT t → Logs (fun _ => True) (f t) (g t))
    {c : C} (hc : WC c) {hi : Hi} {m : String} {F : K × V → β} :
    Logs (fun _ => True)
      (do
        let child ← expect m (← ActColl.get c hi)
        let (lo, val) ← f child
        pure (F (← ActKey.join (σ := List Ev) hi lo, val)) : Act (List Ev) β)
      (do
        ev .call
        let child ← expect m (← TreeCollection.get c hi)
        let (lo, val) ← g child
        ev .join
        pure (F (VebKey.join hi lo, val))) := by
  refine .call <| (PC.get c hi hc).bind fun o ho => ?_
  refine Logs.exp.bind fun u e => ?_
  subst e
  refine (hf u (ho u rfl)).bind fun r _ => ?_
  exact .log rfl (.ret trivial)
theorem logged_belowMut {f : T → Act (List Ev) (Lo × V × (V → T))} {g : T → Tk (Lo × V × (V → T))}
    (hf : ∀ t, WT t → Logs (fun r => ∀ w, WT (r.2.2 w)) (f t) (g t))
    {c : C} (hc : WC c) {hi : Hi} {m : String} {F : C → Tree K V S C} (hF : ∀ c, WC c → WW (F c)) :
    Logs (PutO WW)
      (do
        let (child, putC) ← expect m (← ActColl.getMut c hi)
        let (lo, val, put) ← f child
        pure (some (← ActKey.join (σ := List Ev) hi lo, val, fun w => F (putC (put w)))) : Act (List Ev) (Option (K × V × (V → Tree K V S C))))
      (do
        ev .call
        let (child, putC) ← expect m (← TreeCollection.getMut c hi)
        let (lo, val, put) ← g child
        ev .join
        pure (some (VebKey.join hi lo, val, fun w => F (putC (put w))))) := by
  refine .call <| (PC.getMut c hi hc).bind fun o ho => ?_
  refine Logs.exp.bind fun u e => ?_
  subst e
  have hu := ho _ rfl
  refine (hf u.1 hu.1).bind fun r hr => ?_
  exact .log rfl (.ret (putO_some fun w => hF _ (hu.2 _ (hr w))))

theorem logged_predecessor (t : Tree K V S C) (k : K) (I : WW t) :
    Logs (fun _ => True) (predecessorA (σ := List Ev) t k) (predecessorT t k) := by
  obtain ⟨m, d⟩ := t
  unfold predecessorA predecessorT
  refine .tick ?_
  refine .log rfl ?_
  refine .ite (.ret trivial) ?_
  obtain _ | ⟨x, ch⟩ := d
  · exact .ret trivial
  refine .log rfl ?_
  dsimp only
  generalize cmp k x.1 = o
  obtain _ | ⟨s, c⟩ := ch
  · cases o <;> exact .ret trivial
  have ⟨hs, hc⟩ := I _ rfl _ rfl
  cases o with
  | gt => exact .ret trivial
  | eq => exact (PS.maxVal s hs).bind fun r _ => logged_below PT.maxVal hc (F := some)
  | lt =>
    refine .split ?_
    generalize VebKeyRef.splitRef k = hl
    obtain ⟨hi, lo⟩ := hl
    refine Logs.bind (Q := fun _ => True) ?_ fun r _ => ?_
    · refine .call <| (PC.get c hi hc).bind fun o ho => ?_
      obtain _ | u := o
      · exact .ret trivial
      exact PT.predecessor u lo (ho u rfl)
    obtain _ | ⟨lo, v⟩ := r
    · refine (PS.predecessor s hi hs).bind fun r _ => ?_
      obtain _ | ⟨hi, ⟨⟩⟩ := r
      · exact .ret trivial
      exact logged_below PT.maxVal hc (F := some)
    · exact .log rfl (.ret trivial)

theorem logged_predecessorMut (t : Tree K V S C) (k : K) (I : WW t) :
    Logs (PutO WW) (predecessorMutA (σ := List Ev) t k) (predecessorMutT t k) := by
  obtain ⟨m, d⟩ := t
  unfold predecessorMutA predecessorMutT
  refine .tick ?_
  refine .log rfl ?_
  refine .ite (.ret putO_none) ?_
  obtain _ | ⟨x, ch⟩ := d
  · exact .ret (putO_some fun w => good_none)
  refine .log rfl ?_
  dsimp only
  generalize cmp k x.1 = o
  obtain _ | ⟨s, c⟩ := ch
  · cases o <;> exact .ret (putO_some fun w => good_leaf)
  have ⟨hs, hc⟩ := I _ rfl _ rfl
  cases o with
  | gt => exact .ret (putO_some fun w => good_kids hs hc)
  | eq =>
    refine .log rfl (Logs.lift'.bind fun _ _ => ?_)
    exact (PS.maxVal s hs).bind fun r _ => logged_belowMut PT.maxValMut hc fun c h => good_kids hs h
  | lt =>
    refine .split ?_
    generalize VebKeyRef.splitRef k = hl
    obtain ⟨hi, lo⟩ := hl
    refine Logs.bind (Q := fun o => PutO WC o) ?_ fun r hr => ?_
    · refine .call <| (PC.getMut c hi hc).bind fun o ho => ?_
      obtain _ | ⟨u, put⟩ := o
      · exact .ret putO_none
      have hu := ho _ rfl
      exact (PT.predecessorMut u lo hu.1).bind fun r hr => .ret (LTree.map_put hu.2 hr)
    obtain _ | ⟨lo, v, put⟩ := r
    · refine (PS.predecessor s hi hs).bind fun r _ => ?_
      obtain _ | ⟨hi, ⟨⟩⟩ := r
      · exact .ret (putO_some fun w => good_kids hs hc)
      exact logged_belowMut PT.maxValMut hc fun c h => good_kids hs h
    · exact .log rfl (.ret (putO_some fun w => good_kids hs (hr _ rfl w)))

theorem logged_successor (t : Tree K V S C) (k : K) (I : WW t) :
    Logs (fun _ => True) (successorA (σ := List Ev) t k) (successorT t k) := by
  obtain ⟨m, d⟩ := t
  unfold successorA successorT
  refine .tick ?_
  refine .log rfl ?_
  refine .ite (.ret trivial) ?_
  obtain _ | ⟨x, ch⟩ := d
  · exact .ret trivial
  refine .log rfl ?_
  refine .ite (.ret trivial) ?_
  obtain _ | ⟨s, c⟩ := ch
  · exact .ret trivial
  have ⟨hs, hc⟩ := I _ rfl _ rfl
  refine .log rfl ?_
  refine .ite ?_ ?_
  · exact (PS.minVal s hs).bind fun r _ => logged_below PT.minVal hc (F := some)
  · refine .split ?_
    generalize VebKeyRef.splitRef k = hl
    obtain ⟨hi, lo⟩ := hl
    refine Logs.bind (Q := fun _ => True) ?_ fun r _ => ?_
    · refine .call <| (PC.get c hi hc).bind fun o ho => ?_
      obtain _ | u := o
      · exact .ret trivial
      exact PT.successor u lo (ho u rfl)
    obtain _ | ⟨lo, v⟩ := r
    · refine (PS.successor s hi hs).bind fun r _ => ?_
      obtain _ | ⟨hi, ⟨⟩⟩ := r
      · exact .ret trivial
      exact logged_below PT.minVal hc (F := some)
    · exact .log rfl (.ret trivial)

theorem logged_successorMut (t : Tree K V S C) (k : K) (I : WW t) :
    Logs (PutO WW) (successorMutA (σ := List Ev) t k) (successorMutT t k) := by
  obtain ⟨m, d⟩ := t
  unfold successorMutA successorMutT
  refine .tick ?_
  refine .log rfl ?_
  refine .ite (.ret (putO_some fun w => I)) ?_
  obtain _ | ⟨x, ch⟩ := d
  · exact .ret putO_none
  refine .log rfl ?_
  refine .ite (.ret putO_none) ?_
  obtain _ | ⟨s, c⟩ := ch
  · exact .ret (putO_some fun w => good_leaf)
  have ⟨hs, hc⟩ := I _ rfl _ rfl
  refine .log rfl ?_
  refine .ite ?_ ?_
  · exact (PS.minVal s hs).bind fun r _ => logged_belowMut PT.minValMut hc fun c h => good_kids hs h
  · refine .split ?_
    generalize VebKeyRef.splitRef k = hl
    obtain ⟨hi, lo⟩ := hl
    refine Logs.bind (Q := fun o => PutO WC o) ?_ fun r hr => ?_
    · refine .call <| (PC.getMut c hi hc).bind fun o ho => ?_
      obtain _ | ⟨u, put⟩ := o
      · exact .ret putO_none
      have hu := ho _ rfl
      exact (PT.successorMut u lo hu.1).bind fun r hr => .ret (LTree.map_put hu.2 hr)
    obtain _ | ⟨lo, v, put⟩ := r
    · refine (PS.successor s hi hs).bind fun r _ => ?_
      obtain _ | ⟨hi, ⟨⟩⟩ := r
      · exact .ret (putO_some fun w => good_kids hs hc)
      exact logged_belowMut PT.minValMut hc fun c h => good_kids hs h
    · exact .log rfl (.ret (putO_some fun w => good_kids hs (hr _ rfl w)))

theorem logged_insertBelow (m : K × V) (d : TreeData K V S C) (k : K) (v : V) (I : KidsGood WS WC d.children) :
    Logs (fun r => WW r.1) (insertBelowA (σ := List Ev) m d k v) (insertBelowT m d k v) := by
  obtain ⟨x, ch⟩ := d
  unfold insertBelowA insertBelowT
  refine .log rfl ?_
  generalize VebKey.splitVal k = hl
  obtain ⟨hi, lo⟩ := hl
  obtain _ | ⟨s, c⟩ := ch
  · have h1 := PT.fromMonad lo v
    have h2 := PS.fromMonad hi ()
    exact .right h1.1 <| .call <| (PC.create hi _ h1.2).bind fun c hc => .right h2.1 <| .ret (good_kids h2.2 hc)
  have ⟨hs, hc⟩ := I _ rfl
  refine .call <| (PC.insertKey c hi (lo, v) hc).bind fun r hr => ?_
  obtain ⟨c, hi | ⟨hi, _ | ⟨lo, v⟩⟩⟩ := r
  · exact (PS.insert s hi () hs).bind fun r hr' => .ret (good_kids hr' hr)
  · exact .ret (good_kids hs hr)
  · exact .log rfl (.ret (good_kids hs hr))

theorem logged_insert (t : Tree K V S C) (k : K) (v : V) (I : WW t) :
    Logs (fun r => WW r.1) (insertA (σ := List Ev) t k v) (insertT t k v) := by
  obtain ⟨m, d⟩ := t
  unfold insertA insertT
  refine .tick ?_
  refine .log rfl ?_
  dsimp only
  generalize cmp k m.1 = o
  obtain _ | d := d
  · cases o with
    | lt => exact .ret good_leaf
    | eq => exact .ret good_none
    | gt => exact .ret good_leaf
  have hd := I _ rfl
  cases o with
  | eq => exact .ret I
  | lt =>
    refine .log rfl ?_
    generalize cmp d.max.1 m.1 = o
    cases o with
    | eq => exact .ret (good_some hd)
    | gt => exact logged_insertBelow _ _ _ _ hd
    | lt => exact logged_insertBelow _ _ _ _ hd
  | gt =>
    refine .log rfl ?_
    generalize cmp k d.max.1 = o
    cases o with
    | eq => exact .ret (good_some hd)
    | gt => exact logged_insertBelow _ _ _ _ hd
    | lt => exact logged_insertBelow _ _ _ _ hd

theorem logged_removeMin (t : Tree K V S C) (I : WW t) :
    Logs (fun r => AllO WW r.1) (removeMinA (σ := List Ev) t) (removeMinT t) := by
  obtain ⟨m, d⟩ := t
  unfold removeMinA removeMinT
  refine .tick ?_
  obtain _ | ⟨x, _ | ⟨s, c⟩⟩ := d
  · exact .ret allO_none
  · exact .ret (allO_some good_none)
  have ⟨hs, hc⟩ := I _ rfl _ rfl
  refine (PS.minVal s hs).bind fun r _ => ?_
  refine .call <| (PC.removeKey c r.1 _ _ hc PT.removeMin).bind fun q hq => ?_
  refine .log rfl ?_
  obtain ⟨o, lo, v⟩ := q
  refine Logs.bind (Q := KidsGood WS WC) ?_ fun ch hch => .ret (allO_some (good_some hch))
  obtain _ | ⟨c, _ | _⟩ := o
  · exact .ret allO_none
  · exact .ret (allO_some ⟨hs, hq _ rfl⟩)
  · refine (PS.removeMin s hs).bind fun r hr => Logs.exp.bind fun s' e => ?_
    exact .ret (allO_some ⟨hr _ e, hq _ rfl⟩)

theorem logged_removeMax (t : Tree K V S C) (I : WW t) :
    Logs (fun r => AllO WW r.1) (removeMaxA (σ := List Ev) t) (removeMaxT t) := by
  obtain ⟨m, d⟩ := t
  unfold removeMaxA removeMaxT
  refine .tick ?_
  obtain _ | ⟨x, _ | ⟨s, c⟩⟩ := d
  · exact .ret allO_none
  · exact .ret (allO_some good_none)
  have ⟨hs, hc⟩ := I _ rfl _ rfl
  refine (PS.maxVal s hs).bind fun r _ => ?_
  refine .call <| (PC.removeKey c r.1 _ _ hc PT.removeMax).bind fun q hq => ?_
  refine .log rfl ?_
  obtain ⟨o, lo, v⟩ := q
  refine Logs.bind (Q := KidsGood WS WC) ?_ fun ch hch => .ret (allO_some (good_some hch))
  obtain _ | ⟨c, _ | _⟩ := o
  · exact .ret allO_none
  · exact .ret (allO_some ⟨hs, hq _ rfl⟩)
  · refine (PS.removeMax s hs).bind fun r hr => Logs.exp.bind fun s' e => ?_
    exact .ret (allO_some ⟨hr _ e, hq _ rfl⟩)

theorem logged_remove (t : Tree K V S C) (k : K) (I : WW t) : Logs (RemO WW) (removeA (σ := List Ev) t k) (removeT t k) := by
  have hm := logged_removeMin t I
  obtain ⟨m, d⟩ := t
  unfold removeA removeT
  refine .tick ?_
  refine .log rfl ?_
  refine .ite (hm.bind fun r hr => .ret hr) ?_
  obtain _ | ⟨x, _ | ⟨s, c⟩⟩ := d
  · exact .ret I
  · refine .log rfl ?_
    exact .ite (.ret (allO_some good_none)) (.ret I)
  have ⟨hs, hc⟩ := I _ rfl _ rfl
  refine .log rfl ?_
  refine .ite ?_ ?_
  · refine (PS.maxVal s hs).bind fun r _ => ?_
    refine .call <| (PC.removeKey c r.1 _ _ hc PT.removeMax).bind fun q hq => ?_
    refine .log rfl ?_
    obtain ⟨o, lo, v⟩ := q
    refine Logs.bind (Q := KidsGood WS WC) ?_ fun ch hch => .ret (allO_some (good_some hch))
    obtain _ | ⟨c, _ | _⟩ := o
    · exact .ret allO_none
    · exact .ret (allO_some ⟨hs, hq _ rfl⟩)
    · refine (PS.removeMax s hs).bind fun r hr => Logs.exp.bind fun s' e => ?_
      exact .ret (allO_some ⟨hr _ e, hq _ rfl⟩)
  · refine .split ?_
    generalize VebKeyRef.splitRef k = hl
    obtain ⟨hi, lo⟩ := hl
    refine .call <| (PC.maybeRemoveKey c hi _ _ hc fun u hu => PT.remove u lo hu).bind fun r hr => ?_
    obtain ⟨_ | ⟨c, _ | _⟩, lo, v⟩ | c := r
    · exact .log rfl (.ret (allO_some good_leaf))
    · exact .log rfl (.ret (allO_some (good_kids hs (hr _ rfl))))
    · refine (PS.remove s hi hs).bind fun r hr' => ?_
      obtain r | r := r
      swap
      · exact Logs.bind (Q := fun _ => False) .fail fun _ => False.elim
      refine Logs.bind (Q := fun r' => r' = r) (.ret rfl) fun _ e => ?_
      subst e
      refine Logs.exp.bind fun s' e => ?_
      exact .log rfl (.ret (allO_some (good_kids (hr' _ e) (hr _ rfl))))
    · exact .ret (good_kids hs hr)

@[reducible] def loggedTree : LTree (Tree K V S C) K V where
  W := WW
  fromMonad k v := ⟨⟨rfl, rfl⟩, good_none⟩
  isMonad t I := .is t.data.isNone (fun _ => rfl) ⟨rfl, rfl⟩ trivial
  lenHint t I := by
    obtain ⟨m, _ | d⟩ := t
    · exact .is (1, none) (fun _ => rfl) ⟨rfl, rfl⟩ trivial
    · exact .is (2, none) (fun _ => rfl) ⟨rfl, rfl⟩ trivial
  intoMonad t I := by
    obtain ⟨m, _ | d⟩ := t
    · exact .is (.Ok m) (fun _ => rfl) ⟨rfl, rfl⟩ (by rintro u ⟨⟩)
    · exact .is (.Err ⟨m, some d⟩) (fun _ => rfl) ⟨rfl, rfl⟩ (by rintro u ⟨⟩; exact I)
  minVal t I := .is t.min (fun _ => rfl) ⟨rfl, rfl⟩ trivial
  minValMut t I := .is (t.min.1, t.min.2, t.putMin) (fun _ => rfl) ⟨rfl, rfl⟩ fun w => I
  maxVal t I := by
    obtain ⟨m, _ | d⟩ := t
    · exact .is m (fun _ => rfl) ⟨rfl, rfl⟩ trivial
    · exact .is d.max (fun _ => rfl) ⟨rfl, rfl⟩ trivial
  maxValMut t I := by
    obtain ⟨m, _ | d⟩ := t
    · exact .is (m.1, m.2, (⟨m, none⟩ : Tree K V S C).putMin) (fun _ => rfl) ⟨rfl, rfl⟩ fun w => I
    · exact .is (d.max.1, d.max.2, (⟨m, some d⟩ : Tree K V S C).putMax d) (fun _ => rfl) ⟨rfl, rfl⟩ fun w => good_some (I d rfl)
  find := logged_find
  findMut := logged_findMut
  predecessor := logged_predecessor
  predecessorMut := logged_predecessorMut
  successor := logged_successor
  successorMut := logged_successorMut
  insert := logged_insert
  remove := logged_remove
  removeMin := logged_removeMin
  removeMax := logged_removeMax

end Tree
end Veb
