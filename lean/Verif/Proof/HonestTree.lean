import Verif.Proof.HonestColl

/-!
`Tree` over proper code of the user with side effects.
-/

set_option autoImplicit false
set_option linter.unusedSectionVars false

namespace Veb
namespace Tree
variable {Us : Panic → Prop} {σ K V S C Hi Lo T : Type} [LinearOrder K] [VebKey K Hi Lo] [VebKeyRef K Hi Lo] [ActKey σ K Hi Lo]
  [ActTree σ S Hi Unit] [VebTree S Hi Unit] [PS : HTree Us σ S Hi Unit] [ActTree σ T Lo V] [VebTree T Lo V]
  [PT : HTree Us σ T Lo V] [ActColl σ C Hi T Lo V] [TreeCollection C Hi T Lo V] [PC : HColl Us σ C Hi T Lo V]

/-- summary and collection are good -/
def KidsGood (PS : S → Prop) (PC : C → Prop) (o : Option (S × C)) : Prop := AllO (fun p : S × C => PS p.1 ∧ PC p.2) o
/-- all below is good -/
def BelowGood (PS : S → Prop) (PC : C → Prop) (t : Tree K V S C) : Prop := AllO (fun d => KidsGood PS PC d.children) t.data

theorem good_none {PS : S → Prop} {PC : C → Prop} {m : K × V} : BelowGood PS PC (⟨m, none⟩ : Tree K V S C) := allO_none
theorem good_some {PS : S → Prop} {PC : C → Prop} {m : K × V} {d : TreeData K V S C} (h : KidsGood PS PC d.children) :
    BelowGood PS PC (⟨m, some d⟩ : Tree K V S C) := allO_some h
theorem good_kids {PS : S → Prop} {PC : C → Prop} {m x : K × V} {s : S} {c : C} (hs : PS s) (hc : PC c) :
    BelowGood PS PC (⟨m, some ⟨x, some (s, c)⟩⟩ : Tree K V S C) := good_some (allO_some ⟨hs, hc⟩)
theorem good_leaf {PS : S → Prop} {PC : C → Prop} {m x : K × V} :
    BelowGood PS PC (⟨m, some ⟨x, none⟩⟩ : Tree K V S C) := good_some allO_none

variable (hk : SoundKey σ Us K Hi Lo)

local notation "WS" => HTree.W Us σ (T := S) (K := Hi) (V := Unit)
local notation "WT" => HTree.W Us σ (T := T) (K := Lo) (V := V)
local notation "WC" => HColl.W Us σ (C := C) (Hi := Hi) (T := T) (Lo := Lo) (V := V)
local notation "WW" => BelowGood (K := K) (V := V) WS WC

include hk

theorem honest_find (t : Tree K V S C) (k : K) (I : WW t) : Follows Us (fun _ => True) (findA (σ := σ) t k) (find t k) := by
  obtain ⟨m, d⟩ := t
  unfold findA find
  refine .left (hk.cmp _ _) ?_
  dsimp only
  generalize cmp k m.1 = o
  cases o with
  | lt => exact .ret trivial
  | eq => exact .ret trivial
  | gt =>
    obtain _ | ⟨x, ch⟩ := d
    · exact .ret trivial
    refine .left (hk.eq _ _) ?_
    refine .ite (.ret trivial) ?_
    obtain _ | ⟨s, c⟩ := ch
    · exact .ret trivial
    have ⟨hs, hc⟩ := I _ rfl _ rfl
    refine .split hk ?_
    generalize VebKeyRef.splitRef k = hl
    obtain ⟨hi, lo⟩ := hl
    refine (PC.get c hi hc).bind fun o ho => ?_
    obtain _ | u := o
    · exact .ret trivial
    refine (PT.find u lo (ho u rfl)).bind fun r _ => ?_
    obtain _ | ⟨lo, v⟩ := r
    · exact .ret trivial
    exact .left (hk.join _ _) (.ret trivial)

theorem honest_findMut (t : Tree K V S C) (k : K) (I : WW t) : Follows Us (PutO WW) (findMutA (σ := σ) t k) (findMut t k) := by
  obtain ⟨m, d⟩ := t
  unfold findMutA findMut
  refine .left (hk.cmp _ _) ?_
  dsimp only
  generalize cmp k m.1 = o
  cases o with
  | lt => exact .ret putO_none
  | eq => exact .ret (putO_some fun w => I)
  | gt =>
    obtain _ | ⟨x, ch⟩ := d
    · exact .ret putO_none
    refine .left (hk.eq _ _) ?_
    refine .ite (.ret (putO_some fun w => good_some (I ⟨x, ch⟩ rfl))) ?_
    obtain _ | ⟨s, c⟩ := ch
    · exact .ret putO_none
    have ⟨hs, hc⟩ := I _ rfl _ rfl
    refine .split hk ?_
    generalize VebKeyRef.splitRef k = hl
    obtain ⟨hi, lo⟩ := hl
    refine (PC.getMut c hi hc).bind fun o ho => ?_
    obtain _ | ⟨u, put⟩ := o
    · exact .ret putO_none
    have hu := ho _ rfl
    refine (PT.findMut u lo hu.1).bind fun r hr => ?_
    obtain _ | ⟨lo, v, put'⟩ := r
    · exact .ret putO_none
    exact .left (hk.join _ _) (.ret (putO_some fun w => good_kids hs (hu.2 _ (hr _ rfl w))))

/-- the greatest entry below -/
theorem honest_below {β : Type} {f : T → Act σ (Lo × V)} {g : T → R (Lo × V)} (hf : ∀ t, WT t → Follows Us (fun _ => True) (f t) (g t))
    {c : C} (hc : WC c) {hi : Hi} {m : String} {F : K × V → β} :
    Follows Us (fun _ => True)
      (do
        let child ← expect m (← ActColl.get c hi)
        let (lo, val) ← f child
        pure (F (← ActKey.join (σ := σ) hi lo, val)) : Act σ β)
      (do
        let child ← expect m (← TreeCollection.get c hi)
        let (lo, val) ← g child
        pure (F (VebKey.join hi lo, val))) := by
  refine (PC.get c hi hc).bind fun o ho => ?_
  refine Follows.exp.bind fun u e => ?_
  subst e
  refine (hf u (ho u rfl)).bind fun r _ => ?_
  exact .left (hk.join _ _) (.ret trivial)
theorem honest_belowMut {f : T → Act σ (Lo × V × (V → T))} {g : T → R (Lo × V × (V → T))}
    (hf : ∀ t, WT t → Follows Us (fun r => ∀ w, WT (r.2.2 w)) (f t) (g t))
    {c : C} (hc : WC c) {hi : Hi} {m : String} {F : C → Tree K V S C} (hF : ∀ c, WC c → WW (F c)) :
    Follows Us (PutO WW)
      (do
        let (child, putC) ← expect m (← ActColl.getMut c hi)
        let (lo, val, put) ← f child
        pure (some (← ActKey.join (σ := σ) hi lo, val, fun w => F (putC (put w)))) : Act σ (Option (K × V × (V → Tree K V S C))))
      (do
        let (child, putC) ← expect m (← TreeCollection.getMut c hi)
        let (lo, val, put) ← g child
        pure (some (VebKey.join hi lo, val, fun w => F (putC (put w))))) := by
  refine (PC.getMut c hi hc).bind fun o ho => ?_
  refine Follows.exp.bind fun u e => ?_
  subst e
  have hu := ho _ rfl
  refine (hf u.1 hu.1).bind fun r hr => ?_
  exact .left (hk.join _ _) (.ret (putO_some fun w => hF _ (hu.2 _ (hr w))))

theorem honest_predecessor (t : Tree K V S C) (k : K) (I : WW t) :
    Follows Us (fun _ => True) (predecessorA (σ := σ) t k) (predecessor t k) := by
  obtain ⟨m, d⟩ := t
  unfold predecessorA predecessor
  refine .left (hk.le _ _) ?_
  refine .ite (.ret trivial) ?_
  obtain _ | ⟨x, ch⟩ := d
  · exact .ret trivial
  refine .left (hk.cmp _ _) ?_
  dsimp only
  generalize cmp k x.1 = o
  obtain _ | ⟨s, c⟩ := ch
  · cases o <;> exact .ret trivial
  have ⟨hs, hc⟩ := I _ rfl _ rfl
  cases o with
  | gt => exact .ret trivial
  | eq => exact (PS.maxVal s hs).bind fun r _ => honest_below hk PT.maxVal hc (F := some)
  | lt =>
    refine .split hk ?_
    generalize VebKeyRef.splitRef k = hl
    obtain ⟨hi, lo⟩ := hl
    refine Follows.bind (Q := fun _ => True) ?_ fun r _ => ?_
    · refine (PC.get c hi hc).bind fun o ho => ?_
      obtain _ | u := o
      · exact .ret trivial
      exact PT.predecessor u lo (ho u rfl)
    obtain _ | ⟨lo, v⟩ := r
    · refine (PS.predecessor s hi hs).bind fun r _ => ?_
      obtain _ | ⟨hi, ⟨⟩⟩ := r
      · exact .ret trivial
      exact honest_below hk PT.maxVal hc (F := some)
    · exact .left (hk.join _ _) (.ret trivial)

theorem honest_predecessorMut (t : Tree K V S C) (k : K) (I : WW t) :
    Follows Us (PutO WW) (predecessorMutA (σ := σ) t k) (predecessorMut t k) := by
  obtain ⟨m, d⟩ := t
  unfold predecessorMutA predecessorMut
  refine .left (hk.le _ _) ?_
  refine .ite (.ret putO_none) ?_
  obtain _ | ⟨x, ch⟩ := d
  · exact .ret (putO_some fun w => good_none)
  refine .left (hk.cmp _ _) ?_
  dsimp only
  generalize cmp k x.1 = o
  obtain _ | ⟨s, c⟩ := ch
  · cases o <;> exact .ret (putO_some fun w => good_leaf)
  have ⟨hs, hc⟩ := I _ rfl _ rfl
  cases o with
  | gt => exact .ret (putO_some fun w => good_kids hs hc)
  | eq =>
    refine .left (hk.gt _ _) (Follows.lift'.bind fun _ _ => ?_)
    exact (PS.maxVal s hs).bind fun r _ => honest_belowMut hk PT.maxValMut hc fun c h => good_kids hs h
  | lt =>
    refine .split hk ?_
    generalize VebKeyRef.splitRef k = hl
    obtain ⟨hi, lo⟩ := hl
    refine Follows.bind (Q := fun o => PutO WC o) ?_ fun r hr => ?_
    · refine (PC.getMut c hi hc).bind fun o ho => ?_
      obtain _ | ⟨u, put⟩ := o
      · exact .ret putO_none
      have hu := ho _ rfl
      exact (PT.predecessorMut u lo hu.1).bind fun r hr => .ret (HTree.map_put (σ := σ) hu.2 hr)
    obtain _ | ⟨lo, v, put⟩ := r
    · refine (PS.predecessor s hi hs).bind fun r _ => ?_
      obtain _ | ⟨hi, ⟨⟩⟩ := r
      · exact .ret (putO_some fun w => good_kids hs hc)
      exact honest_belowMut hk PT.maxValMut hc fun c h => good_kids hs h
    · exact .left (hk.join _ _) (.ret (putO_some fun w => good_kids hs (hr _ rfl w)))

theorem honest_successor (t : Tree K V S C) (k : K) (I : WW t) :
    Follows Us (fun _ => True) (successorA (σ := σ) t k) (successor t k) := by
  obtain ⟨m, d⟩ := t
  unfold successorA successor
  refine .left (hk.lt _ _) ?_
  refine .ite (.ret trivial) ?_
  obtain _ | ⟨x, ch⟩ := d
  · exact .ret trivial
  refine .left (hk.ge _ _) ?_
  refine .ite (.ret trivial) ?_
  obtain _ | ⟨s, c⟩ := ch
  · exact .ret trivial
  have ⟨hs, hc⟩ := I _ rfl _ rfl
  refine .left (hk.eq _ _) ?_
  refine .ite ?_ ?_
  · exact (PS.minVal s hs).bind fun r _ => honest_below hk PT.minVal hc (F := some)
  · refine .split hk ?_
    generalize VebKeyRef.splitRef k = hl
    obtain ⟨hi, lo⟩ := hl
    refine Follows.bind (Q := fun _ => True) ?_ fun r _ => ?_
    · refine (PC.get c hi hc).bind fun o ho => ?_
      obtain _ | u := o
      · exact .ret trivial
      exact PT.successor u lo (ho u rfl)
    obtain _ | ⟨lo, v⟩ := r
    · refine (PS.successor s hi hs).bind fun r _ => ?_
      obtain _ | ⟨hi, ⟨⟩⟩ := r
      · exact .ret trivial
      exact honest_below hk PT.minVal hc (F := some)
    · exact .left (hk.join _ _) (.ret trivial)

theorem honest_successorMut (t : Tree K V S C) (k : K) (I : WW t) :
    Follows Us (PutO WW) (successorMutA (σ := σ) t k) (successorMut t k) := by
  obtain ⟨m, d⟩ := t
  unfold successorMutA successorMut
  refine .left (hk.lt _ _) ?_
  refine .ite (.ret (putO_some fun w => I)) ?_
  obtain _ | ⟨x, ch⟩ := d
  · exact .ret putO_none
  refine .left (hk.ge _ _) ?_
  refine .ite (.ret putO_none) ?_
  obtain _ | ⟨s, c⟩ := ch
  · exact .ret (putO_some fun w => good_leaf)
  have ⟨hs, hc⟩ := I _ rfl _ rfl
  refine .left (hk.eq _ _) ?_
  refine .ite ?_ ?_
  · exact (PS.minVal s hs).bind fun r _ => honest_belowMut hk PT.minValMut hc fun c h => good_kids hs h
  · refine .split hk ?_
    generalize VebKeyRef.splitRef k = hl
    obtain ⟨hi, lo⟩ := hl
    refine Follows.bind (Q := fun o => PutO WC o) ?_ fun r hr => ?_
    · refine (PC.getMut c hi hc).bind fun o ho => ?_
      obtain _ | ⟨u, put⟩ := o
      · exact .ret putO_none
      have hu := ho _ rfl
      exact (PT.successorMut u lo hu.1).bind fun r hr => .ret (HTree.map_put (σ := σ) hu.2 hr)
    obtain _ | ⟨lo, v, put⟩ := r
    · refine (PS.successor s hi hs).bind fun r _ => ?_
      obtain _ | ⟨hi, ⟨⟩⟩ := r
      · exact .ret (putO_some fun w => good_kids hs hc)
      exact honest_belowMut hk PT.minValMut hc fun c h => good_kids hs h
    · exact .left (hk.join _ _) (.ret (putO_some fun w => good_kids hs (hr _ rfl w)))

theorem honest_insertBelow (m : K × V) (d : TreeData K V S C) (k : K) (v : V) (I : KidsGood WS WC d.children) :
    Follows Us (fun r => WW r.1) (insertBelowA (σ := σ) m d k v) (insertBelow m d k v) := by
  obtain ⟨x, ch⟩ := d
  unfold insertBelowA insertBelow
  refine .left (hk.splitVal _) ?_
  generalize VebKey.splitVal k = hl
  obtain ⟨hi, lo⟩ := hl
  obtain _ | ⟨s, c⟩ := ch
  · have h1 := PT.fromMonad lo v
    have h2 := PS.fromMonad hi ()
    dsimp only
    rw [h1.1, h2.1]
    exact (PC.create hi _ h1.2).bind fun c hc => .ret (good_kids h2.2 hc)
  have ⟨hs, hc⟩ := I _ rfl
  refine (PC.insertKey c hi (lo, v) hc).bind fun r hr => ?_
  obtain ⟨c, hi | ⟨hi, _ | ⟨lo, v⟩⟩⟩ := r
  · exact (PS.insert s hi () hs).bind fun r hr' => .ret (good_kids hr' hr)
  · exact .ret (good_kids hs hr)
  · exact .left (hk.join _ _) (.ret (good_kids hs hr))

theorem honest_insert (t : Tree K V S C) (k : K) (v : V) (I : WW t) :
    Follows Us (fun r => WW r.1) (insertA (σ := σ) t k v) (insert t k v) := by
  obtain ⟨m, d⟩ := t
  unfold insertA insert
  refine .left (hk.cmp _ _) ?_
  dsimp only
  generalize cmp k m.1 = o
  obtain _ | d := d
  · cases o with
    | lt => exact .ret good_leaf
    | eq => exact .ret good_none
    | gt => exact .ret good_leaf
  have hd := I _ rfl
  cases o with
  | eq => exact .ret I
  | lt =>
    refine .left (hk.cmp _ _) ?_
    dsimp only
    generalize cmp d.max.1 m.1 = o
    cases o with
    | eq => exact .ret (good_some hd)
    | gt => exact honest_insertBelow hk _ _ _ _ hd
    | lt => exact honest_insertBelow hk _ _ _ _ hd
  | gt =>
    refine .left (hk.cmp _ _) ?_
    dsimp only
    generalize cmp k d.max.1 = o
    cases o with
    | eq => exact .ret (good_some hd)
    | gt => exact honest_insertBelow hk _ _ _ _ hd
    | lt => exact honest_insertBelow hk _ _ _ _ hd

theorem honest_removeMin (t : Tree K V S C) (I : WW t) :
    Follows Us (fun r => AllO WW r.1) (removeMinA (σ := σ) t) (removeMin t) := by
  obtain ⟨m, d⟩ := t
  unfold removeMinA removeMin
  obtain _ | ⟨x, _ | ⟨s, c⟩⟩ := d
  · exact .ret allO_none
  · exact .ret (allO_some good_none)
  have ⟨hs, hc⟩ := I _ rfl _ rfl
  refine (PS.minVal s hs).bind fun r _ => ?_
  refine (PC.removeKey c r.1 _ _ hc PT.removeMin).bind fun q hq => ?_
  refine .left (hk.join _ _) ?_
  obtain ⟨o, lo, v⟩ := q
  refine Follows.bind (Q := KidsGood WS WC) ?_ fun ch hch => .ret (allO_some (good_some hch))
  obtain _ | ⟨c, _ | _⟩ := o
  · exact .ret allO_none
  · exact .ret (allO_some ⟨hs, hq _ rfl⟩)
  · refine (PS.removeMin s hs).bind fun r hr => Follows.exp.bind fun s' e => ?_
    exact .ret (allO_some ⟨hr _ e, hq _ rfl⟩)

theorem honest_removeMax (t : Tree K V S C) (I : WW t) :
    Follows Us (fun r => AllO WW r.1) (removeMaxA (σ := σ) t) (removeMax t) := by
  obtain ⟨m, d⟩ := t
  unfold removeMaxA removeMax
  obtain _ | ⟨x, _ | ⟨s, c⟩⟩ := d
  · exact .ret allO_none
  · exact .ret (allO_some good_none)
  have ⟨hs, hc⟩ := I _ rfl _ rfl
  refine (PS.maxVal s hs).bind fun r _ => ?_
  refine (PC.removeKey c r.1 _ _ hc PT.removeMax).bind fun q hq => ?_
  refine .left (hk.join _ _) ?_
  obtain ⟨o, lo, v⟩ := q
  refine Follows.bind (Q := KidsGood WS WC) ?_ fun ch hch => .ret (allO_some (good_some hch))
  obtain _ | ⟨c, _ | _⟩ := o
  · exact .ret allO_none
  · exact .ret (allO_some ⟨hs, hq _ rfl⟩)
  · refine (PS.removeMax s hs).bind fun r hr => Follows.exp.bind fun s' e => ?_
    exact .ret (allO_some ⟨hr _ e, hq _ rfl⟩)

theorem honest_remove (t : Tree K V S C) (k : K) (I : WW t) : Follows Us (RemO WW) (removeA (σ := σ) t k) (remove t k) := by
  have hm := honest_removeMin hk t I
  obtain ⟨m, d⟩ := t
  unfold removeA remove
  refine .left (hk.eq _ _) ?_
  refine .ite (hm.bind fun r hr => .ret hr) ?_
  obtain _ | ⟨x, _ | ⟨s, c⟩⟩ := d
  · exact .ret I
  · refine .left (hk.eq _ _) ?_
    exact .ite (.ret (allO_some good_none)) (.ret I)
  have ⟨hs, hc⟩ := I _ rfl _ rfl
  refine .left (hk.eq _ _) ?_
  refine .ite ?_ ?_
  · refine (PS.maxVal s hs).bind fun r _ => ?_
    refine (PC.removeKey c r.1 _ _ hc PT.removeMax).bind fun q hq => ?_
    refine .left (hk.join _ _) ?_
    obtain ⟨o, lo, v⟩ := q
    refine Follows.bind (Q := KidsGood WS WC) ?_ fun ch hch => .ret (allO_some (good_some hch))
    obtain _ | ⟨c, _ | _⟩ := o
    · exact .ret allO_none
    · exact .ret (allO_some ⟨hs, hq _ rfl⟩)
    · refine (PS.removeMax s hs).bind fun r hr => Follows.exp.bind fun s' e => ?_
      exact .ret (allO_some ⟨hr _ e, hq _ rfl⟩)
  · refine .split hk ?_
    generalize VebKeyRef.splitRef k = hl
    obtain ⟨hi, lo⟩ := hl
    refine (PC.maybeRemoveKey c hi _ _ hc fun u hu => PT.remove u lo hu).bind fun r hr => ?_
    obtain ⟨_ | ⟨c, _ | _⟩, lo, v⟩ | c := r
    · exact .left (hk.join _ _) (.ret (allO_some good_leaf))
    · exact .left (hk.join _ _) (.ret (allO_some (good_kids hs (hr _ rfl))))
    · refine (PS.remove s hi hs).bind fun r hr' => ?_
      obtain r | r := r
      swap
      · exact Follows.bind (Q := fun _ => False) .fail fun _ => False.elim
      refine Follows.bind (Q := fun r' => r' = r) (.ret rfl) fun _ e => ?_
      subst e
      refine Follows.exp.bind fun s' e => ?_
      exact .left (hk.join _ _) (.ret (allO_some (good_kids (hr' _ e) (hr _ rfl))))
    · exact .ret (good_kids hs hr)

omit hk

@[reducible] def agreeTree (hk : SoundKey σ Us K Hi Lo) : HTree Us σ (Tree K V S C) K V where
  W := WW
  fromMonad k v := ⟨rfl, good_none⟩
  isMonad t I := .lift'
  lenHint t I := .lift'
  intoMonad t I := .lift fun r e => by
    obtain ⟨m, _ | d⟩ := t
    · cases e; rintro u ⟨⟩
    · cases e; rintro u ⟨⟩; exact I
  minVal t I := .lift'
  minValMut t I := .lift fun r e w => by cases e; exact I
  maxVal t I := .lift'
  maxValMut t I := .lift fun r e w => by
    obtain ⟨m, _ | d⟩ := t
    · cases e; exact I
    · cases e; exact good_some (I d rfl)
  find := honest_find hk
  findMut := honest_findMut hk
  predecessor := honest_predecessor hk
  predecessorMut := honest_predecessorMut hk
  successor := honest_successor hk
  successorMut := honest_successorMut hk
  insert := honest_insert hk
  remove := honest_remove hk
  removeMin := honest_removeMin hk
  removeMax := honest_removeMax hk

end Tree
end Veb
