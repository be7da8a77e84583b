import Verif.Model.Tick

/-!
Forgetting the log of `Verif.Model.Tick` gives back the model.
-/

set_option autoImplicit false
set_option linter.unusedSectionVars false
namespace Veb

/-- forgetting the log of `x` gives `y` -/
def Er {α : Type} (x : Tk α) (y : R α) : Prop := x.run = y

namespace Er
variable {α β : Type}
theorem bind {x : Tk α} {y : R α} {f : α → Tk β} {g : α → R β} (h : Er x y) (hf : ∀ a, Er (f a) (g a)) :
    Er (x >>= f) (y >>= g) := by
  unfold Er at *
  subst h
  show (match x.run with | .error e => (⟨.error e, x.log⟩ : Tk β) | .ok a => ⟨(f a).run, x.log ++ (f a).log⟩).run = _
  cases hx : x.run with
  | error e => rfl
  | ok a => exact hf a
theorem tickBind {f : Unit → Tk β} {y : R β} (hf : Er (f ()) y) : Er (Tk.tick >>= f) y := hf
theorem evBind {e : Ev} {f : Unit → Tk β} {y : R β} (hf : Er (f ()) y) : Er (Tk.ev e >>= f) y := hf
theorem pure (a : α) : Er (Pure.pure a : Tk α) (Pure.pure a) := rfl
theorem lift (x : R α) : Er (Tk.lift x) x := rfl
theorem mlift (x : R α) : Er (monadLift x : Tk α) x := rfl
theorem liftM (x : R α) : Er (liftM x : Tk α) x := rfl
theorem pureBind {a : α} {f : α → Tk β} {y : R β} (h : Er (f a) y) : Er (Pure.pure a >>= f) y := by
  unfold Er at *
  subst h; rfl
theorem liftPureBind {x : Tk α} {a : α} {f : α → Tk β} {y : R β} (hx : Er x (.ok a)) (h : Er (f a) y) :
    Er (x >>= f) y := by
  have := bind hx (f := f) (g := fun _ => y)
  unfold Er at *
  subst h
  show (match x.run with | .error e => (⟨.error e, x.log⟩ : Tk β) | .ok a => ⟨(f a).run, x.log ++ (f a).log⟩).run = _
  rw [hx]
end Er

/-- Forgetting the log in the methods of a tree type gives its methods. -/
class ErTree (T : Type) {K V : outParam Type} [VebTree T K V] [TickTree T K V] : Prop where
  fromMonad (k : K) (v : V) : Er (TickTree.fromMonad k v : Tk T) (.ok (VebTree.fromMonad k v))
  isMonad (t : T) : Er (TickTree.isMonad t) (VebTree.isMonad t)
  lenHint (t : T) : Er (TickTree.lenHint t) (VebTree.lenHint t)
  intoMonad (t : T) : Er (TickTree.intoMonad t) (VebTree.intoMonad t)
  minVal (t : T) : Er (TickTree.minVal t) (VebTree.minVal t)
  minValMut (t : T) : Er (TickTree.minValMut t) (VebTree.minValMut t)
  maxVal (t : T) : Er (TickTree.maxVal t) (VebTree.maxVal t)
  maxValMut (t : T) : Er (TickTree.maxValMut t) (VebTree.maxValMut t)
  find (t : T) (k : K) : Er (TickTree.find t k) (VebTree.find t k)
  findMut (t : T) (k : K) : Er (TickTree.findMut t k) (VebTree.findMut t k)
  predecessor (t : T) (k : K) : Er (TickTree.predecessor t k) (VebTree.predecessor t k)
  predecessorMut (t : T) (k : K) : Er (TickTree.predecessorMut t k) (VebTree.predecessorMut t k)
  successor (t : T) (k : K) : Er (TickTree.successor t k) (VebTree.successor t k)
  successorMut (t : T) (k : K) : Er (TickTree.successorMut t k) (VebTree.successorMut t k)
  insert (t : T) (k : K) (v : V) : Er (TickTree.insert t k v) (VebTree.insert t k v)
  remove (t : T) (k : K) : Er (TickTree.remove t k) (VebTree.remove t k)
  removeMin (t : T) : Er (TickTree.removeMin t) (VebTree.removeMin t)
  removeMax (t : T) : Er (TickTree.removeMax t) (VebTree.removeMax t)

/-- The same for a collection. -/
class ErColl (C : Type) {Hi T Lo V : outParam Type} [TreeCollection C Hi T Lo V] [TickColl C Hi T Lo V] : Prop where
  create (h : Hi) (t : T) : Er (TickColl.create h t : Tk C) (TreeCollection.create h t)
  insertKey (c : C) (h : Hi) (lv : Lo × V) : Er (TickColl.insertKey c h lv) (TreeCollection.insertKey c h lv)
  removeKey (c : C) (h : Hi) {r : T → Tk (Option T × (Lo × V))} {r' : T → R (Option T × (Lo × V))}
    (hr : ∀ t, Er (r t) (r' t)) : Er (TickColl.removeKey c h r) (TreeCollection.removeKey c h r')
  maybeRemoveKey (c : C) (h : Hi) {r : T → Tk (Result (Option T × (Lo × V)) T)}
    {r' : T → R (Result (Option T × (Lo × V)) T)} (hr : ∀ t, Er (r t) (r' t)) :
    Er (TickColl.maybeRemoveKey c h r) (TreeCollection.maybeRemoveKey c h r')

theorem ErTree.ofLeaf (T : Type) {K V : Type} [VebTree T K V] :
    @ErTree T K V _ (TickTree.leaf T) := by
  let := TickTree.leaf T
  constructor <;> intros <;> exact Er.tickBind (Er.mlift _)

instance : ErTree ByteSet := .ofLeaf _
instance {V : Type} : ErTree (ByteMap V) := .ofLeaf _
instance {K V : Type} [LinearOrder K] : ErTree (BTreeMap K V) := .ofLeaf _

/-- one step of an erasure proof -/
macro "er1" : tactic => `(tactic| first
  | exact Er.mlift _ | exact Er.lift _ | exact Er.liftM _ | exact Er.pure _ | assumption
  | exact ErTree.isMonad _ | exact ErTree.lenHint _ | exact ErTree.intoMonad _ | exact ErTree.minVal _
  | exact ErTree.minValMut _ | exact ErTree.maxVal _ | exact ErTree.maxValMut _ | exact ErTree.find _ _
  | exact ErTree.findMut _ _ | exact ErTree.predecessor _ _ | exact ErTree.predecessorMut _ _
  | exact ErTree.successor _ _ | exact ErTree.successorMut _ _ | exact ErTree.insert _ _ _
  | exact ErTree.remove _ _ | exact ErTree.removeMin _ | exact ErTree.removeMax _
  | exact ErColl.insertKey _ _ _
  | exact ErColl.removeKey _ _ (fun t => ErTree.removeMin t)
  | exact ErColl.removeKey _ _ (fun t => ErTree.removeMax t)
  | exact ErColl.maybeRemoveKey _ _ (fun t => ErTree.remove t _)
  | refine Er.tickBind ?_
  | refine Er.evBind ?_
  | refine Er.liftPureBind (ErTree.fromMonad _ _) ?_
  | (refine Er.bind ?_ ?_)
  | (intro a; try rcases a with ⟨_, _⟩))

section
variable {T K V : Type} [VebTree T K V] [TickTree T K V] [ErTree T]
set_option maxHeartbeats 1000000
instance : ErTree (Box T) := by
  constructor <;> intros
  case intoMonad t =>
    refine Er.tickBind (Er.bind (ErTree.intoMonad _) ?_); rintro (_ | _) <;> exact Er.pure _
  case remove t k =>
    refine Er.tickBind (Er.bind (ErTree.remove _ _) ?_); rintro (_ | _) <;> exact Er.pure _
  all_goals (refine Er.tickBind ?_; repeat er1)


instance : ErTree (SizedVebTree T) := by
  constructor <;> intros
  case fromMonad => exact Er.tickBind (Er.liftPureBind (ErTree.fromMonad _ _) (Er.pure _))
  case intoMonad t =>
    refine Er.tickBind (Er.bind (ErTree.intoMonad _) ?_); rintro (_ | _) <;> exact Er.pure _
  case remove t k =>
    refine Er.tickBind (Er.bind (ErTree.remove _ _) ?_); rintro (⟨_ | _, _⟩ | _) <;> repeat er1
  case removeMin t =>
    refine Er.tickBind (Er.bind (Er.mlift _) fun n => Er.bind (ErTree.removeMin _) ?_); rintro ⟨_ | _, _⟩ <;> repeat er1
  case removeMax t =>
    refine Er.tickBind (Er.bind (Er.mlift _) fun n => Er.bind (ErTree.removeMax _) ?_); rintro ⟨_ | _, _⟩ <;> repeat er1
  case isMonad =>
    refine Er.tickBind (Er.bind (ErTree.isMonad _) ?_); rintro (_ | _) <;> repeat er1
  case insert =>
    refine Er.tickBind (Er.bind (ErTree.insert _ _ _) ?_); rintro ⟨_, (_ | _)⟩ <;> repeat er1
  all_goals (refine Er.tickBind ?_; repeat er1)
end

section
variable {Hi T Lo V : Type} [VebTree T Lo V] [TickTree T Lo V] [ErTree T]

instance [SizedVebKey Hi] : ErColl (ArrayColl Hi T) := by
  constructor
  · exact fun _ _ => rfl
  · intro c h lv
    refine Er.bind (Er.mlift _) ?_
    rintro (_ | t)
    · refine Er.liftPureBind (ErTree.fromMonad _ _) ?_
      repeat er1
    · repeat er1
  · intro c h r r' hr
    refine Er.bind (Er.mlift _) fun _ => Er.bind (Er.mlift _) fun t => Er.bind (Er.mlift _) fun a => Er.bind (hr t) ?_
    rintro ⟨_ | t, v⟩
    · refine Er.bind (Er.mlift _) fun n => Er.bind (Er.mlift _) fun _ => ?_
      by_cases hn : n = 0
      · simp only [hn, if_true]; exact Er.pure _
      · simp only [hn, if_false]; exact Er.pure _
    · refine Er.bind (Er.pure _) fun n => Er.bind (Er.mlift _) fun _ => ?_
      by_cases hn : n = 0
      · simp only [hn, if_true]; exact Er.pure _
      · simp only [hn, if_false]; exact Er.pure _
  · intro c h r r' hr
    refine Er.bind (Er.mlift _) ?_
    rintro (_ | t)
    · exact Er.pure _
    refine Er.bind (Er.mlift _) fun a => Er.bind (hr t) ?_
    rintro (⟨_ | t, v⟩ | _)
    · refine Er.bind (Er.mlift _) fun n => Er.bind (Er.mlift _) fun _ => ?_
      by_cases hn : n = 0
      · simp only [hn, if_true]; exact Er.pure _
      · simp only [hn, if_false]; exact Er.pure _
    · refine Er.bind (Er.pure _) fun n => Er.bind (Er.mlift _) fun _ => ?_
      by_cases hn : n = 0
      · simp only [hn, if_true]; exact Er.pure _
      · simp only [hn, if_false]; exact Er.pure _
    · repeat er1

instance [DecidableEq Hi] : ErColl (HashMap Hi T) := by
  constructor
  · exact fun _ _ => rfl
  · intro c h lv
    show Er (HashMap.insertKeyT c h lv) (HashMap.insertKey c h lv)
    unfold HashMap.insertKeyT HashMap.insertKey
    cases c.lookup h
    · refine Er.liftPureBind (ErTree.fromMonad _ _) ?_
      repeat er1
    · repeat er1
  · intro c h r r' hr
    show Er (HashMap.removeKeyT c h r) (HashMap.removeKey c h r')
    unfold HashMap.removeKeyT HashMap.removeKey
    cases c.lookup h with
    | none => exact Er.lift _
    | some t =>
      refine Er.bind (hr t) ?_
      rintro ⟨t, v⟩
      by_cases hn : (c.replaceEntry h t).entries.isEmpty = true
      · simp only [hn, if_true]; exact Er.pure _
      · simp only [hn]; exact Er.pure _
  · intro c h r r' hr
    show Er (HashMap.maybeRemoveKeyT c h r) (HashMap.maybeRemoveKey c h r')
    unfold HashMap.maybeRemoveKeyT HashMap.maybeRemoveKey
    cases c.lookup h with
    | none => exact Er.pure _
    | some t =>
      refine Er.bind (hr t) ?_
      rintro (⟨o, v⟩ | o)
      · refine Er.pureBind ?_
        cases hc : (c.replaceEntry h o).entries.isEmpty
        · simp only [pure_bind, hc]; exact Er.pure _
        · simp only [pure_bind, hc]; exact Er.pure _
      · refine Er.pureBind ?_
        cases hc : (c.replaceEntry h (some o)).entries.isEmpty
        · simp only [pure_bind, hc]; exact Er.pure _
        · simp only [pure_bind, hc]; exact Er.lift _

theorem VecDeque.er_removeKey {A Lo V : Type} (l : List A) (i : Nat) {r : A → Tk (Option A × (Lo × V))}
    {r' : A → R (Option A × (Lo × V))} (hr : ∀ t, Er (r t) (r' t)) :
    Er (VecDeque.removeKeyT l i r) (VecDeque.removeKey l i r') := by
  unfold VecDeque.removeKeyT VecDeque.removeKey
  cases l[i]? with
  | none => exact Er.lift _
  | some t =>
    refine Er.bind (hr t) ?_
    rintro ⟨_ | t, v⟩
    · dsimp only
      split <;> repeat er1
    · dsimp only
      split <;> repeat er1

theorem VecDeque.er_maybeRemoveKey {A Lo V : Type} (l : List A) (i : Nat)
    {r : A → Tk (Result (Option A × (Lo × V)) A)}
    {r' : A → R (Result (Option A × (Lo × V)) A)} (hr : ∀ t, Er (r t) (r' t)) :
    Er (VecDeque.maybeRemoveKeyT l i r) (VecDeque.maybeRemoveKey l i r') := by
  unfold VecDeque.maybeRemoveKeyT VecDeque.maybeRemoveKey
  cases l[i]? with
  | none => exact Er.lift _
  | some t =>
    refine Er.bind (hr t) ?_
    rintro (⟨_ | t, v⟩ | _)
    · dsimp only
      split <;> repeat er1
    · dsimp only
      split <;> repeat er1
    · exact Er.pure _

instance : ErColl (ByteMap T) := by
  constructor
  · exact fun _ _ => rfl
  · intro c h lv
    refine Er.bind (Er.mlift _) ?_
    rintro ⟨s, _ | r⟩
    · refine Er.liftPureBind (ErTree.fromMonad _ _) ?_
      repeat er1
    · repeat er1
  · intro c h r r' hr
    refine Er.bind (Er.mlift _) fun _ => Er.bind (Er.mlift _) fun _ =>
      Er.bind (VecDeque.er_removeKey _ _ hr) ?_
    rintro ⟨_ | ⟨_, _ | _⟩, _⟩ <;> repeat er1
  · intro c h r r' hr
    refine Er.bind (Er.mlift _) ?_
    rintro (_ | _)
    · exact Er.pure _
    · refine Er.bind (VecDeque.er_maybeRemoveKey _ _ hr) ?_
      rintro (⟨_ | ⟨_, _ | _⟩, _⟩ | _) <;> repeat er1
end

instance {C Hi T Lo V : Type} [TreeCollection C Hi T Lo V] [TickColl C Hi T Lo V] [ErColl C] : ErColl (Box C) := by
  constructor
  · exact fun _ _ => Er.bind (ErColl.create _ _) fun _ => Er.pure _
  · intro c h lv
    exact Er.bind (ErColl.insertKey _ _ _) fun _ => Er.pure _
  · intro c h r r' hr
    exact Er.bind (ErColl.removeKey _ _ hr) fun _ => Er.pure _
  · intro c h r r' hr
    refine Er.bind (ErColl.maybeRemoveKey _ _ hr) ?_
    rintro (⟨_, _⟩ | _) <;> exact Er.pure _

/-- drop what is logged next -/
macro "evs" : tactic => `(tactic| repeat (first | refine Er.tickBind ?_ | refine Er.evBind ?_))

namespace Tree
variable {K V S C Hi Lo T : Type} [LinearOrder K] [VebKey K Hi Lo] [VebKeyRef K Hi Lo] [VebTree S Hi Unit]
  [TickTree S Hi Unit] [VebTree T Lo V] [TickTree T Lo V] [TreeCollection C Hi T Lo V] [TickColl C Hi T Lo V]
  [ErTree S] [ErTree T] [ErColl C]

theorem er_insertBelow (min : K × V) (data : TreeData K V S C) (k : K) (v : V) :
    Er (insertBelowT min data k v) (insertBelow min data k v) := by
  unfold insertBelowT insertBelow
  dsimp only
  evs
  rcases data.children with _ | ⟨s, c⟩
  · refine Er.liftPureBind (ErTree.fromMonad _ _) (Er.evBind (Er.bind (ErColl.create _ _) fun _ => ?_))
    exact Er.liftPureBind (ErTree.fromMonad _ _) (Er.pure _)
  · evs
    refine Er.bind (ErColl.insertKey _ _ _) ?_
    rintro ⟨_, (_ | ⟨_, _ | _⟩)⟩ <;> (repeat er1)

theorem er_removeMin (t : Tree K V S C) : Er t.removeMinT t.removeMin := by
  unfold removeMinT removeMin
  evs
  rcases t.data with _ | ⟨m, _ | ⟨s, c⟩⟩
  · repeat er1
  · repeat er1
  refine Er.bind (ErTree.minVal _) fun _ => Er.evBind <| Er.bind (ErColl.removeKey _ _ fun t => ErTree.removeMin t) ?_
  rintro ⟨_ | ⟨c, _ | _⟩, lo, v⟩ <;> (repeat er1)

theorem er_removeMax (t : Tree K V S C) : Er t.removeMaxT t.removeMax := by
  unfold removeMaxT removeMax
  evs
  rcases t.data with _ | ⟨m, _ | ⟨s, c⟩⟩
  · repeat er1
  · repeat er1
  refine Er.bind (ErTree.maxVal _) fun _ => Er.evBind <| Er.bind (ErColl.removeKey _ _ fun t => ErTree.removeMax t) ?_
  rintro ⟨_ | ⟨c, _ | _⟩, lo, v⟩ <;> (repeat er1)

theorem er_find (t : Tree K V S C) (k : K) : Er (t.findT k) (t.find k) := by
  unfold findT find
  evs
  cases cmp k t.min.1
  · repeat er1
  · repeat er1
  rcases t.data with _ | ⟨m, d⟩
  · repeat er1
  dsimp only
  split
  · repeat er1
  rcases d with _ | ⟨s, c⟩
  · repeat er1
  evs
  refine Er.bind (Er.mlift _) ?_
  rintro (_ | c)
  · repeat er1
  refine Er.bind (ErTree.find _ _) ?_
  rintro (_ | c) <;> (repeat er1)

theorem er_findMut (t : Tree K V S C) (k : K) : Er (t.findMutT k) (t.findMut k) := by
  unfold findMutT findMut
  evs
  cases cmp k t.min.1
  · repeat er1
  · repeat er1
  rcases t.data with _ | ⟨m, d⟩
  · repeat er1
  dsimp only
  split
  · repeat er1
  rcases d with _ | ⟨s, c⟩
  · repeat er1
  evs
  refine Er.bind (Er.mlift _) ?_
  rintro (_ | c)
  · repeat er1
  refine Er.bind (ErTree.findMut _ _) ?_
  rintro (_ | c) <;> (repeat er1)

theorem er_predecessor (t : Tree K V S C) (k : K) : Er (t.predecessorT k) (t.predecessor k) := by
  unfold predecessorT predecessor
  evs
  split
  · repeat er1
  rcases t.data with _ | ⟨m, d⟩
  · repeat er1
  dsimp only
  cases cmp k m.1 <;> rcases d with _ | ⟨s, c⟩
  · repeat er1
  · evs
    refine Er.bind (Er.evBind (Er.bind (Er.mlift _) ?_)) fun o => ?_
    · rintro (_ | c) <;> (repeat er1)
    · rcases o with _ | _
      · evs
        refine Er.bind (ErTree.predecessor _ _) ?_
        rintro (_ | _) <;> (repeat er1)
      · repeat er1
  · repeat er1
  · repeat er1
  · repeat er1
  · repeat er1

theorem er_predecessorMut (t : Tree K V S C) (k : K) : Er (t.predecessorMutT k) (t.predecessorMut k) := by
  unfold predecessorMutT predecessorMut
  evs
  split
  · repeat er1
  rcases t.data with _ | ⟨m, d⟩
  · repeat er1
  dsimp only
  cases cmp k m.1 <;> rcases d with _ | ⟨s, c⟩
  · repeat er1
  · evs
    refine Er.bind (Er.evBind (Er.bind (Er.mlift _) ?_)) fun o => ?_
    · rintro (_ | c) <;> (repeat er1)
    · rcases o with _ | _
      · evs
        refine Er.bind (ErTree.predecessor _ _) ?_
        rintro (_ | _) <;> (repeat er1)
      · repeat er1
  · repeat er1
  · repeat er1
  · repeat er1
  · repeat er1

theorem er_successor (t : Tree K V S C) (k : K) : Er (t.successorT k) (t.successor k) := by
  unfold successorT successor
  evs
  split
  · repeat er1
  rcases t.data with _ | ⟨m, d⟩
  · repeat er1
  dsimp only
  split
  · repeat er1
  rcases d with _ | ⟨s, c⟩
  · repeat er1
  dsimp only
  split
  · repeat er1
  · evs
    refine Er.bind (Er.evBind (Er.bind (Er.mlift _) ?_)) fun o => ?_
    · rintro (_ | c) <;> (repeat er1)
    · rcases o with _ | _
      · evs
        refine Er.bind (ErTree.successor _ _) ?_
        rintro (_ | _) <;> (repeat er1)
      · repeat er1

theorem er_successorMut (t : Tree K V S C) (k : K) : Er (t.successorMutT k) (t.successorMut k) := by
  unfold successorMutT successorMut
  evs
  split
  · repeat er1
  rcases t.data with _ | ⟨m, d⟩
  · repeat er1
  dsimp only
  split
  · repeat er1
  rcases d with _ | ⟨s, c⟩
  · repeat er1
  dsimp only
  split
  · repeat er1
  · evs
    refine Er.bind (Er.evBind (Er.bind (Er.mlift _) ?_)) fun o => ?_
    · rintro (_ | c) <;> (repeat er1)
    · rcases o with _ | _
      · evs
        refine Er.bind (ErTree.successor _ _) ?_
        rintro (_ | _) <;> (repeat er1)
      · repeat er1

theorem er_insert (t : Tree K V S C) (k : K) (v : V) : Er (t.insertT k v) (t.insert k v) := by
  unfold insertT insert
  evs
  cases cmp k t.min.1 <;> rcases t.data with _ | d
  · repeat er1
  · dsimp only
    cases cmp d.max.1 t.min.1
    · evs; exact er_insertBelow _ _ _ _
    · repeat er1
    · evs; exact er_insertBelow _ _ _ _
  · repeat er1
  · repeat er1
  · repeat er1
  · dsimp only
    cases cmp k d.max.1
    · evs; exact er_insertBelow _ _ _ _
    · repeat er1
    · evs; exact er_insertBelow _ _ _ _

theorem er_remove (t : Tree K V S C) (k : K) : Er (t.removeT k) (t.remove k) := by
  unfold removeT remove
  evs
  split
  · exact Er.bind (er_removeMin t) fun _ => Er.pure _
  rcases t.data with _ | ⟨m, _ | ⟨s, c⟩⟩
  · repeat er1
  · dsimp only
    split <;> (repeat er1)
  · dsimp only
    split
    · evs
      refine Er.bind (ErTree.maxVal _) fun _ => Er.evBind <| Er.bind (ErColl.removeKey _ _ fun t => ErTree.removeMax t) ?_
      rintro ⟨_ | ⟨c, _ | _⟩, lo, v⟩ <;> (repeat er1)
    · evs
      refine Er.bind (ErColl.maybeRemoveKey _ _ fun t => ErTree.remove t _) ?_
      rintro (⟨_ | ⟨c, _ | _⟩, lo, v⟩ | _)
      · repeat er1
      · repeat er1
      · evs
        refine Er.bind (ErTree.remove _ _) ?_
        rintro (⟨_, _⟩ | _)
        · repeat er1
        · repeat er1
      · repeat er1

instance : ErTree (Tree K V S C) where
  fromMonad _ _ := rfl
  isMonad _ := rfl
  lenHint t := by
    rcases t with ⟨_, _ | _⟩ <;> rfl
  intoMonad t := by
    rcases t with ⟨_, _ | _⟩ <;> rfl
  minVal _ := rfl
  minValMut _ := rfl
  maxVal t := by
    show Er t.maxValT t.maxVal
    unfold maxValT maxVal
    evs
    cases t.data <;> (repeat er1)
  maxValMut t := by
    show Er t.maxValMutT t.maxValMut
    unfold maxValMutT maxValMut
    evs
    cases t.data <;> (repeat er1)
  find := er_find
  findMut := er_findMut
  predecessor := er_predecessor
  predecessorMut := er_predecessorMut
  successor := er_successor
  successorMut := er_successorMut
  insert := er_insert
  remove := er_remove
  removeMin := er_removeMin
  removeMax := er_removeMax

end Tree
end Veb
