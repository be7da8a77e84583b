import Verif.Proof.AnyList
import Verif.Model.ActList
import Verif.Model.ActCollExec
import Verif.SpecActList

/-!
`ByteMap<L>` over any list type whatever that has a state: its keys follow the `ByteSet`.
-/

set_option autoImplicit false

namespace Veb

/-- Whenever both return, what they return is related. -/
def BoA {σ α β : Type} (P : α → β → Prop) (x : Act σ α) (y : R β) : Prop :=
  ∀ s a s' b, x s = .ok (a, s') → y = .ok b → P a b

namespace BoA
variable {σ α β α' β' γ : Type} {P : α → β → Prop} {Q : α' → β' → Prop}
theorem ret {a : α} {b : β} (h : P a b) : BoA P (pure a : Act σ α) (pure b) := by rintro _ _ _ _ ⟨⟩ ⟨⟩; exact h
theorem errl {e : Panic} {y : R β} : BoA P (throw e : Act σ α) y := by rintro _ _ _ _ ⟨⟩
theorem split_ok {x : Act σ α} {f : α → Act σ α'} {s s' : σ} {b : α'} (h : (x >>= f) s = .ok (b, s')) :
    ∃ a s1, x s = .ok (a, s1) ∧ f a s1 = .ok (b, s') := by
  have h : (x s >>= fun p => f p.1 p.2) = .ok (b, s') := h
  cases hx : x s with
  | error e => rw [hx] at h; cases h
  | ok p => rw [hx] at h; exact ⟨p.1, p.2, rfl, h⟩
theorem bind {x : Act σ α} {y : R β} {f : α → Act σ α'} {g : β → R β'} (h : BoA P x y)
    (hf : ∀ a b, P a b → BoA Q (f a) (g b)) : BoA Q (x >>= f) (y >>= g) := by
  intro s a s' b ha hb
  obtain ⟨a1, s1, h1, h2⟩ := split_ok ha
  cases y with
  | error e => cases hb
  | ok b1 => exact hf a1 b1 (h _ _ _ _ h1 rfl) _ _ _ _ h2 hb
theorem same {x : R α} {f : α → Act σ α'} {g : α → R β'} (hf : ∀ a, BoA Q (f a) (g a)) :
    BoA Q ((liftM x : Act σ α) >>= f) (x >>= g) := by
  refine bind (P := fun a b => a = b) ?_ fun a b e => e ▸ hf a
  intro s a s' b ha hb
  subst hb
  cases ha
  rfl
theorem left {x : Act σ α} {f : α → Act σ α'} {y : R β'} (hf : ∀ a, BoA Q (f a) y) : BoA Q (x >>= f) y := by
  intro s a s' b ha hb
  obtain ⟨a1, s1, h1, h2⟩ := split_ok ha
  exact hf a1 _ _ _ _ h2 hb
end BoA

namespace ActAnyList
variable {σ L V : Type} [ActList σ L V]

/-- the map and the set, with what was answered -/
def P (notM : Bool) : Option (ByteMapOf L) × Out (U 8) V → Option ByteSet × Out (U 8) Unit → Prop :=
  fun x y => x.1.map ByteMapOf.set = y.1 ∧ (notM = true → x.2.keys = y.2)

theorem item {m : ByteMapOf L} {r : R (Option (U 8 × Unit))} :
    BoA (P true) (do pure (some m, Out.kv (← (do m.itemA (σ := σ) (← r) : Act σ (Option (U 8 × V))))))
      (do pure (some m.set, Out.kv (← r))) := by
  simp only [bind_assoc]
  refine BoA.same fun o => ?_
  obtain _ | ⟨k, ⟨⟩⟩ := o
  · exact BoA.ret ⟨rfl, fun _ => rfl⟩
  · unfold ByteMapOf.itemA
    simp only [bind_assoc]
    exact BoA.left fun _ => BoA.ret ⟨rfl, fun _ => rfl⟩

theorem itemMut {m : ByteMapOf L} {w : V} {r : R (Option (U 8 × Unit))} :
    BoA (P true) (do pure (Exec.writeOpt m w (← (do m.itemMutA (σ := σ) (← r) : Act σ (Option (U 8 × V × (V → ByteMapOf L)))))))
      (do pure (Exec.writeOpt m.set () (← (do
        match (← r) with
        | none => pure none
        | some (k, ()) => pure (some (k, (), fun _ => m.set)))))) := by
  simp only [bind_assoc]
  refine BoA.same fun o => ?_
  obtain _ | ⟨k, ⟨⟩⟩ := o
  · exact BoA.ret ⟨rfl, fun _ => rfl⟩
  · unfold ByteMapOf.itemMutA
    simp only [bind_assoc]
    exact BoA.left fun _ => BoA.ret ⟨rfl, fun _ => rfl⟩

theorem predecessor_mut (s : ByteSet) (k : U 8) : s.predecessorMut k = (do
    match (← s.predecessor k) with
    | none => pure none
    | some (k, ()) => pure (some (k, (), fun _ => s))) := by
  unfold ByteSet.predecessorMut ByteSet.predecessor
  cases ByteSet.fromArray (ByteSet.andWords (ByteSet.maskLower k) s) with
  | none => rfl
  | some v => dsimp only; simp only [bind_assoc, pure_bind]
theorem successor_mut (s : ByteSet) (k : U 8) : s.successorMut k = (do
    match (← s.successor k) with
    | none => pure none
    | some (k, ()) => pure (some (k, (), fun _ => s))) := by
  unfold ByteSet.successorMut ByteSet.successor
  cases ByteSet.fromArray (ByteSet.andWords (ByteSet.maskHigher k) s) with
  | none => rfl
  | some v => dsimp only; simp only [bind_assoc, pure_bind]

theorem pop {m : ByteMapOf L} {i : R (U 8 × Unit)} {r : R (Option ByteSet × (U 8 × Unit))} :
    BoA (P true) (do pure (Exec.removed (← (do
        let i := m.set.countBelow (← i).1
        let (set, (k, ())) ← r
        m.popA i set k : Act σ (Option (ByteMapOf L) × (U 8 × V))))))
      (do pure (Exec.removed (← r))) := by
  simp only [bind_assoc]
  refine BoA.left fun _ => BoA.same fun ⟨s, k, u⟩ => ?_
  unfold ByteMapOf.popA
  simp only [bind_assoc]
  refine BoA.left fun ⟨l, v⟩ => ?_
  cases s <;> cases l
  · exact BoA.ret ⟨rfl, fun _ => rfl⟩
  · exact BoA.errl
  · exact BoA.errl
  · exact BoA.ret ⟨rfl, fun _ => rfl⟩

theorem step_tree (m : ByteMapOf L) (op : Op (U 8) V) :
    BoA (P op.notIsMonad) (ActExec.stepTree (σ := σ) m op) (Exec.stepTree m.set op.keys) := by
  cases op with
  | insert k v =>
    show BoA _ (m.insertA k v >>= _) (m.set.insert k () >>= _)
    unfold ByteMapOf.insertA
    rw [bind_assoc]
    refine BoA.same fun ⟨s, r⟩ => ?_
    rcases r with _ | ⟨k', ⟨⟩⟩
    · dsimp only; rw [bind_assoc]; exact BoA.left fun _ => BoA.ret ⟨rfl, fun _ => rfl⟩
    · dsimp only; rw [bind_assoc]; exact BoA.left fun _ => BoA.ret ⟨rfl, fun _ => rfl⟩
  | remove k =>
    show BoA _ (m.removeA k >>= _) (m.set.remove k >>= _)
    unfold ByteMapOf.removeA
    dsimp only
    rw [bind_assoc]
    refine BoA.same fun r => ?_
    rcases r with ⟨_ | s, k', ⟨⟩⟩ | s
    · dsimp only; simp only [bind_assoc]; exact BoA.left fun _ => BoA.left fun _ => BoA.ret ⟨rfl, fun _ => rfl⟩
    · dsimp only; simp only [bind_assoc]; exact BoA.left fun _ => BoA.left fun _ => BoA.ret ⟨rfl, fun _ => rfl⟩
    · exact BoA.ret ⟨rfl, fun _ => rfl⟩
  | removeMin => exact pop
  | removeMax => exact pop
  | find k => exact item
  | predecessor k => exact item
  | successor k => exact item
  | minVal =>
    show BoA _ (m.minValA >>= _) (m.set.minVal >>= _)
    unfold ByteMapOf.minValA
    rw [bind_assoc]
    refine BoA.same fun ⟨k, u⟩ => ?_
    rw [bind_assoc]
    exact BoA.left fun _ => BoA.ret ⟨rfl, fun _ => rfl⟩
  | maxVal =>
    show BoA _ (m.maxValA >>= _) (m.set.maxVal >>= _)
    unfold ByteMapOf.maxValA
    rw [bind_assoc]
    refine BoA.same fun ⟨k, u⟩ => ?_
    simp only [bind_assoc]
    exact BoA.left fun _ => BoA.left fun _ => BoA.left fun _ => BoA.ret ⟨rfl, fun _ => rfl⟩
  | isMonad =>
    show BoA _ (m.isMonadA >>= _) (m.set.isMonad >>= _)
    refine BoA.bind (P := fun _ _ => True) (fun _ _ _ _ _ _ => trivial) fun _ _ _ => BoA.ret ⟨rfl, fun h => by cases h⟩
  | intoMonad =>
    show BoA _ (m.intoMonadA >>= _) (m.set.intoMonad >>= _)
    unfold ByteMapOf.intoMonadA
    rw [bind_assoc]
    refine BoA.same fun r => ?_
    rcases r with ⟨k', ⟨⟩⟩ | s
    · dsimp only; simp only [bind_assoc]; exact BoA.left fun _ => BoA.left fun _ => BoA.ret ⟨rfl, fun _ => rfl⟩
    · exact BoA.ret ⟨rfl, fun _ => rfl⟩
  | findSet k w =>
    show BoA _ (m.findMutA k >>= _) (m.set.findMut k >>= _)
    rw [AnyList.find_mut]
    exact itemMut
  | predecessorSet k w =>
    show BoA _ (m.predecessorMutA k >>= _) (m.set.predecessorMut k >>= _)
    rw [predecessor_mut]
    exact itemMut
  | successorSet k w =>
    show BoA _ (m.successorMutA k >>= _) (m.set.successorMut k >>= _)
    rw [successor_mut]
    exact itemMut
  | minSet w =>
    show BoA _ (m.minValMutA >>= _) (m.set.minValMut >>= _)
    have : m.set.minValMut = (do let k ← m.set.minVal; pure (k.1, (), fun _ => m.set)) := by
      unfold ByteSet.minValMut ByteSet.minVal; simp only [bind_assoc, pure_bind]
    rw [this]
    unfold ByteMapOf.minValMutA
    simp only [bind_assoc]
    refine BoA.same fun k => ?_
    simp only [pure_bind]
    exact BoA.left fun _ => BoA.ret ⟨rfl, fun _ => rfl⟩
  | maxSet w =>
    show BoA _ (m.maxValMutA >>= _) (m.set.maxValMut >>= _)
    have : m.set.maxValMut = (do let k ← m.set.maxVal; pure (k.1, (), fun _ => m.set)) := by
      unfold ByteSet.maxValMut ByteSet.maxVal; simp only [bind_assoc, pure_bind]
    rw [this]
    unfold ByteMapOf.maxValMutA
    simp only [bind_assoc]
    refine BoA.same fun k => ?_
    simp only [pure_bind]
    exact BoA.left fun _ => BoA.left fun _ => BoA.left fun _ => BoA.ret ⟨rfl, fun _ => rfl⟩

theorem step (m : Option (ByteMapOf L)) (op : Op (U 8) V) :
    BoA (P op.notIsMonad) (ActExec.step (σ := σ) m op) (Exec.step (m.map ByteMapOf.set) op.keys) := by
  cases m with
  | some m => exact step_tree m op
  | none => cases op <;> exact BoA.ret ⟨rfl, fun _ => rfl⟩

theorem run (ops : List (Op (U 8) V)) (m : Option (ByteMapOf L)) :
    BoA (fun x y => x.1.map ByteMapOf.set = y.1 ∧ AgreeOn Op.notIsMonad (ops.map Op.keys) (x.2.map Out.keys) y.2)
      (ActExec.run (σ := σ) m ops) (Exec.run (m.map ByteMapOf.set) (ops.map Op.keys)) := by
  induction ops generalizing m with
  | nil => exact BoA.ret ⟨rfl, rfl, rfl, fun i op h => by simp at h⟩
  | cons op ops ih =>
    refine BoA.bind (step m op) ?_
    rintro ⟨m, o⟩ ⟨s, o'⟩ ⟨rfl, ho⟩
    refine BoA.bind (ih m) ?_
    rintro ⟨m', os⟩ ⟨s', os'⟩ ⟨hm, h1, h2, h3⟩
    refine BoA.ret ⟨hm, by simpa using h1, by simpa using h2, fun i op' h hp => ?_⟩
    cases i with
    | zero =>
      simp only [List.map_cons, List.getElem?_cons_zero, Option.some.injEq] at h ⊢
      subst h
      exact ho (by cases op <;> first | rfl | exact hp)
    | succ i =>
      simp only [List.map_cons, List.getElem?_cons_succ] at h ⊢
      exact h3 i op' h hp

end ActAnyList

/-! ## As a collection -/

namespace ActAnyList.Coll
open AnyList.Coll (has present_set present_unset present_monad find_isSome assert_ok)
variable {σ L T Lo V : Type} [ActTree σ T Lo V] [ActTreeList σ L T Lo V]

/-- whenever the computation returns, what it returns meets `Q` -/
def Post {α : Type} (x : Act σ α) (Q : α → Prop) : Prop := ∀ s a s', x s = .ok (a, s') → Q a
theorem Post.ret {α : Type} {a : α} {Q : α → Prop} (h : Q a) : Post (pure a : Act σ α) Q := by rintro _ _ _ ⟨⟩; exact h
theorem Post.bind {α β : Type} {x : Act σ α} {f : α → Act σ β} {Q : β → Prop} (h : ∀ a, Post (f a) Q) : Post (x >>= f) Q := by
  intro s b s' hb
  obtain ⟨a, s1, -, h2⟩ := BoA.split_ok hb
  exact h a _ _ _ h2
theorem Post.lift {α β : Type} {x : R α} {f : α → Act σ β} {Q : β → Prop} (h : ∀ a, x = .ok a → Post (f a) Q) :
    Post ((liftM x : Act σ α) >>= f) Q := by
  intro s b s' hb
  obtain ⟨a, s1, h1, h2⟩ := BoA.split_ok hb
  cases x with
  | error e => cases h1
  | ok a => cases h1; exact h _ rfl _ _ _ h2

/-- the book and the collection after a call -/
def Good (c : Option (ByteMapOf L)) (op : ACOp σ (U 8) T Lo V) (x : Option (ByteMapOf L) × COut (U 8) T Lo V) : Prop :=
  Book.fits (c.map has) op.shape x.2 ∧ x.1.map has = Book.after (c.map has) op.shape x.2

theorem step_coll (c : ByteMapOf L) (op : ACOp σ (U 8) T Lo V) : Post (ActCollExec.stepColl c op) (Good (some c) op) := by
  cases op with
  | create h t => exact Post.ret ⟨trivial, congrArg some (funext fun j => propext (present_monad h j))⟩
  | get h =>
    show Post (ByteMapOf.Coll.getA c h >>= _) _
    unfold ByteMapOf.Coll.getA
    by_cases hp : c.set.isPresent h = true
    · rw [if_neg (by simp [hp]), bind_assoc]
      exact Post.bind fun t => Post.ret ⟨⟨_, rfl, by simp [has, hp]⟩, rfl⟩
    · rw [if_pos (by simp [hp])]
      exact Post.ret ⟨⟨_, rfl, by simp [has, hp]⟩, rfl⟩
  | set h u =>
    show Post (ByteMapOf.Coll.getMutA c h >>= _) _
    unfold ByteMapOf.Coll.getMutA
    by_cases hp : c.set.isPresent h = true
    · rw [if_neg (by simp [hp]), bind_assoc]
      exact Post.bind fun t => Post.ret ⟨⟨_, rfl, by simp [has, hp]⟩, rfl⟩
    · rw [if_pos (by simp [hp])]
      exact Post.ret ⟨⟨_, rfl, by simp [has, hp]⟩, rfl⟩
  | insert h l v =>
    show Post (ByteMapOf.Coll.insertKeyA c h (l, v) >>= _) _
    unfold ByteMapOf.Coll.insertKeyA ByteSet.insert
    by_cases hp : c.set.isPresent h = true
    · rw [if_pos hp]
      show Post ((do let (t, put) ← (ActTreeList.getMut c.list (c.set.countBelow h) : Act σ (T × (T → L))); let (t, o) ← ActTree.insert t l v; pure (ByteMapOf.mk c.set (put t), Result.Err (h, o))) >>= _) _
      rw [bind_assoc]
      refine Post.bind fun t => ?_
      dsimp only
      rw [bind_assoc]
      exact Post.bind fun t => Post.ret ⟨⟨_, rfl, hp, rfl⟩, rfl⟩
    · rw [if_neg hp]
      show Post ((do pure (ByteMapOf.mk (c.set.setBit h) (← ActTreeList.insertTree c.list _ (ActTree.fromMonad σ l v)), Result.Ok h)) >>= _) _
      rw [bind_assoc]
      exact Post.bind fun t => Post.ret ⟨⟨_, rfl, hp, rfl⟩,
        congrArg some (funext fun j => propext (present_set c.set h j))⟩
  | remove h r =>
    show Post (ByteMapOf.Coll.removeKeyA c h r >>= _) _
    unfold ByteMapOf.Coll.removeKeyA
    rw [bind_assoc]
    refine Post.lift fun f hf => ?_
    rw [bind_assoc]
    refine Post.lift fun u hu => ?_
    have hp : c.set.isPresent h = true := by rw [← find_isSome hf]; exact assert_ok hu
    dsimp only
    rw [bind_assoc]
    refine Post.bind fun x => ?_
    rcases x with ⟨_ | ⟨list, _ | _⟩, val⟩
    · exact Post.ret ⟨⟨_, rfl, hp⟩, rfl⟩
    · exact Post.ret ⟨⟨_, rfl, hp⟩, rfl⟩
    · dsimp only
      rw [if_pos rfl, hp]
      exact Post.ret ⟨⟨_, rfl, hp⟩, congrArg some (funext fun j => propext (present_unset c.set h j))⟩
  | maybeRemove h r =>
    show Post (ByteMapOf.Coll.maybeRemoveKeyA c h r >>= _) _
    unfold ByteMapOf.Coll.maybeRemoveKeyA
    rw [bind_assoc]
    refine Post.lift fun f hf => ?_
    have hf := find_isSome hf
    by_cases hp : c.set.isPresent h = true
    · rw [if_neg (by rw [hp] at hf; cases f <;> simp_all)]
      dsimp only
      rw [bind_assoc]
      refine Post.bind fun x => ?_
      rcases x with ⟨_ | ⟨list, _ | _⟩, val⟩ | list
      · exact Post.ret ⟨⟨_, rfl, hp⟩, rfl⟩
      · exact Post.ret ⟨⟨_, rfl, hp⟩, rfl⟩
      · dsimp only
        rw [if_pos rfl, hp]
        exact Post.ret ⟨⟨_, rfl, hp⟩, congrArg some (funext fun j => propext (present_unset c.set h j))⟩
      · exact Post.ret ⟨rfl, rfl⟩
    · rw [if_pos (by cases f <;> simp_all)]
      exact Post.ret ⟨rfl, rfl⟩

theorem step (c : Option (ByteMapOf L)) (op : ACOp σ (U 8) T Lo V) : Post (ActCollExec.step c op) (Good c op) := by
  cases c with
  | some c => exact step_coll c op
  | none =>
    cases op with
    | create h t => exact Post.ret ⟨trivial, congrArg some (funext fun j => propext (present_monad h j))⟩
    | _ => exact Post.ret ⟨rfl, rfl⟩

theorem run (ops : List (ACOp σ (U 8) T Lo V)) (c : Option (ByteMapOf L)) :
    Post (ActCollExec.run c ops) fun x => Book.Kept (c.map has) (ops.map ACOp.shape) x.2 := by
  induction ops generalizing c with
  | nil => exact Post.ret trivial
  | cons op ops ih =>
    intro s a s' ha
    obtain ⟨⟨c', o⟩, s1, h1, h⟩ := BoA.split_ok ha
    obtain ⟨g1, g2⟩ := step c op _ _ _ h1
    obtain ⟨⟨c'', os⟩, s2, h3, h⟩ := BoA.split_ok h
    cases h
    refine ⟨g1, ?_⟩
    have := ih c' _ _ _ h3
    rw [g2] at this
    exact this

end ActAnyList.Coll
end Veb
