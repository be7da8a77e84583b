import Verif.SpecTally
import Verif.Proof.Audit
import Verif.Proof.ActAnyList

/-!
Lists and arrays of the user that do as they like: which panics there are, and the counter of an array.
-/

set_option autoImplicit false
set_option linter.unusedSectionVars false

namespace Veb

/-- If `y` returns, then `x` returns something related or panics in `E`. -/
def BoE {σ α β : Type} (E : Panic → Prop) (P : α → β → Prop) (x : Act σ α) (y : R β) : Prop :=
  ∀ b, y = .ok b → Aud E x fun a => P a b

namespace BoE
variable {σ α β α' β' : Type} {E : Panic → Prop} {P : α → β → Prop} {Q : α' → β' → Prop}
theorem ret {a : α} {b : β} (h : P a b) : BoE E P (pure a : Act σ α) (pure b) := by rintro _ ⟨⟩; exact .ret h
theorem errl {e : Panic} {y : R β} (h : E e) : BoE E P (throw e : Act σ α) y := fun _ _ => .fail h
theorem bind {x : Act σ α} {y : R β} {f : α → Act σ α'} {g : β → R β'} (h : BoE E P x y)
    (hf : ∀ a b, P a b → BoE E Q (f a) (g b)) : BoE E Q (x >>= f) (y >>= g) := by
  intro b hb
  cases y with
  | error e => cases hb
  | ok b1 => exact (h b1 rfl).bind fun a ha => hf a b1 ha b hb
theorem same {x : R α} {f : α → Act σ α'} {g : α → R β'} (hf : ∀ a, BoE E Q (f a) (g a)) :
    BoE E Q ((liftM x : Act σ α) >>= f) (x >>= g) :=
  bind (P := fun a b => a = b) (fun _ hb => .ok hb rfl) fun a _ e => e ▸ hf a
theorem left {x : Act σ α} {f : α → Act σ α'} {y : R β'} {P : α → Prop} (h : Aud E x P) (hf : ∀ a, P a → BoE E Q (f a) y) :
    BoE E Q (x >>= f) y := fun b hb => h.bind fun a ha => hf a ha b hb
end BoE

namespace AuditList
open ActAnyList (P predecessor_mut successor_mut)
variable {σ L V : Type} [ActList σ L V] {Us : Panic → Prop}

/-- everything -/
def EL (Us : Panic → Prop) (p : Panic) : Prop := Us p ∨ AnyListPanics p
theorem us (p : Panic) (h : Us p) : EL Us p := .inl h

theorem sub1 {n : Nat} : Aud (EL Us) (liftM (subUsize n 1) : Act σ Nat) fun _ => True := by
  unfold subUsize
  split
  · exact .ret trivial
  · exact .fail (.inr (.inl rfl))

theorem item (N : ListPanics σ L Us) {m : ByteMapOf L} {r : R (Option (U 8 × Unit))} :
    BoE (EL Us) (P true) (do pure (some m, Out.kv (← (do m.itemA (σ := σ) (← r) : Act σ (Option (U 8 × V))))))
      (do pure (some m.set, Out.kv (← r))) := by
  simp only [bind_assoc]
  refine BoE.same fun o => ?_
  obtain _ | ⟨k, ⟨⟩⟩ := o
  · exact BoE.ret ⟨rfl, fun _ => rfl⟩
  · unfold ByteMapOf.itemA
    simp only [bind_assoc]
    exact BoE.left (.user (N.get _ _) us) fun _ _ => BoE.ret ⟨rfl, fun _ => rfl⟩

theorem itemMut (N : ListPanics σ L Us) {m : ByteMapOf L} {w : V} {r : R (Option (U 8 × Unit))} :
    BoE (EL Us) (P true)
      (do pure (Exec.writeOpt m w (← (do m.itemMutA (σ := σ) (← r) : Act σ (Option (U 8 × V × (V → ByteMapOf L)))))))
      (do pure (Exec.writeOpt m.set () (← (do
        match (← r) with
        | none => pure none
        | some (k, ()) => pure (some (k, (), fun _ => m.set)))))) := by
  simp only [bind_assoc]
  refine BoE.same fun o => ?_
  obtain _ | ⟨k, ⟨⟩⟩ := o
  · exact BoE.ret ⟨rfl, fun _ => rfl⟩
  · unfold ByteMapOf.itemMutA
    simp only [bind_assoc]
    exact BoE.left (.user (N.getMut _ _) us) fun _ _ => BoE.ret ⟨rfl, fun _ => rfl⟩

theorem pop (N : ListPanics σ L Us) {m : ByteMapOf L} {i : R (U 8 × Unit)} {r : R (Option ByteSet × (U 8 × Unit))}
    (h : ∀ b, r = .ok b → ∃ a, i = .ok a) :
    BoE (EL Us) (P true) (do pure (Exec.removed (← (do
        let i := m.set.countBelow (← i).1
        let (set, (k, ())) ← r
        m.popA i set k : Act σ (Option (ByteMapOf L) × (U 8 × V))))))
      (do pure (Exec.removed (← r))) := by
  cases r with
  | error e => rintro _ ⟨⟩
  | ok b =>
    obtain ⟨a, rfl⟩ := h b rfl
    obtain ⟨s, k, u⟩ := b
    show BoE _ _ (do pure (Exec.removed (← m.popA _ s k))) (pure _)
    unfold ByteMapOf.popA
    simp only [bind_assoc]
    refine BoE.left (.user (N.removeValue _ _) us) fun ⟨l, v⟩ _ => ?_
    cases s <;> cases l
    · exact BoE.ret ⟨rfl, fun _ => rfl⟩
    · exact BoE.errl (.inr (.inr (.inr (.inr rfl))))
    · exact BoE.errl (.inr (.inr (.inr (.inr rfl))))
    · exact BoE.ret ⟨rfl, fun _ => rfl⟩

theorem asserted {b : Bool} : Aud (EL Us) (liftM (debugAssert b) : Act σ Unit) fun _ => b = true :=
  .assert fun _ => .inr (.inr (.inl rfl))

theorem step_tree (N : ListPanics σ L Us) (m : ByteMapOf L) (op : Op (U 8) V) :
    BoE (EL Us) (P op.notIsMonad) (ActExec.stepTree (σ := σ) m op) (Exec.stepTree m.set op.keys) := by
  cases op with
  | insert k v =>
    show BoE _ _ (m.insertA k v >>= _) (m.set.insert k () >>= _)
    unfold ByteMapOf.insertA
    rw [bind_assoc]
    refine BoE.same fun ⟨s, r⟩ => ?_
    rcases r with _ | ⟨k', ⟨⟩⟩
    · dsimp only; rw [bind_assoc]
      exact BoE.left (.user (N.insertValue _ _ _) us) fun _ _ => BoE.ret ⟨rfl, fun _ => rfl⟩
    · dsimp only; rw [bind_assoc]
      exact BoE.left (.user (N.getMut _ _) us) fun _ _ => BoE.ret ⟨rfl, fun _ => rfl⟩
  | remove k =>
    show BoE _ _ (m.removeA k >>= _) (m.set.remove k >>= _)
    unfold ByteMapOf.removeA
    dsimp only
    rw [bind_assoc]
    refine BoE.same fun r => ?_
    rcases r with ⟨_ | s, k', ⟨⟩⟩ | s
    · dsimp only; simp only [bind_assoc]
      exact BoE.left (.user (N.removeValue _ _) us) fun _ _ => BoE.left asserted fun _ _ => BoE.ret ⟨rfl, fun _ => rfl⟩
    · dsimp only; simp only [bind_assoc]
      exact BoE.left (.user (N.removeValue _ _) us) fun _ _ => BoE.left (.exp fun _ => .inr (.inr (.inr (.inl rfl)))) fun _ _ =>
        BoE.ret ⟨rfl, fun _ => rfl⟩
    · exact BoE.ret ⟨rfl, fun _ => rfl⟩
  | removeMin =>
    refine pop N fun b hb => ?_
    have hb : m.set.removeMin = .ok b := hb
    unfold ByteSet.removeMin at hb
    show ∃ a, m.set.minVal = .ok a
    unfold ByteSet.minVal
    cases h : m.set.lowest with
    | error e => rw [h] at hb; cases hb
    | ok k => exact ⟨_, rfl⟩
  | removeMax =>
    refine pop N fun b hb => ?_
    have hb : m.set.removeMax = .ok b := hb
    unfold ByteSet.removeMax at hb
    show ∃ a, m.set.maxVal = .ok a
    unfold ByteSet.maxVal
    cases h : m.set.highest with
    | error e => rw [h] at hb; cases hb
    | ok k => exact ⟨_, rfl⟩
  | find k => exact item N
  | predecessor k => exact item N
  | successor k => exact item N
  | minVal =>
    show BoE _ _ (m.minValA >>= _) (m.set.minVal >>= _)
    unfold ByteMapOf.minValA
    rw [bind_assoc]
    refine BoE.same fun ⟨k, u⟩ => ?_
    rw [bind_assoc]
    exact BoE.left (.user (N.get _ _) us) fun _ _ => BoE.ret ⟨rfl, fun _ => rfl⟩
  | maxVal =>
    show BoE _ _ (m.maxValA >>= _) (m.set.maxVal >>= _)
    unfold ByteMapOf.maxValA
    rw [bind_assoc]
    refine BoE.same fun ⟨k, u⟩ => ?_
    simp only [bind_assoc]
    exact BoE.left (.user (N.len _) us) fun _ _ => BoE.left sub1 fun _ _ => BoE.left (.user (N.get _ _) us) fun _ _ =>
      BoE.ret ⟨rfl, fun _ => rfl⟩
  | isMonad =>
    show BoE _ _ (m.isMonadA >>= _) (m.set.isMonad >>= _)
    refine BoE.bind (P := fun _ _ => True) (fun _ _ => ?_) fun _ _ _ => BoE.ret ⟨rfl, fun h => by cases h⟩
    exact (Aud.user (N.len _) us).bind fun _ _ => .ret trivial
  | intoMonad =>
    show BoE _ _ (m.intoMonadA >>= _) (m.set.intoMonad >>= _)
    unfold ByteMapOf.intoMonadA
    rw [bind_assoc]
    refine BoE.same fun r => ?_
    rcases r with ⟨k', ⟨⟩⟩ | s
    · dsimp only; simp only [bind_assoc]
      exact BoE.left (.user (N.removeValue _ _) us) fun _ _ => BoE.left asserted fun _ _ => BoE.ret ⟨rfl, fun _ => rfl⟩
    · exact BoE.ret ⟨rfl, fun _ => rfl⟩
  | findSet k w =>
    show BoE _ _ (m.findMutA k >>= _) (m.set.findMut k >>= _)
    rw [AnyList.find_mut]
    exact itemMut N
  | predecessorSet k w =>
    show BoE _ _ (m.predecessorMutA k >>= _) (m.set.predecessorMut k >>= _)
    rw [predecessor_mut]
    exact itemMut N
  | successorSet k w =>
    show BoE _ _ (m.successorMutA k >>= _) (m.set.successorMut k >>= _)
    rw [successor_mut]
    exact itemMut N
  | minSet w =>
    show BoE _ _ (m.minValMutA >>= _) (m.set.minValMut >>= _)
    have : m.set.minValMut = (do let k ← m.set.minVal; pure (k.1, (), fun _ => m.set)) := by
      unfold ByteSet.minValMut ByteSet.minVal; simp only [bind_assoc, pure_bind]
    rw [this]
    unfold ByteMapOf.minValMutA
    simp only [bind_assoc]
    refine BoE.same fun k => ?_
    simp only [pure_bind]
    exact BoE.left (.user (N.getMut _ _) us) fun _ _ => BoE.ret ⟨rfl, fun _ => rfl⟩
  | maxSet w =>
    show BoE _ _ (m.maxValMutA >>= _) (m.set.maxValMut >>= _)
    have : m.set.maxValMut = (do let k ← m.set.maxVal; pure (k.1, (), fun _ => m.set)) := by
      unfold ByteSet.maxValMut ByteSet.maxVal; simp only [bind_assoc, pure_bind]
    rw [this]
    unfold ByteMapOf.maxValMutA
    simp only [bind_assoc]
    refine BoE.same fun k => ?_
    simp only [pure_bind]
    exact BoE.left (.user (N.len _) us) fun _ _ => BoE.left sub1 fun _ _ => BoE.left (.user (N.getMut _ _) us) fun _ _ =>
      BoE.ret ⟨rfl, fun _ => rfl⟩

theorem step (N : ListPanics σ L Us) (m : Option (ByteMapOf L)) (op : Op (U 8) V) :
    BoE (EL Us) (P op.notIsMonad) (ActExec.step (σ := σ) m op) (Exec.step (m.map ByteMapOf.set) op.keys) := by
  cases m with
  | some m => exact step_tree N m op
  | none => cases op <;> exact BoE.ret ⟨rfl, fun _ => rfl⟩

theorem run (N : ListPanics σ L Us) (ops : List (Op (U 8) V)) (m : Option (ByteMapOf L)) :
    BoE (EL Us) (fun _ _ => True) (ActExec.run (σ := σ) m ops) (Exec.run (m.map ByteMapOf.set) (ops.map Op.keys)) := by
  induction ops generalizing m with
  | nil => exact BoE.ret trivial
  | cons op ops ih =>
    refine BoE.bind (step N m op) ?_
    rintro ⟨m, o⟩ ⟨s, o'⟩ ⟨rfl, ho⟩
    refine BoE.bind (ih m) ?_
    rintro ⟨m', os⟩ ⟨s', os'⟩ -
    exact BoE.ret trivial

end AuditList

/-! ## Lists of trees -/

namespace AuditList.Coll
variable {σ L T Lo V : Type} [ActTree σ T Lo V] [ActTreeList σ L T Lo V] {Us : Panic → Prop}

/-- everything that can happen in a call -/
def E (Us : Panic → Prop) (op : ACOp σ (U 8) T Lo V) (p : Panic) : Prop := Us p ∨ p = .debugAssert ∧ op.IsRemove

theorem find_ok (s : ByteSet) (h : U 8) : s.find h = .ok (if s.isPresent h then some (h, ()) else none) := by
  unfold ByteSet.find; split <;> rfl

theorem step_coll (N : TreeListPanics σ L Us) (I : InsertPanics σ T Us) (c : ByteMapOf L) (op : ACOp σ (U 8) T Lo V)
    (hop : op.Within Us) : Aud (E Us op) (ActCollExec.stepColl c op) fun _ => True := by
  have us : ∀ p, Us p → E Us op p := fun _ => .inl
  cases op with
  | create h t => exact .ret trivial
  | get h =>
    refine Aud.bind (Q := fun _ => True) ?_ fun _ _ => .ret trivial
    show Aud _ (ByteMapOf.Coll.getA c h) _
    unfold ByteMapOf.Coll.getA
    split
    · exact .ret trivial
    · exact (Aud.user (N.get _ _) us).bind fun _ _ => .ret trivial
  | set h u =>
    refine Aud.bind (Q := fun _ => True) ?_ fun o _ => by cases o <;> exact .ret trivial
    show Aud _ (ByteMapOf.Coll.getMutA c h) _
    unfold ByteMapOf.Coll.getMutA
    split
    · exact .ret trivial
    · exact (Aud.user (N.getMut _ _) us).bind fun _ _ => .ret trivial
  | insert h l v =>
    refine Aud.bind (Q := fun _ => True) ?_ fun _ _ => .ret trivial
    show Aud _ (ByteMapOf.Coll.insertKeyA c h (l, v)) _
    unfold ByteMapOf.Coll.insertKeyA
    refine Aud.bind (Q := fun _ => True) (.lift (fun _ _ => trivial) fun p hp => ?_) fun ⟨s, r⟩ _ => ?_
    · unfold ByteSet.insert at hp; split at hp <;> cases hp
    dsimp only
    split
    · exact (Aud.user (N.getMut _ _) us).bind fun _ _ => (Aud.user (I _ _ _) us).bind fun _ _ => .ret trivial
    · exact (Aud.user (N.insertTree _ _ _) us).bind fun _ _ => .ret trivial
  | remove h r =>
    refine Aud.bind (Q := fun _ => True) ?_ fun _ _ => .ret trivial
    show Aud _ (ByteMapOf.Coll.removeKeyA c h r) _
    unfold ByteMapOf.Coll.removeKeyA
    refine (Aud.ok (find_ok _ _) (Q := fun _ => True) trivial).bind fun f _ => ?_
    refine (Aud.assert fun _ => .inr ⟨rfl, trivial⟩).bind fun _ _ => ?_
    refine (Aud.user (N.removeKey _ _ r hop) us).bind fun x _ => ?_
    rcases x with ⟨_ | ⟨list, _ | _⟩, val⟩
    · exact .ret trivial
    · exact .ret trivial
    · exact (Aud.assert fun _ => .inr ⟨rfl, trivial⟩).bind fun _ _ => .ret trivial
  | maybeRemove h r =>
    refine Aud.bind (Q := fun _ => True) ?_ fun x _ => by rcases x with x | x <;> exact .ret trivial
    show Aud _ (ByteMapOf.Coll.maybeRemoveKeyA c h r) _
    unfold ByteMapOf.Coll.maybeRemoveKeyA
    refine (Aud.ok (find_ok _ _) (Q := fun f => f = if c.set.isPresent h then some (h, ()) else none) rfl).bind fun f hf => ?_
    split
    · exact .ret trivial
    · rename_i hn
      have hp : c.set.isPresent h = true := by
        by_contra hp
        rw [if_neg hp] at hf
        exact hn (by rw [hf]; rfl)
      refine (Aud.user (N.maybeRemoveKey _ _ r hop) us).bind fun x _ => ?_
      rcases x with ⟨_ | ⟨list, _ | _⟩, val⟩ | list
      · exact .ret trivial
      · exact .ret trivial
      · exact (Aud.assert fun hh => by rw [hp] at hh; cases hh).bind fun _ _ => .ret trivial
      · exact .ret trivial

theorem run (N : TreeListPanics σ L Us) (I : InsertPanics σ T Us) (ops : List (ACOp σ (U 8) T Lo V)) (c : Option (ByteMapOf L))
    (hops : ∀ op ∈ ops, op.Within Us) :
    Aud (fun p => Us p ∨ p = .debugAssert ∧ ∃ op ∈ ops, op.IsRemove) (ActCollExec.run c ops) fun _ => True := by
  induction ops generalizing c with
  | nil => exact .ret trivial
  | cons op ops ih =>
    have h1 : Aud (E Us op) (ActCollExec.step c op) fun _ => True := by
      cases c with
      | some c => exact step_coll N I c op (hops op (by simp))
      | none => cases op <;> exact .ret trivial
    refine (h1.more ?_).bind fun ⟨c', o⟩ _ => ((ih c' fun op h => hops op (by simp [h])).more ?_).bind fun _ _ => .ret trivial
    · rintro p (h | ⟨h, h'⟩)
      · exact .inl h
      · exact .inr ⟨h, op, by simp, h'⟩
    · rintro p (h | ⟨h, op', h', h''⟩)
      · exact .inl h
      · exact .inr ⟨h, op', by simp [h'], h''⟩

end AuditList.Coll

/-! ## Arrays -/

namespace AuditArray
variable {σ Hi A T Lo V : Type} [SizedVebKey Hi] [ActIndex σ Hi] [ActArray σ A (SizedVebKey.cardinality Hi) T] [ActTree σ T Lo V]
  {Us : Panic → Prop}

/-- the number of trees, as the counter says -/
def num (c : ArrayOf Hi A) : Nat := c.count

/-- everything that can happen in a call of a collection that counts `n` -/
def E (Us : Panic → Prop) (n : Option Nat) (op : ACOp σ Hi T Lo V) (p : Panic) : Prop :=
  Us p ∨ p = .expect "array should contain tree at key index" ∧ op.IsRemove ∨ p = .arith ∧ ∃ k, n = some k ∧ usizeMax ≤ k

/-- the collection after a call -/
def Good (n : Option Nat) (op : ACOp σ Hi T Lo V) (x : Option (ArrayOf Hi A) × COut Hi T Lo V) : Prop :=
  Tally.fits n op.shape x.2 ∧ x.1.map num = Tally.after n x.2 ∧ ∀ c, x.1 = some c → 1 ≤ c.count

section
variable (hx : IndexPanics σ Hi Us) (N : SlotPanics σ A (SizedVebKey.cardinality Hi) Us)
include hx N

theorem slotMut {E : Panic → Prop} (us : ∀ p, Us p → E p) (a : A) (h : Hi) :
    Aud E (ArrayOf.slotMutA (σ := σ) a h) fun _ => True :=
  (Aud.user (hx h) us).bind fun _ _ => .user (N.getMut _ _) us

theorem create {E : Panic → Prop} (us : ∀ p, Us p → E p) (h : Hi) (t : T) :
    Aud E (ActColl.create h t : Act σ (ArrayOf Hi A)) fun c => c.count = 1 :=
  (Aud.user N.create us).bind fun a _ => (slotMut hx N us a h).bind (P := fun c => c.count = 1)
    (f := fun p => pure (⟨p.2 (some t), 1⟩ : ArrayOf Hi A)) fun _ _ => .ret rfl

theorem step_coll (I : InsertPanics σ T Us) (c : ArrayOf Hi A) (hc : 1 ≤ c.count) (op : ACOp σ Hi T Lo V)
    (hop : op.Within Us) : Aud (E Us (some c.count) op) (ActCollExec.stepColl c op) (Good (some c.count) op) := by
  have us : ∀ p, Us p → E Us (some c.count) op p := fun _ => .inl
  cases op with
  | create h t =>
    exact (create hx N us h t).bind fun c' h' => .ret ⟨trivial, congrArg some h', by rintro _ ⟨⟩; exact h'.ge⟩
  | get h =>
    show Aud _ (ArrayOf.getA c h >>= _) _
    unfold ArrayOf.getA
    rw [bind_assoc]
    refine (Aud.user (hx h) us).bind fun i _ => (Aud.user (N.get _ _) us).bind fun o _ => .ret ⟨rfl, rfl, ?_⟩
    rintro _ ⟨⟩; exact hc
  | set h u =>
    show Aud _ (ArrayOf.getMutA c h >>= _) _
    unfold ArrayOf.getMutA
    rw [bind_assoc]
    refine (slotMut hx N us _ _).bind fun ⟨o, put⟩ _ => ?_
    cases o with
    | none => exact .ret ⟨rfl, rfl, by rintro _ ⟨⟩; exact hc⟩
    | some t => exact .ret ⟨rfl, rfl, by rintro _ ⟨⟩; exact hc⟩
  | insert h l v =>
    show Aud _ (ArrayOf.insertKeyA c h (l, v) >>= _) _
    unfold ArrayOf.insertKeyA
    rw [bind_assoc]
    refine (slotMut hx N us _ _).bind fun ⟨o, put⟩ _ => ?_
    cases o with
    | none =>
      dsimp only
      rw [bind_assoc]
      refine (slotMut hx N us _ _).bind fun ⟨o, put⟩ _ => ?_
      rw [bind_assoc]
      refine Aud.bind (Q := fun n => n = c.count + 1) (.lift (fun n hn => ?_) fun p hp => ?_) fun n hn => ?_
      · unfold addUsize at hn; split at hn <;> cases hn; rfl
      · unfold addUsize at hp; split at hp <;> cases hp
        exact .inr (.inr ⟨rfl, _, rfl, by omega⟩)
      · subst hn
        exact .ret ⟨⟨rfl, rfl⟩, rfl, by rintro _ ⟨⟩; exact Nat.le_add_left 1 _⟩
    | some t =>
      dsimp only
      rw [bind_assoc]
      exact (Aud.user (I _ _ _) us).bind fun _ _ => .ret ⟨⟨rfl, rfl⟩, rfl, by rintro _ ⟨⟩; exact hc⟩
  | remove h r =>
    show Aud _ (ArrayOf.removeKeyA c h r >>= _) _
    unfold ArrayOf.removeKeyA
    rw [bind_assoc]
    refine (slotMut hx N us _ _).bind fun ⟨o, put⟩ _ => ?_
    dsimp only
    rw [bind_assoc]
    refine (Aud.exp fun _ => .inr (.inl ⟨rfl, trivial⟩)).bind fun t _ => ?_
    rw [bind_assoc]
    refine (Aud.user (hop t) us).bind fun ⟨t', val⟩ _ => ?_
    dsimp only
    cases t' with
    | none =>
      simp only [Option.isNone_none, if_true]
      rw [bind_assoc]
      refine (Aud.sub hc).bind fun n hn => ?_
      rw [bind_assoc]
      refine (slotMut hx N us _ _).bind fun ⟨o, put⟩ _ => ?_
      dsimp only
      split
      · refine .ret ⟨?_, rfl, by rintro _ ⟨⟩⟩
        show some c.count = some 1
        congr 1; omega
      · refine .ret ⟨⟨_, rfl, by omega⟩, ?_, by rintro _ ⟨⟩; show 1 ≤ n; omega⟩
        show some n = some (c.count - 1)
        congr 1; omega
    | some t' =>
      simp only [Option.isNone_some, Bool.false_eq_true, if_false]
      rw [pure_bind, bind_assoc]
      refine (slotMut hx N us _ _).bind fun ⟨o, put⟩ _ => ?_
      dsimp only
      rw [if_neg (by omega)]
      exact .ret ⟨rfl, rfl, by rintro _ ⟨⟩; exact hc⟩
  | maybeRemove h r =>
    show Aud _ (ArrayOf.maybeRemoveKeyA c h r >>= _) _
    unfold ArrayOf.maybeRemoveKeyA
    rw [bind_assoc]
    refine (slotMut hx N us _ _).bind fun ⟨o, put⟩ _ => ?_
    cases o with
    | none => exact .ret ⟨rfl, rfl, by rintro _ ⟨⟩; exact hc⟩
    | some t =>
      dsimp only
      rw [bind_assoc]
      refine (Aud.user (hop t) us).bind fun x _ => ?_
      rcases x with ⟨_ | t', val⟩ | t'
      · simp only [Option.isNone_none, if_true]
        rw [bind_assoc]
        refine (Aud.sub hc).bind fun n hn => ?_
        rw [bind_assoc]
        refine (slotMut hx N us _ _).bind fun ⟨o, put⟩ _ => ?_
        dsimp only
        split
        · refine .ret ⟨?_, rfl, by rintro _ ⟨⟩⟩
          show some c.count = some 1
          congr 1; omega
        · refine .ret ⟨⟨_, rfl, by omega⟩, ?_, by rintro _ ⟨⟩; show 1 ≤ n; omega⟩
          show some n = some (c.count - 1)
          congr 1; omega
      · simp only [Option.isNone_some, Bool.false_eq_true, if_false]
        rw [pure_bind, bind_assoc]
        refine (slotMut hx N us _ _).bind fun ⟨o, put⟩ _ => ?_
        dsimp only
        rw [if_neg (by omega)]
        exact .ret ⟨rfl, rfl, by rintro _ ⟨⟩; exact hc⟩
      · dsimp only
        rw [bind_assoc]
        refine (slotMut hx N us _ _).bind fun ⟨o, put⟩ _ => ?_
        exact .ret ⟨rfl, rfl, by rintro _ ⟨⟩; exact hc⟩

theorem step (I : InsertPanics σ T Us) (c : Option (ArrayOf Hi A)) (hc : ∀ d, c = some d → 1 ≤ d.count)
    (op : ACOp σ Hi T Lo V) (hop : op.Within Us) :
    Aud (E Us (c.map num) op) (ActCollExec.step c op) (Good (c.map num) op) := by
  cases c with
  | some c => exact step_coll hx N I c (hc c rfl) op hop
  | none =>
    cases op with
    | create h t =>
      exact (create hx N (fun _ => .inl) h t).bind fun c' h' =>
        .ret ⟨trivial, congrArg some h', by rintro _ ⟨⟩; exact h'.ge⟩
    | _ => exact .ret ⟨rfl, rfl, by rintro _ ⟨⟩⟩

/-- the number grows by one at most -/
theorem after_le {n : Option Nat} {o : COut Hi T Lo V} {m : Nat} (hn : ∀ k, n = some k → k ≤ m) :
    ∀ k, Tally.after n o = some k → k ≤ m + 1 := by
  intro k hk
  unfold Tally.after at hk
  split at hk
  · cases hk; omega
  · obtain ⟨j, rfl, rfl⟩ := Option.map_eq_some_iff.1 hk; have := hn _ rfl; omega
  · cases hk
  · obtain ⟨j, rfl, rfl⟩ := Option.map_eq_some_iff.1 hk; have := hn _ rfl; omega
  · have := hn k hk; omega

theorem run (I : InsertPanics σ T Us) (ops : List (ACOp σ Hi T Lo V)) (c : Option (ArrayOf Hi A))
    (hc : ∀ d, c = some d → 1 ≤ d.count) (m : Nat) (hm : ∀ k, c.map num = some k → k ≤ m) (hops : ∀ op ∈ ops, op.Within Us) :
    Aud (fun p => Us p ∨ (p = .expect "array should contain tree at key index" ∧ ∃ op ∈ ops, op.IsRemove) ∨
        p = .arith ∧ usizeMax < m + ops.length) (ActCollExec.run c ops)
      fun x => Tally.Kept (c.map num) (ops.map ACOp.shape) x.2 := by
  induction ops generalizing c m with
  | nil => exact .ret trivial
  | cons op ops ih =>
    refine ((step hx N I c hc op (hops op (by simp))).more ?_).bind fun ⟨c', o⟩ hg => ?_
    · rintro p (h | ⟨h, h'⟩ | ⟨h, k, h1, h2⟩)
      · exact .inl h
      · exact .inr (.inl ⟨h, op, by simp, h'⟩)
      · have := hm k h1
        exact .inr (.inr ⟨h, by simp only [List.length_cons]; omega⟩)
    · obtain ⟨g1, g2, g3⟩ := hg
      dsimp only at g2
      refine ((ih c' g3 (m + 1) ?_ fun op h => hops op (by simp [h])).more ?_).bind fun ⟨_, os⟩ hk => .ret ⟨g1, ?_⟩
      · rw [g2]; exact after_le hx N hm
      · rintro p (h | ⟨h, op', h', h''⟩ | ⟨h, h'⟩)
        · exact .inl h
        · exact .inr (.inl ⟨h, op', by simp [h'], h''⟩)
        · exact .inr (.inr ⟨h, by simp only [List.length_cons]; omega⟩)
      · rw [← g2]; exact hk
end
end AuditArray
end Veb
