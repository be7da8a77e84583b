import Verif.Proof.Honest

/-!
`ByteMap<L>` and `ArrayTreeCollection<H, A>` over lists and arrays of the user with side effects but proper answers.
-/

set_option autoImplicit false
set_option linter.unusedSectionVars false

namespace Veb
variable {Us : Panic → Prop} {σ : Type}

theorem Follows.of {α : Type} {x : Act σ α} {r : R α} (h : OutcomeOr Us x r) : Follows Us (fun a => r = .ok a) x r := fun s =>
  (h s).elim .inr fun ⟨a, s', h1, h2⟩ => .inl ⟨a, s', h2, h1, h2⟩

theorem Follows.sees {α : Type} {Q : α → Prop} {x : Act σ α} {r : R α} (h : Follows Us Q x r) :
    Follows Us (fun a => r = .ok a ∧ Q a ∧ ∃ s s', x s = .ok (a, s')) x r := fun s =>
  (h s).imp_left fun ⟨a, s', h1, h2, h3⟩ => ⟨a, s', h1, h2, h1, h3, s, s', h2⟩

namespace ByteMapOf

section tree
variable {L V : Type} [ListT L V] [ActList σ L V] (H : SoundList σ Us L)
include H

theorem honest_isMonad (m : ByteMapOf L) : Follows Us (fun _ => True) (m.isMonadA (σ := σ)) m.isMonad :=
  (Follows.of (H.len m.list)).bind fun _ _ => .ret trivial

theorem honest_item (m : ByteMapOf L) (r : R (Option (U 8 × Unit))) :
    Follows Us (fun _ => True) (do m.itemA (σ := σ) (← r)) (do
      match (← r) with
      | none => pure none
      | some (k, ()) => pure (some (k, ← ListT.get m.list (m.set.countBelow k)))) := by
  refine Follows.lift'.bind fun o _ => ?_
  obtain _ | ⟨k, ⟨⟩⟩ := o
  · exact .ret trivial
  · exact (Follows.of (H.get m.list _)).bind fun _ _ => .ret trivial

theorem honest_itemMut (m : ByteMapOf L) (r : R (Option (U 8 × Unit))) :
    Follows Us (fun _ => True) (do m.itemMutA (σ := σ) (← r)) (do
      match (← r) with
      | none => pure none
      | some (k, ()) =>
        let (v, put) ← ListT.getMut m.list (m.set.countBelow k)
        pure (some (k, v, fun w => { m with list := put w }))) := by
  refine Follows.lift'.bind fun o _ => ?_
  obtain _ | ⟨k, ⟨⟩⟩ := o
  · exact .ret trivial
  · exact (Follows.of (H.getMut m.list _)).bind fun _ _ => .ret trivial

/-- every `ByteMap` is good -/
@[reducible] def agreeTree : HTree Us σ (ByteMapOf L) (U 8) V where
  W _ := True
  fromMonad k v := ⟨congrArg (ByteMapOf.mk _) (H.fromMonad v), trivial⟩
  isMonad m _ := honest_isMonad H m
  lenHint m _ := by
    show Follows _ _ (lenHintA m) (defaultLenHint isMonad m)
    unfold lenHintA defaultLenHint
    refine (honest_isMonad H m).bind fun b _ => ?_
    cases b <;> exact .ret trivial
  intoMonad m _ := by
    show Follows _ _ (intoMonadA m) (intoMonad m)
    unfold intoMonadA intoMonad
    refine Follows.lift'.bind fun r _ => ?_
    obtain ⟨k, ⟨⟩⟩ | s := r
    · exact (Follows.of (H.removeValue m.list 0)).bind fun _ _ => Follows.lift'.bind fun _ _ => .ret fun _ _ => trivial
    · exact .ret fun _ _ => trivial
  minVal m _ := Follows.lift'.bind fun _ _ => (Follows.of (H.get m.list 0)).bind fun _ _ => .ret trivial
  minValMut m _ := Follows.lift'.bind fun _ _ => (Follows.of (H.getMut m.list 0)).bind fun _ _ => .ret fun _ => trivial
  maxVal m _ := Follows.lift'.bind fun _ _ => (Follows.of (H.len m.list)).bind fun _ _ => Follows.lift'.bind fun _ _ =>
    (Follows.of (H.get m.list _)).bind fun _ _ => .ret trivial
  maxValMut m _ := Follows.lift'.bind fun _ _ => (Follows.of (H.len m.list)).bind fun _ _ => Follows.lift'.bind fun _ _ =>
    (Follows.of (H.getMut m.list _)).bind fun _ _ => .ret fun _ => trivial
  find m k _ := honest_item H m (m.set.find k)
  findMut m k _ := (honest_itemMut H m (m.set.find k)).mono fun _ _ _ _ _ => trivial
  predecessor m k _ := honest_item H m (m.set.predecessor k)
  predecessorMut m k _ := (honest_itemMut H m (m.set.predecessor k)).mono fun _ _ _ _ _ => trivial
  successor m k _ := honest_item H m (m.set.successor k)
  successorMut m k _ := (honest_itemMut H m (m.set.successor k)).mono fun _ _ _ _ _ => trivial
  insert m k v _ := by
    show Follows _ _ (insertA m k v) (insert m k v)
    unfold insertA insert
    refine Follows.lift'.bind fun ⟨s, r⟩ _ => ?_
    obtain _ | ⟨k', ⟨⟩⟩ := r
    · exact (Follows.of (H.insertValue m.list _ v)).bind fun _ _ => .ret trivial
    · exact (Follows.of (H.getMut m.list _)).bind fun _ _ => .ret trivial
  remove m k _ := by
    show Follows _ _ (removeA m k) (remove m k)
    unfold removeA remove
    refine Follows.lift'.bind fun r _ => ?_
    obtain ⟨_ | s, k', ⟨⟩⟩ | s := r
    · exact (Follows.of (H.removeValue m.list _)).bind fun _ _ => Follows.lift'.bind fun _ _ => .ret fun _ _ => trivial
    · exact (Follows.of (H.removeValue m.list _)).bind fun _ _ => Follows.lift'.bind fun _ _ => .ret fun _ _ => trivial
    · exact .ret trivial
  removeMin m _ := by
    show Follows _ _ (removeMinA m) (removeMin m)
    unfold removeMinA removeMin
    refine Follows.lift'.bind fun _ _ => Follows.lift'.bind fun ⟨s, k, u⟩ _ => ?_
    unfold popA
    refine (Follows.of (H.removeValue m.list _)).bind fun ⟨l, v⟩ _ => ?_
    obtain _ | s := s <;> obtain _ | l := l <;> first | exact .fail | exact .ret fun _ _ => trivial
  removeMax m _ := by
    show Follows _ _ (removeMaxA m) (removeMax m)
    unfold removeMaxA removeMax
    refine Follows.lift'.bind fun _ _ => Follows.lift'.bind fun ⟨s, k, u⟩ _ => ?_
    unfold popA
    refine (Follows.of (H.removeValue m.list _)).bind fun ⟨l, v⟩ _ => ?_
    obtain _ | s := s <;> obtain _ | l := l <;> first | exact .fail | exact .ret fun _ _ => trivial

end tree

namespace Coll
variable {L T Lo V : Type} [ActTree σ T Lo V] [VebTree T Lo V] [P : HTree Us σ T Lo V] [TreeListT L T Lo V]
  [ActTreeList σ L T Lo V] {holds : L → T → Prop} (H : SoundTreeList σ Us L holds)
include H

/-- the collection holds only good trees -/
@[reducible] def agreeColl : HColl Us σ (ByteMapOf L) (U 8) T Lo V where
  W c := ∀ t, holds c.list t → P.W t
  create h t ht := by
    show Follows _ _ (createA h t) (create h t)
    unfold createA create
    rw [H.fromMonad]
    refine .ret fun u hu => ?_
    rw [H.fromMonad_holds t u hu]
    exact ht
  get c h I := by
    show Follows _ _ (getA c h) (get c h)
    unfold getA get
    refine .ite' (fun _ => .ret allO_none) fun _ => ?_
    exact (Follows.of (H.get c.list _)).bind fun t e => .ret (allO_some (I t (H.get_holds _ _ _ e)))
  getMut c h I := by
    show Follows _ _ (getMutA c h) (getMut c h)
    unfold getMutA getMut
    refine .ite' (fun _ => .ret (by rintro _ ⟨⟩)) fun _ => ?_
    refine (Follows.of (H.getMut c.list _)).bind fun ⟨t, put⟩ e => .ret ?_
    obtain ⟨h1, h2⟩ := H.getMut_holds _ _ _ _ e
    rintro _ ⟨⟩
    exact ⟨I t h1, fun u hu v hv => (h2 u v hv).elim (fun e => e ▸ hu) (I v)⟩
  insertKey c h e I := by
    show Follows _ _ (insertKeyA c h e) (insertKey c h e)
    unfold insertKeyA insertKey
    refine Follows.lift'.bind fun ⟨s, r⟩ _ => ?_
    refine Follows.ite' (p := r.isSome = true) (fun _ => ?_) fun _ => ?_
    · refine (Follows.of (H.getMut c.list _)).bind fun ⟨t, put⟩ e' => ?_
      obtain ⟨h1, h2⟩ := H.getMut_holds _ _ _ _ e'
      exact (P.insert t e.1 e.2 (I t h1)).bind fun r hr => .ret fun v hv => (h2 _ v hv).elim (fun e => e ▸ hr) (I v)
    · have hf := P.fromMonad e.1 e.2
      rw [hf.1]
      refine (Follows.of (H.insertTree c.list _ _)).bind fun l e' => .ret fun v hv => ?_
      exact (H.insertTree_holds _ _ _ _ v e' hv).elim (fun e => e ▸ hf.2) (I v)
  removeKey c h f g I hfg := by
    show Follows _ _ (removeKeyA c h f) (removeKey c h g)
    unfold removeKeyA removeKey
    refine Follows.lift'.bind fun _ _ => Follows.lift'.bind fun _ _ => ?_
    refine (Follows.of (H.removeKey c.list _ f g fun t ht => (hfg t (I t ht)).outcome)).sees.bind fun ⟨o, e⟩ ⟨_, _, s, s', he⟩ => ?_
    obtain _ | ⟨l, b⟩ := o
    · exact .ret allO_none
    · have key : ∀ t, holds l t → P.W t := fun u hu => by
        obtain h1 | ⟨t, s1, s2, e', h1, h2⟩ := H.removeKey_holds _ _ _ _ _ _ _ _ he u hu
        · exact I u h1
        · exact ((hfg t (I t h1)).ok h2).2 u rfl
      cases b
      · exact .ret (allO_some key)
      · exact Follows.lift'.bind fun _ _ => .ret (allO_some key)
  maybeRemoveKey c h f g I hfg := by
    show Follows _ _ (maybeRemoveKeyA c h f) (maybeRemoveKey c h g)
    unfold maybeRemoveKeyA maybeRemoveKey
    refine Follows.lift'.bind fun p _ => Follows.ite' (p := p.isNone = true) (fun _ => .ret I) fun _ => ?_
    refine (Follows.of (H.maybeRemoveKey c.list _ f g fun t ht => (hfg t (I t ht)).outcome)).sees.bind fun r ⟨_, _, s, s', he⟩ => ?_
    have back : ∀ l, ((∃ b e, ActTreeList.maybeRemoveKey c.list (c.set.countBelow h) f s = .ok (.Ok (some (l, b), e), s')) ∨
        ActTreeList.maybeRemoveKey c.list (c.set.countBelow h) f s = .ok (.Err l, s')) → ∀ t, holds l t → P.W t := fun l hl u hu => by
      obtain h1 | ⟨t, s1, s2, h1, ⟨e', h2⟩ | h2⟩ := H.maybeRemoveKey_holds _ _ _ _ _ _ hl u hu
      · exact I u h1
      · exact ((hfg t (I t h1)).ok h2).2 u rfl
      · exact ((hfg t (I t h1)).ok h2).2
    obtain ⟨_ | ⟨l, b⟩, e⟩ | l := r
    · exact .ret allO_none
    · have key := back l (.inl ⟨b, e, he⟩)
      cases b
      · exact .ret (allO_some key)
      · exact Follows.lift'.bind fun _ _ => .ret (allO_some key)
    · exact .ret (back l (.inr he))

end Coll
end ByteMapOf

namespace ArrayOf
variable {Hi A T Lo V : Type} [SizedVebKey Hi] [ActIndex σ Hi] [ActTree σ T Lo V] [VebTree T Lo V] [P : HTree Us σ T Lo V]
  [ArrayT A (SizedVebKey.cardinality Hi) T] [ActArray σ A (SizedVebKey.cardinality Hi) T] {holds : A → T → Prop}
  (X : SoundIndex σ Us Hi) (H : SoundArray σ Us A (SizedVebKey.cardinality Hi) holds)
include X H

theorem honest_slotMut (a : A) (h : Hi) (I : ∀ t, holds a t → P.W t) :
    Follows Us (fun r => AllO P.W r.1 ∧ ∀ o, AllO P.W o → ∀ t, holds (r.2 o) t → P.W t) (slotMutA (σ := σ) a h) (slotMut a h) := by
  refine .left (X.index h) ?_
  refine (Follows.of (H.getMut a _)).mono fun ⟨o, put⟩ e => ?_
  obtain ⟨h1, h2⟩ := H.getMut_holds _ _ _ _ e
  exact ⟨fun t ht => I t (h1 t ht), fun o ho t ht => (h2 o t ht).elim (fun e => ho t e) (I t)⟩

/-- the collection holds only good trees -/
@[reducible] def agreeColl : HColl Us σ (ArrayOf Hi A) Hi T Lo V where
  W c := ∀ t, holds c.array t → P.W t
  create h t ht := by
    show Follows _ _ (createA h t) (create h t)
    unfold createA create
    refine (Follows.of H.create).bind fun a e => ?_
    exact (honest_slotMut X H a h fun u hu => absurd hu (H.create_holds a u e)).bind fun _ hr => .ret (hr.2 _ (allO_some ht))
  get c h I := .left (X.index h) ((Follows.of (H.get c.array _)).mono fun o e t ht => I t (H.get_holds _ _ _ (ht ▸ e)))
  getMut c h I := by
    show Follows _ _ (getMutA c h) (getMut c h)
    unfold getMutA getMut
    refine (honest_slotMut X H c.array h I).bind fun ⟨o, put⟩ ⟨h1, h2⟩ => ?_
    obtain _ | t := o
    · exact .ret (by rintro _ ⟨⟩)
    · refine .ret ?_
      rintro _ ⟨⟩
      exact ⟨h1 t rfl, fun u hu => h2 _ (allO_some hu)⟩
  insertKey c h e I := by
    show Follows _ _ (insertKeyA c h e) (insertKey c h e)
    unfold insertKeyA insertKey
    refine (honest_slotMut X H c.array h I).bind fun ⟨o, put⟩ ⟨h1, h2⟩ => ?_
    obtain _ | t := o
    · refine (honest_slotMut X H (put none) h (h2 _ allO_none)).bind fun _ hr => Follows.lift'.bind fun _ _ => ?_
      have hf := P.fromMonad e.1 e.2
      rw [hf.1]
      exact .ret (hr.2 _ (allO_some hf.2))
    · exact (P.insert t e.1 e.2 (h1 t rfl)).bind fun r hr => .ret (h2 _ (allO_some hr))
  removeKey c h f g I hfg := by
    show Follows _ _ (removeKeyA c h f) (removeKey c h g)
    unfold removeKeyA removeKey
    refine (honest_slotMut X H c.array h I).bind fun ⟨o, put⟩ ⟨h1, h2⟩ => ?_
    refine Follows.exp.bind fun t ht => (hfg t (h1 t ht)).bind fun ⟨u, e⟩ hu => ?_
    refine Follows.ite' (p := u.isNone = true) (fun _ => Follows.lift'.bind fun n _ => ?_)
      fun _ => Follows.bind (Q := fun _ => True) (.ret trivial) fun n _ => ?_
    all_goals
      refine (honest_slotMut X H (put none) h (h2 _ allO_none)).bind fun r hr => ?_
      exact .ite' (fun _ => .ret allO_none) fun _ => .ret (allO_some (hr.2 u hu))
  maybeRemoveKey c h f g I hfg := by
    show Follows _ _ (maybeRemoveKeyA c h f) (maybeRemoveKey c h g)
    unfold maybeRemoveKeyA maybeRemoveKey
    refine (honest_slotMut X H c.array h I).bind fun ⟨o, put⟩ ⟨h1, h2⟩ => ?_
    have hn := h2 _ allO_none
    obtain _ | t := o
    · exact .ret hn
    · refine (hfg t (h1 t rfl)).bind fun r hr => ?_
      obtain ⟨u, e⟩ | u := r
      · refine Follows.ite' (p := u.isNone = true) (fun _ => Follows.lift'.bind fun n _ => ?_)
          fun _ => Follows.bind (Q := fun _ => True) (.ret trivial) fun n _ => ?_
        all_goals
          refine (honest_slotMut X H (put none) h hn).bind fun r' hr' => ?_
          exact .ite' (fun _ => .ret allO_none) fun _ => .ret (allO_some (hr'.2 u hr))
      · exact (honest_slotMut X H (put none) h hn).bind fun r' hr' => .ret (hr'.2 _ (allO_some hr))

end ArrayOf
end Veb
