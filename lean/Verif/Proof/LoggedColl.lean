import Verif.Proof.Logged

/-!
The collections over keys that write a log.
-/

set_option autoImplicit false
set_option linter.unusedSectionVars false

namespace Veb
open Tk (ev tick)

/-! ## Arrays -/

theorem silent {α : Type} (a : α) : Silent (silently a) a := fun _ => rfl

namespace ArrayColl
variable {Hi T Lo V : Type} [SizedVebKey Hi] [ActTree (List Ev) T Lo V] [VebTree T Lo V] [TickTree T Lo V] [P : LTree T Lo V]

theorem logged_get {W : T → Prop} {a : OptionArray T} (h : AW W a) (i : Nat) :
    Logs (fun o => AllO W o ∧ i < a.len) (liftM (a.get i) : Act (List Ev) _) (a.get i) := by
  refine .lift fun o e => ?_
  unfold OptionArray.get at e
  split at e
  · cases e; exact ⟨h i, by assumption⟩
  · cases e
theorem logged_put {W : T → Prop} {a : OptionArray T} (h : AW W a) (i : Nat) {o : Option T} (ho : AllO W o) :
    Logs (AW W) (liftM (a.put i o) : Act (List Ev) _) (a.put i o) := by
  refine .lift fun b e => ?_
  unfold OptionArray.put at e
  split at e
  · cases e
    intro j
    show AllO W (if j = i then o else a.slot j)
    by_cases hj : j = i
    · rw [if_pos hj]; exact ho
    · rw [if_neg hj]; exact h j
  · cases e

@[reducible] def loggedColl : LColl (ArrayColl Hi T) Hi T Lo V where
  W c := AW P.W c.array
  create h t ht := by
    show Logs _ (createA h t) (createT h t)
    unfold createA createT create
    refine .make ?_
    refine .left (silent _) ?_
    refine .liftBind ?_
    exact (logged_put (a := OptionArray.create _) (fun _ => allO_none) _ (allO_some ht)).bind fun b hb => .liftPure (.ret hb)
  get c h I := by
    show Logs _ (getA c h) (liftM (get c h) : Tk _)
    unfold getA get
    exact .left (silent _) ((logged_get I _).mono fun _ h => h.1)
  getMut c h I := by
    show Logs _ (getMutA c h) (liftM (getMut c h) : Tk _)
    unfold getMutA getMut
    refine .left (silent _) (.liftBind ?_)
    refine (logged_get I _).bind fun o ho => ?_
    cases o with
    | none => exact .liftPure (.ret (by rintro p ⟨⟩))
    | some t =>
      refine .liftPure (.ret ?_)
      rintro p ⟨⟩
      refine ⟨ho.1 t rfl, fun u hu j => ?_⟩
      show AllO P.W (if j = SizedVebKey.index h then some u else c.array.slot j)
      split
      · exact allO_some hu
      · exact I j
  insertKey c h e I := by
    show Logs _ (insertKeyA c h e) (insertKeyT c h e)
    unfold insertKeyA insertKeyT
    refine .left (silent _) ?_
    refine (logged_get I _).bind fun o ho => ?_
    cases o with
    | none =>
      refine .left (silent _) (.right (P.fromMonad e.1 e.2).1 ?_)
      refine (logged_put I _ (allO_some (P.fromMonad e.1 e.2).2)).bind fun b hb => ?_
      exact Logs.lift'.bind fun _ _ => .ret hb
    | some t =>
      refine (P.insert t e.1 e.2 (ho.1 t rfl)).bind fun r hr => ?_
      exact (logged_put I _ (allO_some hr)).bind fun b hb => .ret hb
  removeKey c h f g I hf := by
    show Logs _ (removeKeyA c h f) (removeKeyT c h g)
    unfold removeKeyA removeKeyT
    refine .left (silent _) ?_
    refine (logged_get I _).bind fun o ho => ?_
    refine Logs.exp.bind fun t e => ?_
    subst e
    refine (logged_put I _ allO_none).bind fun b hb => ?_
    refine (hf t (ho.1 t rfl)).bind fun r hr => ?_
    obtain ⟨o, v⟩ := r
    refine Logs.ite' (p := o.isNone = true) (fun _ => Logs.lift'.bind fun n _ => ?_)
      fun _ => Logs.bind (Q := fun _ => True) (.ret trivial) fun n _ => ?_
    all_goals
      refine .left (silent _) ?_
      refine (logged_put hb _ hr).bind fun b hb => ?_
      exact .ite' (fun _ => .ret allO_none) fun _ => .ret (allO_some hb)
  maybeRemoveKey c h f g I hf := by
    show Logs _ (maybeRemoveKeyA c h f) (maybeRemoveKeyT c h g)
    unfold maybeRemoveKeyA maybeRemoveKeyT
    refine .left (silent _) ?_
    refine (logged_get I _).bind fun o ho => ?_
    cases o with
    | none => exact .ret I
    | some t =>
      refine (logged_put I _ allO_none).bind fun b hb => ?_
      refine (hf t (ho.1 t rfl)).bind fun r hr => ?_
      cases r with
      | Err t =>
        refine .left (silent _) ?_
        exact (logged_put hb _ (allO_some hr)).bind fun b hb => .ret hb
      | Ok r =>
        obtain ⟨o, v⟩ := r
        refine Logs.ite' (p := o.isNone = true) (fun _ => Logs.lift'.bind fun n _ => ?_)
          fun _ => Logs.bind (Q := fun _ => True) (.ret trivial) fun n _ => ?_
        all_goals
          refine .left (silent _) ?_
          refine (logged_put hb _ hr).bind fun b hb => ?_
          exact .ite' (fun _ => .ret allO_none) fun _ => .ret (allO_some hb)

end ArrayColl

/-! ## Hash tables -/

namespace HashMap
variable {Hi T Lo V : Type} [DecidableEq Hi] [ActTree (List Ev) T Lo V] [VebTree T Lo V] [TickTree T Lo V] [P : LTree T Lo V]

theorem logged_probe {W : T → Prop} {c : HashMap Hi T} (I : HW W c) (h : Hi) :
    Silent (c.probeA (σ := List Ev) h) none ∧ c.lookup h = none ∨
      ∃ i t, Silent (c.probeA (σ := List Ev) h) (some (i, h, t)) ∧ c.lookup h = some t ∧ c.entries[i]? = some (h, t) ∧ W t := by
  rcases lookup_idx c.entries h with ⟨h1, h2⟩ | ⟨i, t, h1, h2, h3⟩
  · refine .inl ⟨fun s => ?_, h2⟩
    unfold probeA
    show ((silently ((c.entries.map Prod.fst).findIdx? fun k => decide (k = h)) >>= _ : Act (List Ev) _) s) = _
    rw [h1]; rfl
  · refine .inr ⟨i, t, fun s => ?_, h2, h3, I.2 _ (List.mem_of_getElem? h3)⟩
    unfold probeA
    show ((silently ((c.entries.map Prod.fst).findIdx? fun k => decide (k = h)) >>= _ : Act (List Ev) _) s) = _
    rw [h1]
    show Except.ok (c.entries[i]?.map fun e => (i, e), s) = _
    rw [h3]; rfl

@[reducible] def loggedColl : LColl (HashMap Hi T) Hi T Lo V where
  W c := HW P.W c
  create h t ht := by
    show Logs _ (createA h t) (createT h t)
    unfold createA createT create
    refine .make ?_
    refine .left (silent _) (.left (silent _) ?_)
    refine .liftBind (Logs.lift'.bind fun _ _ => .liftBind ?_)
    have I : HW P.W ⟨[(h, t)]⟩ := ⟨by simp, by simpa using ht⟩
    rcases logged_probe I h with ⟨h1, h2⟩ | ⟨i, u, h1, h2, h3, h4⟩
    · simp [lookup] at h2
    · refine .left h1 ?_
      rw [h2]
      exact Logs.lift'.bind fun _ _ => .liftPure (.ret I)
  get c h I := by
    show Logs _ (getA c h) (liftM (get c h) : Tk _)
    unfold getA get
    rcases logged_probe I h with ⟨h1, h2⟩ | ⟨i, u, h1, h2, h3, h4⟩
    · rw [h2]; exact .left h1 (.ret allO_none)
    · rw [h2]; exact .left h1 (.ret (allO_some h4))
  getMut c h I := by
    show Logs _ (getMutA c h) (liftM (getMut c h) : Tk _)
    unfold getMutA getMut
    rcases logged_probe I h with ⟨h1, h2⟩ | ⟨i, u, h1, h2, h3, h4⟩
    · rw [h2]; exact .left h1 (.ret (by rintro p ⟨⟩))
    · rw [h2]
      refine .left h1 ?_
      have : (fun w => c.assignAt i h w) = fun w => c.assign h w := funext fun w => replaceAt_eq I h3 (some w)
      simp only [Option.map_some, this]
      refine .ret ?_
      rintro p ⟨⟩
      exact ⟨h4, fun w hw => assign_good I h hw⟩
  insertKey c h e I := by
    show Logs _ (insertKeyA c h e) (insertKeyT c h e)
    unfold insertKeyA insertKeyT
    rcases logged_probe I h with ⟨h1, h2⟩ | ⟨i, u, h1, h2, h3, h4⟩
    · rw [h2]
      refine .left h1 (.left (silent _) (.left (silent _) (.right (P.fromMonad e.1 e.2).1 ?_)))
      refine .ret ⟨?_, ?_⟩
      · show (h :: c.entries.map Prod.fst).Nodup
        refine List.nodup_cons.2 ⟨fun hm => ?_, I.1⟩
        obtain ⟨p, hp, rfl⟩ := List.mem_map.1 hm
        have : c.entries.find? (fun q => decide (q.1 = p.1)) = none := by simpa [lookup] using h2
        have := List.find?_eq_none.1 this p hp
        simp at this
      · intro p hp
        rcases List.mem_cons.1 hp with rfl | hp
        · exact (P.fromMonad e.1 e.2).2
        · exact I.2 p hp
    · rw [h2]
      refine .left h1 ?_
      refine (P.insert u e.1 e.2 h4).bind fun r hr => ?_
      have : c.assignAt i h r.1 = c.assign h r.1 := replaceAt_eq I h3 (some r.1)
      show Logs _ (pure (c.assignAt i h r.1, _)) _
      rw [this]
      exact .ret (assign_good I h hr)
  removeKey c h f g I hf := by
    show Logs _ (removeKeyA c h f) (removeKeyT c h g)
    unfold removeKeyA removeKeyT
    rcases logged_probe I h with ⟨h1, h2⟩ | ⟨i, u, h1, h2, h3, h4⟩
    · rw [h2]; exact .left h1 .fail
    · rw [h2]
      refine .left h1 ?_
      refine (hf u h4).bind fun r hr => ?_
      show Logs _ (if (c.replaceAt i h r.1).entries.isEmpty then pure (none, r.2) else pure (some (c.replaceAt i h r.1, _), r.2)) _
      rw [replaceAt_eq I h3]
      exact .ite' (fun _ => .ret allO_none) fun _ => .ret (allO_some (replace_good I h hr))
  maybeRemoveKey c h f g I hf := by
    show Logs _ (maybeRemoveKeyA c h f) (maybeRemoveKeyT c h g)
    unfold maybeRemoveKeyA maybeRemoveKeyT
    rcases logged_probe I h with ⟨h1, h2⟩ | ⟨i, u, h1, h2, h3, h4⟩
    · rw [h2]; exact .left h1 (.ret I)
    · rw [h2]
      refine .left h1 ?_
      refine (hf u h4).bind fun r hr => ?_
      obtain ⟨o, v⟩ | t := r
      · refine Logs.bind (Q := fun p => p = (o, some v)) (.ret rfl) fun p hp => ?_
        subst hp
        simp only [replaceAt_eq I h3]
        have hg := replace_good I h hr
        cases (c.replaceEntry h o).entries.isEmpty
        · exact .ret (allO_some hg)
        · exact .ret allO_none
      · refine Logs.bind (Q := fun p => p = (some t, none)) (.ret rfl) fun p hp => ?_
        subst hp
        simp only [replaceAt_eq I h3]
        have hg := replace_good I h (allO_some hr)
        cases (c.replaceEntry h (some t)).entries.isEmpty
        · exact .ret hg
        · exact .fail

end HashMap

/-! ## Lists of trees and `ByteMap` -/

namespace ByteMap.Coll
variable {T Lo V : Type} [ActTree (List Ev) T Lo V] [VebTree T Lo V] [TickTree T Lo V] [P : LTree T Lo V]

theorem logged_removeKey {l : List T} (h : LW P.W l) (i : Nat) {f : T → Act (List Ev) (Option T × (Lo × V))} {g : T → Tk (Option T × (Lo × V))}
    (hf : ∀ t, P.W t → Logs (fun r => AllO P.W r.1) (f t) (g t)) :
    Logs (fun r => AllO (fun p : List T × Bool => LW P.W p.1) r.1) (VecDeque.removeKeyA l i f) (VecDeque.removeKeyT l i g) := by
  unfold VecDeque.removeKeyA VecDeque.removeKeyT
  cases e : l[i]? with
  | none => exact .fail
  | some t =>
    refine (hf t (h t (List.mem_of_getElem? e))).bind fun r hr => ?_
    obtain ⟨_ | u, v⟩ := r
    · exact .ite' (fun _ => Logs.lift'.bind fun _ _ => .ret allO_none) fun _ => .ret (allO_some (lw_erase h i))
    · exact .ite' (fun _ => Logs.lift'.bind fun _ _ => .ret allO_none) fun _ => .ret (allO_some (lw_set h i (hr u rfl)))

theorem logged_maybeRemoveKey {l : List T} (h : LW P.W l) (i : Nat) {f : T → Act (List Ev) (Result (Option T × (Lo × V)) T)}
    {g : T → Tk (Result (Option T × (Lo × V)) T)} (hf : ∀ t, P.W t → Logs (RemO P.W) (f t) (g t)) :
    Logs (fun r => match r with
      | .Ok r => AllO (fun p : List T × Bool => LW P.W p.1) r.1
      | .Err c => LW P.W c) (VecDeque.maybeRemoveKeyA l i f) (VecDeque.maybeRemoveKeyT l i g) := by
  unfold VecDeque.maybeRemoveKeyA VecDeque.maybeRemoveKeyT
  cases e : l[i]? with
  | none => exact .fail
  | some t =>
    refine (hf t (h t (List.mem_of_getElem? e))).bind fun r hr => ?_
    obtain ⟨_ | u, v⟩ | u := r
    · exact .ite' (fun _ => Logs.lift'.bind fun _ _ => .ret allO_none) fun _ => .ret (allO_some (lw_erase h i))
    · exact .ite' (fun _ => Logs.lift'.bind fun _ _ => .ret allO_none) fun _ => .ret (allO_some (lw_set h i (hr u rfl)))
    · exact .ret (lw_set h i hr)

@[reducible] def loggedColl : LColl (ByteMap T) (U 8) T Lo V where
  W c := LW P.W c.list
  create h t ht := by
    show Logs _ (liftM (create h t)) (createT h t)
    unfold createT
    refine .make (.lift fun c e => ?_)
    cases e
    intro u hu
    rcases List.mem_singleton.1 hu with rfl
    exact ht
  get c h I := by
    refine .lift fun o e => ?_
    unfold get at e
    split at e
    · cases e; exact allO_none
    · obtain ⟨t, h1, h2⟩ := honest_bind_ok e
      cases h2
      exact allO_some (index_good I h1)
  getMut c h I := by
    refine .lift fun o e => ?_
    unfold getMut at e
    split at e
    · cases e; rintro p ⟨⟩
    · obtain ⟨r, h1, h2⟩ := honest_bind_ok e
      obtain ⟨t, h4, h3⟩ := honest_bind_ok h1
      cases h3
      cases h2
      rintro p ⟨⟩
      exact ⟨index_good I h4, fun u hu => lw_set I _ hu⟩
  insertKey c h e I := by
    show Logs _ (insertKeyA c h e) (insertKeyT c h e)
    unfold insertKeyA insertKeyT
    refine Logs.lift'.bind fun p _ => ?_
    refine Logs.ite' (p := p.2.isSome = true) (fun _ => ?_) fun _ => ?_
    · refine Logs.bind (Q := fun r => P.W r.1 ∧ ∀ u, P.W u → LW P.W (r.2 u)) (.lift fun r e => ?_) fun r hr => ?_
      · obtain ⟨t, h1, h3⟩ := honest_bind_ok e
        cases h3
        exact ⟨index_good I h1, fun u hu => lw_set I _ hu⟩
      · exact (P.insert r.1 e.1 e.2 hr.1).bind fun q hq => .ret (hr.2 _ hq)
    · refine .right (P.fromMonad e.1 e.2).1 ?_
      refine Logs.bind (Q := LW P.W) (.lift fun l hl => ?_) fun l hl => .ret hl
      unfold VecDeque.insertAt at hl
      split at hl
      · cases hl
        intro u hu
        rcases (List.mem_insertIdx (by assumption)).1 hu with rfl | hu
        · exact (P.fromMonad e.1 e.2).2
        · exact I u hu
      · cases hl
  removeKey c h f g I hf := by
    show Logs _ (removeKeyA c h f) (removeKeyT c h g)
    unfold removeKeyA removeKeyT
    refine Logs.lift'.bind fun p _ => Logs.lift'.bind fun _ _ => ?_
    refine (logged_removeKey I _ hf).bind fun r hr => ?_
    obtain ⟨_ | ⟨l, _ | _⟩, v⟩ := r
    · exact .ret allO_none
    · exact .ret (allO_some (hr _ rfl))
    · exact Logs.lift'.bind fun _ _ => .ret (allO_some (hr _ rfl))
  maybeRemoveKey c h f g I hf := by
    show Logs _ (maybeRemoveKeyA c h f) (maybeRemoveKeyT c h g)
    unfold maybeRemoveKeyA maybeRemoveKeyT
    refine Logs.lift'.bind fun p _ => ?_
    refine Logs.ite' (p := p.isNone = true) (fun _ => .ret I) fun _ => ?_
    refine (logged_maybeRemoveKey I _ hf).bind fun r hr => ?_
    obtain ⟨_ | ⟨l, _ | _⟩, v⟩ | l := r
    · exact .ret allO_none
    · exact .ret (allO_some (hr _ rfl))
    · exact Logs.lift'.bind fun _ _ => .ret (allO_some (hr _ rfl))
    · exact .ret hr

end ByteMap.Coll

/-! ## Boxes -/

instance loggedCollBox {C Hi T Lo V : Type} [ActTree (List Ev) T Lo V] [VebTree T Lo V] [TickTree T Lo V] [P : LTree T Lo V] [ActColl (List Ev) C Hi T Lo V]
    [TreeCollection C Hi T Lo V] [TickColl C Hi T Lo V] [Q : LColl C Hi T Lo V] : LColl (Box C) Hi T Lo V where
  W c := Q.W c.val
  create h t ht := (Q.create h t ht).bind fun c hc => .ret hc
  get c h I := Q.get c.val h I
  getMut c h I := .liftBind <| (Q.getMut c.val h I).bind fun o ho => by
    obtain _ | ⟨t, put⟩ := o
    · exact .liftPure (.ret (by rintro p ⟨⟩))
    · exact .liftPure (.ret (by rintro p ⟨⟩; exact ho _ rfl))
  insertKey c h e I := (Q.insertKey c.val h e I).bind fun r hr => .ret hr
  removeKey c h f g I hf := (Q.removeKey c.val h f g I hf).bind fun r hr => by
    obtain ⟨_ | ⟨c, b⟩, v⟩ := r
    · exact .ret allO_none
    · exact .ret (allO_some (hr _ rfl))
  maybeRemoveKey c h f g I hf := (Q.maybeRemoveKey c.val h f g I hf).bind fun r hr => by
    obtain ⟨_ | ⟨c, b⟩, v⟩ | c := r
    · exact .ret allO_none
    · exact .ret (allO_some (hr _ rfl))
    · exact .ret hr

end Veb
