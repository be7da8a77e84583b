import Verif.Proof.Honest

/-!
The collections over proper code of the user with side effects.
-/

set_option autoImplicit false
set_option linter.unusedSectionVars false

namespace Veb
variable {Us : Panic → Prop}

/-! ## Arrays -/

namespace ArrayColl
variable {σ Hi T Lo V : Type} [SizedVebKey Hi] [ActIndex σ Hi] [ActTree σ T Lo V] [VebTree T Lo V] [P : HTree Us σ T Lo V]

/-- all trees are good -/
def AW (P : T → Prop) (a : OptionArray T) : Prop := ∀ i, AllO P (a.slot i)

theorem honest_get {W : T → Prop} {a : OptionArray T} (h : AW W a) (i : Nat) :
    Follows Us (fun o => AllO W o ∧ i < a.len) (liftM (a.get i) : Act σ _) (a.get i) := by
  refine .lift fun o e => ?_
  unfold OptionArray.get at e
  split at e
  · cases e; exact ⟨h i, by assumption⟩
  · cases e
theorem honest_put {W : T → Prop} {a : OptionArray T} (h : AW W a) (i : Nat) {o : Option T} (ho : AllO W o) :
    Follows Us (AW W) (liftM (a.put i o) : Act σ _) (a.put i o) := by
  refine .lift fun b e => ?_
  unfold OptionArray.put at e
  split at e
  · cases e
    intro j
    show AllO W (if j = i then o else a.slot j)
    by_cases hj : j = i
    · rw [if_pos hj]; exact ho
    · rw [if_neg hj]; exact h j
  · cases e

@[reducible] def agreeColl (H : SoundIndex σ Us Hi) : HColl Us σ (ArrayColl Hi T) Hi T Lo V where
  W c := AW P.W c.array
  create h t ht := by
    show Follows _ _ (createA h t) (create h t)
    unfold createA create
    rw [H.cardinality]
    refine .left (H.index h) ?_
    exact (honest_put (fun _ => allO_none) _ (allO_some ht)).bind fun b hb => .ret hb
  get c h I := by
    show Follows _ _ (getA c h) (get c h)
    unfold getA get
    exact .left (H.index h) ((honest_get I _).mono fun _ h => h.1)
  getMut c h I := by
    show Follows _ _ (getMutA c h) (getMut c h)
    unfold getMutA getMut
    refine .left (H.index h) ?_
    refine (honest_get I _).bind fun o ho => ?_
    cases o with
    | none => exact .ret (by rintro p ⟨⟩)
    | some t =>
      refine .ret ?_
      rintro p ⟨⟩
      refine ⟨ho.1 t rfl, fun u hu j => ?_⟩
      show AllO P.W (if j = SizedVebKey.index h then some u else c.array.slot j)
      split
      · exact allO_some hu
      · exact I j
  insertKey c h e I := by
    show Follows _ _ (insertKeyA c h e) (insertKey c h e)
    unfold insertKeyA insertKey
    refine .left (H.index h) ?_
    refine (honest_get I _).bind fun o ho => ?_
    cases o with
    | none =>
      refine .left (H.index h) ?_
      rw [(P.fromMonad e.1 e.2).1]
      refine (honest_put I _ (allO_some (P.fromMonad e.1 e.2).2)).bind fun b hb => ?_
      exact Follows.lift'.bind fun _ _ => .ret hb
    | some t =>
      refine (P.insert t e.1 e.2 (ho.1 t rfl)).bind fun r hr => ?_
      exact (honest_put I _ (allO_some hr)).bind fun b hb => .ret hb
  removeKey c h f g I hf := by
    show Follows _ _ (removeKeyA c h f) (removeKey c h g)
    unfold removeKeyA removeKey
    refine .left (H.index h) ?_
    refine (honest_get I _).bind fun o ho => ?_
    refine Follows.exp.bind fun t e => ?_
    subst e
    refine (honest_put I _ allO_none).bind fun b hb => ?_
    refine (hf t (ho.1 t rfl)).bind fun r hr => ?_
    obtain ⟨o, v⟩ := r
    refine Follows.ite' (p := o.isNone = true) (fun _ => Follows.lift'.bind fun n _ => ?_)
      fun _ => Follows.bind (Q := fun _ => True) (.ret trivial) fun n _ => ?_
    all_goals
      refine .left (H.index h) ?_
      refine (honest_put hb _ hr).bind fun b hb => ?_
      exact .ite' (fun _ => .ret allO_none) fun _ => .ret (allO_some hb)
  maybeRemoveKey c h f g I hf := by
    show Follows _ _ (maybeRemoveKeyA c h f) (maybeRemoveKey c h g)
    unfold maybeRemoveKeyA maybeRemoveKey
    refine .left (H.index h) ?_
    refine (honest_get I _).bind fun o ho => ?_
    cases o with
    | none => exact .ret I
    | some t =>
      refine (honest_put I _ allO_none).bind fun b hb => ?_
      refine (hf t (ho.1 t rfl)).bind fun r hr => ?_
      cases r with
      | Err t =>
        refine .left (H.index h) ?_
        exact (honest_put hb _ (allO_some hr)).bind fun b hb => .ret hb
      | Ok r =>
        obtain ⟨o, v⟩ := r
        refine Follows.ite' (p := o.isNone = true) (fun _ => Follows.lift'.bind fun n _ => ?_)
          fun _ => Follows.bind (Q := fun _ => True) (.ret trivial) fun n _ => ?_
        all_goals
          refine .left (H.index h) ?_
          refine (honest_put hb _ hr).bind fun b hb => ?_
          exact .ite' (fun _ => .ret allO_none) fun _ => .ret (allO_some hb)

end ArrayColl

/-! ## Hash tables -/

namespace HashMap
variable {σ Hi T Lo V : Type} [DecidableEq Hi] [ActHash σ Hi] [ActTree σ T Lo V] [VebTree T Lo V] [P : HTree Us σ T Lo V]

theorem lookup_idx (l : List (Hi × T)) (h : Hi) :
    ((l.map Prod.fst).findIdx? fun k => decide (k = h)) = none ∧ (⟨l⟩ : HashMap Hi T).lookup h = none ∨
      ∃ i t, ((l.map Prod.fst).findIdx? fun k => decide (k = h)) = some i ∧ (⟨l⟩ : HashMap Hi T).lookup h = some t ∧
        l[i]? = some (h, t) := by
  induction l with
  | nil => exact .inl ⟨rfl, rfl⟩
  | cons e l ih =>
    obtain ⟨k, u⟩ := e
    by_cases hk : k = h
    · subst hk
      exact .inr ⟨0, u, by rw [List.map_cons, List.findIdx?_cons]; simp, by simp [lookup], rfl⟩
    · rcases ih with ⟨h1, h2⟩ | ⟨i, t, h1, h2, h3⟩
      · refine .inl ⟨?_, ?_⟩
        · rw [List.map_cons, List.findIdx?_cons, h1]; simp [hk]
        · simpa [lookup, hk] using h2
      · refine .inr ⟨i + 1, t, ?_, ?_, by simpa using h3⟩
        · rw [List.map_cons, List.findIdx?_cons, h1]; simp [hk]
        · simpa [lookup, hk] using h2

theorem set_assign {l : List (Hi × T)} (hn : (l.map Prod.fst).Nodup) {i : Nat} {h : Hi} {t : T} (hi : l[i]? = some (h, t))
    (u : T) : l.set i (h, u) = l.map fun p => if p.1 = h then (p.1, u) else p := by
  induction l generalizing i with
  | nil => cases hi
  | cons e l ih =>
    rw [List.map_cons, List.nodup_cons] at hn
    cases i with
    | zero =>
      cases hi
      have : (l.map fun p => if p.1 = h then (p.1, u) else p) = l := by
        refine (List.map_congr_left fun p hp => ?_).trans (List.map_id _)
        exact if_neg fun (e : p.1 = h) => hn.1 (List.mem_map.2 ⟨p, hp, e⟩)
      simp [this]
    | succ i =>
      have hi' : l[i]? = some (h, t) := by simpa using hi
      have : e.1 ≠ h := fun e' => hn.1 (e' ▸ List.mem_map_of_mem (f := Prod.fst) (List.mem_of_getElem? hi'))
      simp [this, ih hn.2 hi']

theorem erase_filter {l : List (Hi × T)} (hn : (l.map Prod.fst).Nodup) {i : Nat} {h : Hi} {t : T} (hi : l[i]? = some (h, t)) :
    l.eraseIdx i = l.filter fun p => decide (p.1 ≠ h) := by
  induction l generalizing i with
  | nil => cases hi
  | cons e l ih =>
    rw [List.map_cons, List.nodup_cons] at hn
    cases i with
    | zero =>
      cases hi
      have : (l.filter fun p => decide (p.1 ≠ h)) = l :=
        List.filter_eq_self.2 fun p hp => decide_eq_true fun (e : p.1 = h) => hn.1 (List.mem_map.2 ⟨p, hp, e⟩)
      simpa using this.symm
    | succ i =>
      have hi' : l[i]? = some (h, t) := by simpa using hi
      have : e.1 ≠ h := fun e' => hn.1 (e' ▸ List.mem_map_of_mem (f := Prod.fst) (List.mem_of_getElem? hi'))
      rw [List.eraseIdx_cons_succ, ih hn.2 hi', List.filter_cons, if_pos (by simpa using this)]

/-- no key twice, all trees good -/
def HW (P : T → Prop) (c : HashMap Hi T) : Prop := (c.entries.map Prod.fst).Nodup ∧ ∀ e ∈ c.entries, P e.2

theorem assign_good {W : T → Prop} {c : HashMap Hi T} (I : HW W c) (h : Hi) {u : T} (hu : W u) : HW W (c.assign h u) := by
  constructor
  · have : ((c.assign h u).entries.map Prod.fst) = c.entries.map Prod.fst := by
      show (c.entries.map _).map _ = _
      rw [List.map_map]
      refine List.map_congr_left fun p _ => ?_
      show (if p.1 = h then (p.1, u) else p).1 = p.1
      split <;> rfl
    rw [this]; exact I.1
  · intro e he
    obtain ⟨p, hp, rfl⟩ := List.mem_map.1 he
    show W (if p.1 = h then (p.1, u) else p).2
    split
    · exact hu
    · exact I.2 p hp
theorem erase_good {W : T → Prop} {c : HashMap Hi T} (I : HW W c) (h : Hi) : HW W (c.erase h) :=
  ⟨I.1.sublist (List.filter_sublist.map _), fun e he => I.2 e (List.mem_of_mem_filter he)⟩
theorem replace_good {W : T → Prop} {c : HashMap Hi T} (I : HW W c) (h : Hi) {o : Option T} (ho : AllO W o) :
    HW W (c.replaceEntry h o) := by
  cases o with
  | none => exact erase_good I h
  | some u => exact assign_good I h (ho u rfl)
theorem replaceAt_eq {W : T → Prop} {c : HashMap Hi T} (I : HW W c) {i : Nat} {h : Hi} {t : T} (hi : c.entries[i]? = some (h, t))
    (o : Option T) : c.replaceAt i h o = c.replaceEntry h o := by
  cases o with
  | none => exact congrArg HashMap.mk (erase_filter I.1 hi)
  | some u => exact congrArg HashMap.mk (set_assign I.1 hi u)

theorem probe_good (H : SoundHash σ Us Hi) {W : T → Prop} {c : HashMap Hi T} (I : HW W c) (h : Hi) :
    AnswersOr Us (c.probeA (σ := σ) h) none ∧ c.lookup h = none ∨
      ∃ i t, AnswersOr Us (c.probeA (σ := σ) h) (some (i, h, t)) ∧ c.lookup h = some t ∧ c.entries[i]? = some (h, t) ∧ W t := by
  have hp := H.probe (c.entries.map Prod.fst) h I.1
  rcases lookup_idx c.entries h with ⟨h1, h2⟩ | ⟨i, t, h1, h2, h3⟩
  · refine .inl ⟨fun s => ?_, h2⟩
    refine (hp s).imp (fun ⟨s', e⟩ => ⟨s', ?_⟩) fun ⟨p, e, hu⟩ => ⟨p, ?_, hu⟩ <;>
      show (ActHash.probe (σ := σ) (c.entries.map Prod.fst) h s >>= _) = _
    · rw [e, h1]; rfl
    · rw [e]; rfl
  · refine .inr ⟨i, t, fun s => ?_, h2, h3, I.2 _ (List.mem_of_getElem? h3)⟩
    refine (hp s).imp (fun ⟨s', e⟩ => ⟨s', ?_⟩) fun ⟨p, e, hu⟩ => ⟨p, ?_, hu⟩ <;>
      show (ActHash.probe (σ := σ) (c.entries.map Prod.fst) h s >>= _) = _
    · rw [e, h1]
      show Except.ok (c.entries[i]?.map fun e => (i, e), s') = _
      rw [h3]; rfl
    · rw [e]; rfl

@[reducible] def agreeColl (H : SoundHash σ Us Hi) : HColl Us σ (HashMap Hi T) Hi T Lo V where
  W c := HW P.W c
  create h t ht := by
    show Follows _ _ (createA h t) (create h t)
    unfold createA create
    refine .left (H.clone h) (.left (H.hashing h) ?_)
    refine Follows.lift'.bind fun _ _ => ?_
    have I : HW P.W ⟨[(h, t)]⟩ := ⟨by simp, by simpa using ht⟩
    rcases probe_good H I h with ⟨h1, h2⟩ | ⟨i, u, h1, h2, h3, h4⟩
    · simp [lookup] at h2
    · refine .left h1 ?_
      rw [h2]
      exact Follows.lift'.bind fun _ _ => .ret I
  get c h I := by
    show Follows _ _ (getA c h) (get c h)
    unfold getA get
    rcases probe_good H I h with ⟨h1, h2⟩ | ⟨i, u, h1, h2, h3, h4⟩
    · rw [h2]; exact .left h1 (.ret allO_none)
    · rw [h2]; exact .left h1 (.ret (allO_some h4))
  getMut c h I := by
    show Follows _ _ (getMutA c h) (getMut c h)
    unfold getMutA getMut
    rcases probe_good H I h with ⟨h1, h2⟩ | ⟨i, u, h1, h2, h3, h4⟩
    · rw [h2]; exact .left h1 (.ret (by rintro p ⟨⟩))
    · rw [h2]
      refine .left h1 ?_
      have : (fun w => c.assignAt i h w) = fun w => c.assign h w := funext fun w => replaceAt_eq I h3 (some w)
      simp only [Option.map_some, this]
      refine .ret ?_
      rintro p ⟨⟩
      exact ⟨h4, fun w hw => assign_good I h hw⟩
  insertKey c h e I := by
    show Follows _ _ (insertKeyA c h e) (insertKey c h e)
    unfold insertKeyA insertKey
    rcases probe_good H I h with ⟨h1, h2⟩ | ⟨i, u, h1, h2, h3, h4⟩
    · rw [h2]
      refine .left h1 (.left (H.hashing h) (.left (H.clone h) ?_))
      rw [(P.fromMonad e.1 e.2).1]
      refine .ret ⟨?_, ?_⟩
      · show (h :: c.entries.map Prod.fst).Nodup
        refine List.nodup_cons.2 ⟨fun hm => ?_, I.1⟩
        obtain ⟨p, hp, rfl⟩ := List.mem_map.1 hm
        have : c.entries.find? (fun q => decide (q.1 = p.1)) = none := by simpa [lookup] using h2
        have := List.find?_eq_none.1 this p hp
        simp at this
      · intro p hp
        rcases List.mem_cons.1 hp with rfl | hp
        · exact (P.fromMonad e.1 e.2).2
        · exact I.2 p hp
    · rw [h2]
      refine .left h1 ?_
      refine (P.insert u e.1 e.2 h4).bind fun r hr => ?_
      have : c.assignAt i h r.1 = c.assign h r.1 := replaceAt_eq I h3 (some r.1)
      show Follows _ _ (pure (c.assignAt i h r.1, _)) _
      rw [this]
      exact .ret (assign_good I h hr)
  removeKey c h f g I hf := by
    show Follows _ _ (removeKeyA c h f) (removeKey c h g)
    unfold removeKeyA removeKey
    rcases probe_good H I h with ⟨h1, h2⟩ | ⟨i, u, h1, h2, h3, h4⟩
    · rw [h2]; exact .left h1 .fail
    · rw [h2]
      refine .left h1 ?_
      refine (hf u h4).bind fun r hr => ?_
      show Follows _ _ (if (c.replaceAt i h r.1).entries.isEmpty then pure (none, r.2) else pure (some (c.replaceAt i h r.1, _), r.2)) _
      rw [replaceAt_eq I h3]
      exact .ite' (fun _ => .ret allO_none) fun _ => .ret (allO_some (replace_good I h hr))
  maybeRemoveKey c h f g I hf := by
    show Follows _ _ (maybeRemoveKeyA c h f) (maybeRemoveKey c h g)
    unfold maybeRemoveKeyA maybeRemoveKey
    rcases probe_good H I h with ⟨h1, h2⟩ | ⟨i, u, h1, h2, h3, h4⟩
    · rw [h2]; exact .left h1 (.ret I)
    · rw [h2]
      refine .left h1 ?_
      refine (hf u h4).bind fun r hr => ?_
      obtain ⟨o, v⟩ | t := r
      · refine Follows.bind (Q := fun p => p = (o, some v)) (.ret rfl) fun p hp => ?_
        subst hp
        simp only [replaceAt_eq I h3]
        have hg := replace_good I h hr
        cases (c.replaceEntry h o).entries.isEmpty
        · exact .ret (allO_some hg)
        · exact .ret allO_none
      · refine Follows.bind (Q := fun p => p = (some t, none)) (.ret rfl) fun p hp => ?_
        subst hp
        simp only [replaceAt_eq I h3]
        have hg := replace_good I h (allO_some hr)
        cases (c.replaceEntry h (some t)).entries.isEmpty
        · exact .ret hg
        · exact .fail

end HashMap

/-! ## Lists of trees and `ByteMap` -/

namespace ByteMap.Coll
variable {σ T Lo V : Type} [ActTree σ T Lo V] [VebTree T Lo V] [P : HTree Us σ T Lo V]

/-- all trees are good -/
def LW (P : T → Prop) (l : List T) : Prop := ∀ t ∈ l, P t

theorem lw_set {W : T → Prop} {l : List T} (h : LW W l) (i : Nat) {t : T} (ht : W t) : LW W (l.set i t) := fun u hu =>
  (List.mem_or_eq_of_mem_set hu).elim (h u) fun e => e ▸ ht
theorem lw_erase {W : T → Prop} {l : List T} (h : LW W l) (i : Nat) : LW W (l.eraseIdx i) := fun u hu =>
  h u (List.mem_of_mem_eraseIdx hu)

theorem honest_bind_ok {α β : Type} {x : R α} {f : α → R β} {b : β} (h : (x >>= f) = .ok b) : ∃ a, x = .ok a ∧ f a = .ok b := by
  cases x with
  | error p => cases h
  | ok a => exact ⟨a, rfl, h⟩
theorem index_good {W : T → Prop} {l : List T} (h : LW W l) {i : Nat} {t : T} (e : index l i = .ok t) : W t := by
  unfold index at e
  split at e
  · cases e; exact h _ (List.mem_of_getElem? (by assumption))
  · cases e

theorem honest_removeKey {l : List T} (h : LW P.W l) (i : Nat) {f : T → Act σ (Option T × (Lo × V))} {g : T → R (Option T × (Lo × V))}
    (hf : ∀ t, P.W t → Follows Us (fun r => AllO P.W r.1) (f t) (g t)) :
    Follows Us (fun r => AllO (fun p : List T × Bool => LW P.W p.1) r.1) (VecDeque.removeKeyA l i f) (VecDeque.removeKey l i g) := by
  unfold VecDeque.removeKeyA VecDeque.removeKey
  cases e : l[i]? with
  | none => exact .fail
  | some t =>
    refine (hf t (h t (List.mem_of_getElem? e))).bind fun r hr => ?_
    obtain ⟨_ | u, v⟩ := r
    · exact .ite' (fun _ => Follows.lift'.bind fun _ _ => .ret allO_none) fun _ => .ret (allO_some (lw_erase h i))
    · exact .ite' (fun _ => Follows.lift'.bind fun _ _ => .ret allO_none) fun _ => .ret (allO_some (lw_set h i (hr u rfl)))

theorem honest_maybeRemoveKey {l : List T} (h : LW P.W l) (i : Nat) {f : T → Act σ (Result (Option T × (Lo × V)) T)}
    {g : T → R (Result (Option T × (Lo × V)) T)} (hf : ∀ t, P.W t → Follows Us (RemO P.W) (f t) (g t)) :
    Follows Us (fun r => match r with
      | .Ok r => AllO (fun p : List T × Bool => LW P.W p.1) r.1
      | .Err c => LW P.W c) (VecDeque.maybeRemoveKeyA l i f) (VecDeque.maybeRemoveKey l i g) := by
  unfold VecDeque.maybeRemoveKeyA VecDeque.maybeRemoveKey
  cases e : l[i]? with
  | none => exact .fail
  | some t =>
    refine (hf t (h t (List.mem_of_getElem? e))).bind fun r hr => ?_
    obtain ⟨_ | u, v⟩ | u := r
    · exact .ite' (fun _ => Follows.lift'.bind fun _ _ => .ret allO_none) fun _ => .ret (allO_some (lw_erase h i))
    · exact .ite' (fun _ => Follows.lift'.bind fun _ _ => .ret allO_none) fun _ => .ret (allO_some (lw_set h i (hr u rfl)))
    · exact .ret (lw_set h i hr)

@[reducible] def agreeColl : HColl Us σ (ByteMap T) (U 8) T Lo V where
  W c := LW P.W c.list
  create h t ht := by
    refine .lift fun c e => ?_
    cases e
    intro u hu
    rcases List.mem_singleton.1 hu with rfl
    exact ht
  get c h I := by
    refine .lift fun o e => ?_
    unfold get at e
    split at e
    · cases e; exact allO_none
    · obtain ⟨t, h1, h2⟩ := honest_bind_ok e
      cases h2
      exact allO_some (index_good I h1)
  getMut c h I := by
    refine .lift fun o e => ?_
    unfold getMut at e
    split at e
    · cases e; rintro p ⟨⟩
    · obtain ⟨r, h1, h2⟩ := honest_bind_ok e
      obtain ⟨t, h4, h3⟩ := honest_bind_ok h1
      cases h3
      cases h2
      rintro p ⟨⟩
      exact ⟨index_good I h4, fun u hu => lw_set I _ hu⟩
  insertKey c h e I := by
    show Follows _ _ (insertKeyA c h e) (insertKey c h e)
    unfold insertKeyA insertKey
    refine Follows.lift'.bind fun p _ => ?_
    refine Follows.ite' (p := p.2.isSome = true) (fun _ => ?_) fun _ => ?_
    · refine Follows.bind (Q := fun r => P.W r.1 ∧ ∀ u, P.W u → LW P.W (r.2 u)) (.lift fun r e => ?_) fun r hr => ?_
      · obtain ⟨t, h1, h3⟩ := honest_bind_ok e
        cases h3
        exact ⟨index_good I h1, fun u hu => lw_set I _ hu⟩
      · exact (P.insert r.1 e.1 e.2 hr.1).bind fun q hq => .ret (hr.2 _ hq)
    · rw [(P.fromMonad e.1 e.2).1]
      refine Follows.bind (Q := LW P.W) (.lift fun l hl => ?_) fun l hl => .ret hl
      unfold VecDeque.insertAt at hl
      split at hl
      · cases hl
        intro u hu
        rcases (List.mem_insertIdx (by assumption)).1 hu with rfl | hu
        · exact (P.fromMonad e.1 e.2).2
        · exact I u hu
      · cases hl
  removeKey c h f g I hf := by
    show Follows _ _ (removeKeyA c h f) (removeKey c h g)
    unfold removeKeyA removeKey
    refine Follows.lift'.bind fun p _ => Follows.lift'.bind fun _ _ => ?_
    refine (honest_removeKey I _ hf).bind fun r hr => ?_
    obtain ⟨_ | ⟨l, _ | _⟩, v⟩ := r
    · exact .ret allO_none
    · exact .ret (allO_some (hr _ rfl))
    · exact Follows.lift'.bind fun _ _ => .ret (allO_some (hr _ rfl))
  maybeRemoveKey c h f g I hf := by
    show Follows _ _ (maybeRemoveKeyA c h f) (maybeRemoveKey c h g)
    unfold maybeRemoveKeyA maybeRemoveKey
    refine Follows.lift'.bind fun p _ => ?_
    refine Follows.ite' (p := p.isNone = true) (fun _ => .ret I) fun _ => ?_
    refine (honest_maybeRemoveKey I _ hf).bind fun r hr => ?_
    obtain ⟨_ | ⟨l, _ | _⟩, v⟩ | l := r
    · exact .ret allO_none
    · exact .ret (allO_some (hr _ rfl))
    · exact Follows.lift'.bind fun _ _ => .ret (allO_some (hr _ rfl))
    · exact .ret hr

end ByteMap.Coll

/-! ## Boxes -/

instance agreeCollBox {σ C Hi T Lo V : Type} [ActTree σ T Lo V] [VebTree T Lo V] [P : HTree Us σ T Lo V] [ActColl σ C Hi T Lo V]
    [TreeCollection C Hi T Lo V] [Q : HColl Us σ C Hi T Lo V] : HColl Us σ (Box C) Hi T Lo V where
  W c := Q.W c.val
  create h t ht := (Q.create h t ht).bind fun c hc => .ret hc
  get c h I := Q.get c.val h I
  getMut c h I := (Q.getMut c.val h I).bind fun o ho => by
    obtain _ | ⟨t, put⟩ := o
    · exact .ret (by rintro p ⟨⟩)
    · exact .ret (by rintro p ⟨⟩; exact ho _ rfl)
  insertKey c h e I := (Q.insertKey c.val h e I).bind fun r hr => .ret hr
  removeKey c h f g I hf := (Q.removeKey c.val h f g I hf).bind fun r hr => by
    obtain ⟨_ | ⟨c, b⟩, v⟩ := r
    · exact .ret allO_none
    · exact .ret (allO_some (hr _ rfl))
  maybeRemoveKey c h f g I hf := (Q.maybeRemoveKey c.val h f g I hf).bind fun r hr => by
    obtain ⟨_ | ⟨c, b⟩, v⟩ | c := r
    · exact .ret allO_none
    · exact .ret (allO_some (hr _ rfl))
    · exact .ret hr

end Veb
