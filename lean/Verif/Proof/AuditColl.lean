import Verif.Proof.Audit

/-!
# Which panics code of the user can provoke: collections
-/

set_option autoImplicit false
set_option linter.unusedSectionVars false

namespace Veb

open OptionArray KeepsColl

namespace AuditC
variable {Us : Panic → Prop} {L : Prop} {σ Hi T Lo V : Type} [ActTree σ T Lo V] [P : Keeps σ T Lo V]
  [N : Audit Us L σ T Lo V]

/-! ## Arrays -/

section
variable [ActIndex σ Hi]

variable (σ) in
/-- the trees are good, the array has its length, the counter is at most the number of insertions -/
def ArrA (N : Audit Us L σ T Lo V) (n : Nat) (c : ArrayColl Hi T) : Prop :=
  (∀ i t, c.array.slot i = some t → N.A n t) ∧ c.array.len = typenumUsize (ActIndex.cardinality σ Hi) ∧ c.count ≤ n

/-- what can happen -/
def ArrE (N : Audit Us L σ T Lo V) (Hi : Type) [ActIndex σ Hi] (p : Panic) : Prop :=
  N.E p ∨ ArrayPanics σ Hi p ∨ ¬ L ∧ ArrayOverflow σ Hi p

theorem aud_idx (hU : IndexPanics σ Hi Us) {h : Hi} : Aud (ArrE N Hi) (ActIndex.index (σ := σ) h) (IsIndex σ h) :=
  ((Aud.user (hU h) fun p hp => .inl (N.user p hp)).and post_idx).mono fun _ h => h.2

theorem oob {h : Hi} {i len : Nat} (x : IsIndex σ h i) (hl : len = typenumUsize (ActIndex.cardinality σ Hi))
    (hi : ¬ i < len) : ArrE N Hi .index := by
  refine .inr (.inl (.inl ⟨rfl, fun r => hi ?_⟩))
  obtain ⟨s, s', e⟩ := x
  rw [hl]
  exact r h s s' i e

theorem aud_get {a : OptionArray T} {h : Hi} {i : Nat} (x : IsIndex σ h i)
    (hl : a.len = typenumUsize (ActIndex.cardinality σ Hi)) :
    Aud (ArrE N Hi) (liftM (a.get i) : Act σ (Option T)) fun o => i < a.len ∧ o = a.slot i := by
  unfold OptionArray.get
  split
  · next hi => exact .ok rfl ⟨hi, rfl⟩
  · next hi => exact .fail (oob x hl hi)

theorem aud_put {a : OptionArray T} {h : Hi} {i : Nat} {o : Option T} (x : IsIndex σ h i)
    (hl : a.len = typenumUsize (ActIndex.cardinality σ Hi)) :
    Aud (ArrE N Hi) (liftM (a.put i o) : Act σ (OptionArray T)) fun b => i < a.len ∧ b = a.upd i o := by
  unfold OptionArray.put
  split
  · next hi => exact .ok rfl ⟨hi, rfl⟩
  · next hi => exact .fail (oob x hl hi)

theorem all_upd {A : T → Prop} {a : OptionArray T} (h : ∀ i t, a.slot i = some t → A t) {i : Nat} {o : Option T}
    (ho : OptOk A o) : ∀ j t, (a.upd i o).slot j = some t → A t := by
  intro j t e
  change (if j = i then o else a.slot j) = _ at e
  split at e
  · exact ho t e
  · exact h j t e

theorem occ_len (a : OptionArray T) : total occ a ≤ a.len := by
  unfold total
  generalize a.len = n
  induction n with
  | zero => exact le_rfl
  | succ n ih =>
    rw [Finset.sum_range_succ]
    have : occ (a.slot n) ≤ 1 := by
      unfold occ
      split <;> decide
    omega

/-- a tree is there, so it is counted -/
theorem counted {a : OptionArray T} {n i : Nat} {t : T} (I : ArrW' (σ := σ) Hi a n) (hi : i < a.len)
    (e : a.slot i = some t) : 1 ≤ n := by
  have h1 := occ_take hi e none
  have h2 := I.2.1
  rw [show occ (none : Option T) = 0 from rfl] at h1
  omega

/-- the counter after a removal -/
theorem aud_count {α : Type} {n : Nat} {o : Option T} {g : Nat → Act σ α} {Q : α → Prop} {E : Panic → Prop} (hn : 1 ≤ n)
    (h : ∀ r, r ≤ n → Aud E (g r) Q) :
    Aud E (if o.isNone = true then liftM (subUsize n 1) >>= g else pure n >>= g : Act σ α) Q := by
  cases o with
  | none => exact (Aud.sub hn).bind fun r hr => h r (by omega)
  | some t => exact Aud.bind (Q := fun m => m = n) (.ret rfl) fun r hr => h r hr.le

@[reducible] def array (hU : IndexPanics σ Hi Us) : AuditC Us L σ (ArrayColl Hi T) Hi T Lo V where
  A := ArrA σ N
  E := ArrE N Hi
  tree _ := .inl
  up n m c l h := ⟨fun i t e => N.up n m t l (h.1 i t e), h.2.1, h.2.2.trans l⟩
  create n h t hn ht := by
    show Aud _ (ArrayColl.createA h t) _
    unfold ArrayColl.createA
    refine (aud_idx hU).bind fun i xi => (aud_put xi rfl).bind fun b hb => .ret ?_
    obtain ⟨hi, rfl⟩ := hb
    exact ⟨all_upd (by rintro i t ⟨⟩) (optOk_some.2 ht), rfl, hn⟩
  get n c h I J := by
    show Aud _ (ArrayColl.getA c h) _
    unfold ArrayColl.getA
    refine (aud_idx hU).bind fun i xi => (aud_get xi J.2.1).mono fun o ho t ht => ?_
    exact J.1 i t (ho.2.symm.trans ht)
  getMut n c h I J := by
    show Aud _ (ArrayColl.getMutA c h) _
    unfold ArrayColl.getMutA
    refine (aud_idx hU).bind fun i xi => (aud_get xi J.2.1).bind fun o ho => ?_
    obtain ⟨hi, ho⟩ := ho
    obtain _ | t := o
    · exact .ret (by rintro p ⟨⟩)
    · refine .ret ?_
      rintro _ ⟨⟩
      exact ⟨J.1 i t ho.symm, fun u hu => ⟨all_upd J.1 (optOk_some.2 hu), J.2⟩⟩
  insertKey n c h e I J l := by
    show Aud _ (ArrayColl.insertKeyA c h e) _
    unfold ArrayColl.insertKeyA
    have J1 : ∀ i t, c.array.slot i = some t → N.A (n + 1) t := fun i t e => N.up _ _ _ (Nat.le_succ n) (J.1 i t e)
    refine (aud_idx hU).bind fun i xi => (aud_get xi J.2.1).bind fun o ho => ?_
    obtain ⟨hi, ho⟩ := ho
    obtain _ | t := o
    · refine (aud_idx hU).bind fun j xj => (aud_put xj J.2.1).bind fun b hb => ?_
      obtain ⟨hj, rfl⟩ := hb
      refine Aud.bind (Q := fun m => m = c.count + 1) (.lift (fun m hm => ?_) fun p hp => ?_) fun m hm => .ret ?_
      · unfold addUsize at hm
        split at hm
        · cases hm; rfl
        · cases hm
      · unfold addUsize at hp
        split at hp
        · cases hp
        · next hc =>
          cases hp
          refine .inr (.inr ⟨fun x => hc ?_, rfl, fun f => hc ?_⟩)
          · have := l x
            have := J.2.2
            omega
          · have h1 := occ_empty hi ho.symm (ActTree.fromMonad σ e.1 e.2)
            have h2 := occ_len (c.array.upd i (some (ActTree.fromMonad σ e.1 e.2)))
            rw [h1, ← I.2.2 f] at h2
            have h3 : (c.array.upd i (some (ActTree.fromMonad σ e.1 e.2))).len = _ := J.2.1
            have h4 : typenumUsize (ActIndex.cardinality σ Hi) < usizeMax + 1 := Nat.mod_lt _ (by decide)
            omega
      · refine ⟨all_upd J1 (optOk_some.2 (N.up _ _ _ (by omega) (N.fromMonad _ _))), J.2.1, ?_⟩
        show m ≤ n + 1
        have := J.2.2
        omega
    · refine ((N.insert n t e.1 e.2 (I.1 i t ho.symm) (J.1 i t ho.symm) l).more fun _ => .inl).bind fun r hr => ?_
      obtain ⟨u, x⟩ := r
      refine (aud_put xi J.2.1).bind fun b hb => .ret ?_
      obtain ⟨hj, rfl⟩ := hb
      exact ⟨all_upd J1 (optOk_some.2 hr), J.2.1, Nat.le_succ_of_le J.2.2⟩
  removeKey n c h f I J hf := by
    show Aud _ (ArrayColl.removeKeyA c h f) _
    unfold ArrayColl.removeKeyA
    refine (aud_idx hU).bind fun i xi => (aud_get xi J.2.1).bind fun o ho => ?_
    obtain ⟨hi, ho⟩ := ho
    refine (Aud.exp fun _ => .inr (.inl (.inr rfl))).bind fun t ht => ?_
    subst ht
    refine (aud_put xi J.2.1).bind fun b hb => ?_
    obtain ⟨-, rfl⟩ := hb
    refine (hf t (I.1 i t ho.symm) (J.1 i t ho.symm)).bind fun r hr => ?_
    obtain ⟨o, x, v⟩ := r
    refine aud_count (counted I hi ho.symm) fun m hm => (aud_idx hU).bind fun j xj =>
      (aud_put (a := c.array.upd i none) xj J.2.1).bind fun b hb => ?_
    obtain ⟨hj, rfl⟩ := hb
    split
    · exact .ret optOk_none
    · exact .ret (optOk_some.2 ⟨all_upd (all_upd J.1 optOk_none) hr, J.2.1, hm.trans J.2.2⟩)
  maybeRemoveKey n c h f I J hf := by
    show Aud _ (ArrayColl.maybeRemoveKeyA c h f) _
    unfold ArrayColl.maybeRemoveKeyA
    refine (aud_idx hU).bind fun i xi => (aud_get xi J.2.1).bind fun o ho => ?_
    obtain ⟨hi, ho⟩ := ho
    obtain _ | t := o
    · exact .ret J
    refine (aud_put xi J.2.1).bind fun b hb => ?_
    obtain ⟨-, rfl⟩ := hb
    refine (hf t (I.1 i t ho.symm) (J.1 i t ho.symm)).bind fun r hr => ?_
    obtain ⟨o, x, v⟩ | u := r
    · refine aud_count (counted I hi ho.symm) fun m hm => (aud_idx hU).bind fun j xj =>
        (aud_put (a := c.array.upd i none) xj J.2.1).bind fun b hb => ?_
      obtain ⟨hj, rfl⟩ := hb
      split
      · exact .ret optOk_none
      · exact .ret (optOk_some.2 ⟨all_upd (all_upd J.1 optOk_none) hr, J.2.1, hm.trans J.2.2⟩)
    · refine (aud_idx hU).bind fun j xj => (aud_put (a := c.array.upd i none) xj J.2.1).bind fun b hb => .ret ?_
      obtain ⟨hj, rfl⟩ := hb
      exact ⟨all_upd (all_upd J.1 optOk_none) (optOk_some.2 hr), J.2⟩

end

/-! ## Hash tables -/

section
variable [ActHash σ Hi]

/-- what can happen -/
def HashE (N : Audit Us L σ T Lo V) (p : Panic) : Prop := N.E p ∨ HashPanics' p

theorem aud_probe (hU : HashPanics σ Hi Us) (c : HashMap Hi T) (h : Hi) : Aud (HashE N) (c.probeA (σ := σ) h) fun r =>
    ∀ x, r = some x → c.entries[x.1]? = some x.2 := by
  have h0 : Aud (HashE N) (c.probeA (σ := σ) h) fun _ => True :=
    Aud.bind (Aud.user (hU.probe _ h) fun p hp => .inl (N.user p hp)) fun o _ => by
      cases o with
      | none => exact .ret trivial
      | some i => exact .ret trivial
  exact (h0.and (post_probe c h)).mono fun _ h => h.2.1

variable (σ) in
/-- the trees are good -/
def HashA (N : Audit Us L σ T Lo V) (n : Nat) (c : HashMap Hi T) : Prop := ∀ e ∈ c.entries, N.A n e.2

theorem hash_set {n : Nat} {c : HashMap Hi T} (J : HashA σ N n c) {i : Nat} {h : Hi} {u : T} (hu : N.A n u) :
    HashA σ N n (c.assignAt i h u) := by
  intro e he
  rcases List.mem_or_eq_of_mem_set he with h | rfl
  · exact J e h
  · exact hu
theorem hash_replace {n : Nat} {c : HashMap Hi T} (J : HashA σ N n c) {i : Nat} {h : Hi} {o : Option T}
    (ho : OptOk (N.A n) o) : HashA σ N n (c.replaceAt i h o) := by
  cases o with
  | some u => exact hash_set J (ho u rfl)
  | none => exact fun e he => J e (List.mem_of_mem_eraseIdx he)

theorem hash_at {n : Nat} {c : HashMap Hi T} (J : HashA σ N n c) {i : Nat} {e : Hi × T} (h : c.entries[i]? = some e) :
    N.A n e.2 := J e (List.mem_of_getElem? h)

@[reducible] def hash (hU : HashPanics σ Hi Us) : AuditC Us L σ (HashMap Hi T) Hi T Lo V where
  A := HashA σ N
  E := HashE N
  tree _ := .inl
  up n m c l h e he := N.up n m e.2 l (h e he)
  create n h t hn ht := by
    show Aud _ (HashMap.createA h t) _
    unfold HashMap.createA
    refine (Aud.user (hU.clone h) fun p hp => .inl (N.user p hp)).bind fun h' _ =>
      (Aud.user (hU.hashing h') fun p hp => .inl (N.user p hp)).bind fun _ _ => (Aud.assert ?_).bind fun _ _ =>
      (aud_probe hU _ h).bind fun o _ => (Aud.assert fun _ => .inr (.inr rfl)).bind fun _ _ => .ret ?_
    · intro e; cases e
    · intro e he
      rw [List.mem_singleton.1 he]
      exact ht
  get n c h I J := by
    show Aud _ (HashMap.getA c h) _
    unfold HashMap.getA
    refine (aud_probe hU c h).bind fun r hr => .ret fun t ht => ?_
    obtain ⟨e, h1, rfl⟩ := Option.map_eq_some_iff.1 ht
    exact hash_at J (hr e h1)
  getMut n c h I J := by
    show Aud _ (HashMap.getMutA c h) _
    unfold HashMap.getMutA
    refine (aud_probe hU c h).bind fun r hr => .ret fun t ht => ?_
    obtain ⟨e, h1, rfl⟩ := Option.map_eq_some_iff.1 ht
    exact ⟨hash_at J (hr e h1), fun u hu => hash_set J hu⟩
  insertKey n c h e I J l := by
    show Aud _ (HashMap.insertKeyA c h e) _
    unfold HashMap.insertKeyA
    have J1 : HashA σ N (n + 1) c := fun e he => N.up _ _ _ (Nat.le_succ n) (J e he)
    refine (aud_probe hU c h).bind fun r hr => ?_
    obtain _ | ⟨i, h', t⟩ := r
    · refine (Aud.user (hU.hashing h) fun p hp => .inl (N.user p hp)).bind fun _ _ =>
        (Aud.user (hU.clone h) fun p hp => .inl (N.user p hp)).bind fun _ _ => .ret fun a ha => ?_
      rcases List.mem_cons.1 ha with rfl | ha
      · exact N.up _ _ _ (by omega) (N.fromMonad _ _)
      · exact J1 a ha
    · have h0 := hr _ rfl
      refine ((N.insert n t e.1 e.2 (LW.at (p := Prod.snd) h0 I.1) (hash_at J h0) l).more fun _ => .inl).bind
        fun r hr => .ret (hash_set J1 hr)
  removeKey n c h f I J hf := by
    show Aud _ (HashMap.removeKeyA c h f) _
    unfold HashMap.removeKeyA
    refine (aud_probe hU c h).bind fun r hr => ?_
    obtain _ | ⟨i, h', t⟩ := r
    · exact .fail (.inr (.inl rfl))
    · have h0 := hr _ rfl
      refine (hf t (LW.at (p := Prod.snd) h0 I.1) (hash_at J h0)).bind fun r hr => ?_
      obtain ⟨o, x, v⟩ := r
      exact .ite (fun _ => .ret optOk_none) fun _ => .ret (optOk_some.2 (hash_replace J hr))
  maybeRemoveKey n c h f I J hf := by
    show Aud _ (HashMap.maybeRemoveKeyA c h f) _
    unfold HashMap.maybeRemoveKeyA
    refine (aud_probe hU c h).bind fun r hr => ?_
    obtain _ | ⟨i, h', t⟩ := r
    · exact .ret J
    · have h0 := hr _ rfl
      refine (hf t (LW.at (p := Prod.snd) h0 I.1) (hash_at J h0)).bind fun r hr => ?_
      obtain ⟨o, x, v⟩ | t' := r
      · dsimp only
        rw [pure_bind]
        dsimp only
        cases he : (c.replaceAt i h' o).entries.isEmpty
        · exact .ret (optOk_some.2 (hash_replace J hr))
        · exact .ret optOk_none
      · dsimp only
        rw [pure_bind]
        dsimp only
        cases he : (c.replaceAt i h' (some t')).entries.isEmpty
        · exact .ret (hash_set J hr)
        · exfalso
          have h1 : (c.entries.set i (h', t')).length = 0 := by
            rw [show c.entries.set i (h', t') = [] from List.isEmpty_iff.1 he]; rfl
          rw [List.length_set] at h1
          have := (List.getElem?_eq_some_iff.1 h0).1
          dsimp only at this
          omega

end

/-! ## `ByteMap` -/

open ByteMap

/-- what can happen -/
def ByteE (N : Audit Us L σ T Lo V) (p : Panic) : Prop := N.E p ∨ BytePanics p

variable (σ) in
/-- set and list agree, the trees are good -/
def ByteA (N : Audit Us L σ T Lo V) (n : Nat) (c : ByteMap T) : Prop := c.Inv ∧ ∀ t ∈ c.list, N.A n t

theorem all_set {A : T → Prop} {l : List T} (h : ∀ t ∈ l, A t) {i : Nat} {u : T} (hu : A u) : ∀ t ∈ l.set i u, A t := by
  intro t ht
  rcases List.mem_or_eq_of_mem_set ht with h' | rfl
  · exact h t h'
  · exact hu

theorem byte_bit {c : ByteMap T} {h : Veb.U 8} {b : Bool} (e : c.set.isPresent h = b) :
    c.set.words.bitAt (ByteSet.nat h) = b := by
  rw [← e, ByteSet.isPresent_eq]

@[reducible] def byte : AuditC Us L σ (ByteMap T) (Veb.U 8) T Lo V where
  A := ByteA σ N
  E := ByteE N
  tree _ := .inl
  up n m c l h := ⟨h.1, fun t ht => N.up n m t l (h.2 t ht)⟩
  create n h t hn ht := .ok rfl ⟨(fromMonad_ok h t).1, by intro a ha; rw [List.mem_singleton.1 ha]; exact ht⟩
  get n c h I J := by
    show Aud _ (liftM (Coll.get c h)) _
    by_cases hb : c.set.words.bitAt (ByteSet.nat h) = true
    · obtain ⟨a, h3, h4⟩ := get_ok J.1 hb
      refine .ok (a := some a) ?_ (optOk_some.2 (J.2 a (List.mem_of_getElem? h3)))
      simp [Coll.get, ByteSet.isPresent_eq, hb, VecDeque.get, index, countBelow', h3]
    · refine .ok (a := none) ?_ optOk_none
      simp [Coll.get, ByteSet.isPresent_eq, hb]
  getMut n c h I J := by
    show Aud _ (liftM (Coll.getMut c h)) _
    by_cases hb : c.set.words.bitAt (ByteSet.nat h) = true
    · obtain ⟨a, h3, h4, h5⟩ := getMut_ok J.1 hb
      obtain ⟨b, h6, -⟩ := get_ok J.1 hb
      obtain rfl : a = b := by
        have : index c.list (c.set.countBelow h) = .ok b := by rw [countBelow', index, h6]
        rw [this] at h3
        cases h3
        rfl
      refine .ok (a := some (a, fun u => { c with list := c.list.set (cnt c.set.words.bitAt (ByteSet.nat h)) u })) ?_ ?_
      · simp [Coll.getMut, ByteSet.isPresent_eq, hb, h5]
      · rintro _ ⟨⟩
        exact ⟨J.2 a (List.mem_of_getElem? h6), fun u hu => ⟨(put_ok J.1 hb u).1, all_set J.2 hu⟩⟩
    · refine .ok (a := none) ?_ (by rintro p ⟨⟩)
      simp [Coll.getMut, ByteSet.isPresent_eq, hb]
  insertKey n c h e I J l := by
    show Aud _ (ByteMap.Coll.insertKeyA c h e) _
    unfold ByteMap.Coll.insertKeyA
    have J1 : ∀ t ∈ c.list, N.A (n + 1) t := fun t ht => N.up _ _ _ (Nat.le_succ n) (J.2 t ht)
    by_cases hb : c.set.words.bitAt (ByteSet.nat h) = true
    · obtain ⟨a, h3, h4, h5⟩ := getMut_ok J.1 hb
      obtain ⟨b, h6, -⟩ := get_ok J.1 hb
      obtain rfl : a = b := by
        have : index c.list (c.set.countBelow h) = .ok b := by rw [countBelow', index, h6]
        rw [this] at h3
        cases h3
        rfl
      have hs : c.set.insert h () = .ok (c.set, some (h, ())) := by
        simp [ByteSet.insert, ByteSet.isPresent_eq, hb]
      dsimp only
      rw [hs, h5]
      refine Aud.bind (Q := fun r => r = (c.set, some (h, ()))) (.ok rfl rfl) ?_
      rintro _ rfl
      refine Aud.bind (Q := fun r => r = (a, _)) (.ok rfl rfl) ?_
      rintro _ rfl
      refine ((N.insert n a e.1 e.2 (LW.at (p := id) h6 I) (J.2 a (List.mem_of_getElem? h6)) l).more fun _ => .inl).bind
        fun r hr => .ret ⟨(put_ok J.1 hb _).1, all_set J1 hr⟩
    · have hb : c.set.words.bitAt (ByteSet.nat h) = false := by simpa using hb
      have hs : c.set.insert h () = .ok (c.set.setBit h, none) := by
        simp [ByteSet.insert, ByteSet.isPresent_eq, hb]
      rw [hs]
      refine Aud.bind (Q := fun r => r = (c.set.setBit h, none)) (.ok rfl rfl) ?_
      rintro _ rfl
      obtain ⟨h1, h2, h3⟩ := add_ok J.1 hb (ActTree.fromMonad σ e.1 e.2)
      refine Aud.bind (Q := fun r => r = c.list.insertIdx (cnt c.set.words.bitAt (ByteSet.nat h)) (ActTree.fromMonad σ e.1 e.2)) (.ok (a := _) ?_ rfl) ?_
      · rw [VecDeque.insertAt, countBelow', if_pos h1]
      · rintro _ rfl
        refine .ret ⟨h2, fun t ht => ?_⟩
        rcases List.eq_or_mem_of_mem_insertIdx ht with rfl | ht
        · exact N.up _ _ _ (by omega) (N.fromMonad _ _)
        · exact J1 t ht
  removeKey n c h f I J hf := by
    show Aud _ (ByteMap.Coll.removeKeyA c h f) _
    unfold ByteMap.Coll.removeKeyA
    rw [set_find]
    refine Aud.bind (Q := fun r => r = _) (.ok rfl rfl) ?_
    rintro _ rfl
    refine (Aud.assert fun _ => .inr rfl).bind fun _ hs => ?_
    have hb : c.set.words.bitAt (ByteSet.nat h) = true := by
      by_contra x
      rw [if_neg x] at hs
      cases hs
    obtain ⟨a, h1, -⟩ := get_ok J.1 hb
    unfold VecDeque.removeKeyA
    rw [countBelow']
    dsimp only
    rw [h1]
    refine Aud.bind (Q := fun r : Option (List T × Bool) × (Lo × V) => ∀ l b, r.1 = some (l, b) →
      (∀ t ∈ l, N.A n t) ∧ (b = true → Inv (⟨c.set.unsetBit h, l⟩ : ByteMap T)) ∧ (b = false → Inv (⟨c.set, l⟩ : ByteMap T))) ?_ ?_
    · refine (hf a (LW.at (p := id) h1 I) (J.2 a (List.mem_of_getElem? h1))).bind fun r hr => ?_
      obtain ⟨_ | t', x, v⟩ := r
      · dsimp only [Option.isNone]
        split
        · exact Aud.bind (Q := fun _ => True) (.ok rfl trivial) fun _ _ => .ret (by rintro l b ⟨⟩)
        · next he =>
          refine .ret ?_
          rintro l b ⟨⟩
          refine ⟨fun t ht => J.2 t (List.mem_of_mem_eraseIdx ht), fun _ => del_ok J.1 hb fun hs => he ?_, by rintro ⟨⟩⟩
          rw [List.isEmpty_iff]
          exact (erase_nil J.1 hb).2 hs
      · dsimp only [Option.isNone]
        split
        · next he => exact absurd (List.isEmpty_iff.1 he) (set_nil J.1 hb t')
        · refine .ret ?_
          rintro l b ⟨⟩
          exact ⟨all_set J.2 (hr t' rfl), (by rintro ⟨⟩), fun _ => (put_ok J.1 hb t').1⟩
    · rintro ⟨_ | ⟨l, b⟩, x, v⟩ hr
      · exact .ret optOk_none
      · obtain ⟨h2, h3, h4⟩ := hr l b rfl
        refine .ite (fun e => ?_) fun e => .ret (optOk_some.2 ⟨h4 e, h2⟩)
        rw [ByteSet.isPresent_eq, hb]
        exact Aud.bind (Q := fun _ => True) (.ok rfl trivial) fun _ _ => .ret (optOk_some.2 ⟨h3 e, h2⟩)
  maybeRemoveKey n c h f I J hf := by
    show Aud _ (ByteMap.Coll.maybeRemoveKeyA c h f) _
    unfold ByteMap.Coll.maybeRemoveKeyA
    rw [set_find]
    refine Aud.bind (Q := fun r => r = _) (.ok rfl rfl) ?_
    rintro _ rfl
    refine .ite (fun _ => .ret J) fun hs => ?_
    have hb : c.set.words.bitAt (ByteSet.nat h) = true := by
      by_contra x
      rw [if_neg x] at hs
      cases hs
    obtain ⟨a, h1, -⟩ := get_ok J.1 hb
    unfold VecDeque.maybeRemoveKeyA
    rw [countBelow']
    dsimp only
    rw [h1]
    refine Aud.bind (Q := fun r : Result (Option (List T × Bool) × (Lo × V)) (List T) => match r with
      | .Ok r => ∀ l b, r.1 = some (l, b) →
        (∀ t ∈ l, N.A n t) ∧ (b = true → Inv (⟨c.set.unsetBit h, l⟩ : ByteMap T)) ∧ (b = false → Inv (⟨c.set, l⟩ : ByteMap T))
      | .Err l => (∀ t ∈ l, N.A n t) ∧ Inv (⟨c.set, l⟩ : ByteMap T)) ?_ ?_
    · refine (hf a (LW.at (p := id) h1 I) (J.2 a (List.mem_of_getElem? h1))).bind fun r hr => ?_
      obtain ⟨_ | t', x, v⟩ | t' := r
      · dsimp only [Option.isNone]
        split
        · exact Aud.bind (Q := fun _ => True) (.ok rfl trivial) fun _ _ => .ret (by rintro l b ⟨⟩)
        · next he =>
          refine .ret ?_
          rintro l b ⟨⟩
          refine ⟨fun t ht => J.2 t (List.mem_of_mem_eraseIdx ht), fun _ => del_ok J.1 hb fun hs => he ?_, by rintro ⟨⟩⟩
          rw [List.isEmpty_iff]
          exact (erase_nil J.1 hb).2 hs
      · dsimp only [Option.isNone]
        split
        · next he => exact absurd (List.isEmpty_iff.1 he) (set_nil J.1 hb t')
        · refine .ret ?_
          rintro l b ⟨⟩
          exact ⟨all_set J.2 (hr t' rfl), (by rintro ⟨⟩), fun _ => (put_ok J.1 hb t').1⟩
      · exact .ret ⟨all_set J.2 hr, (put_ok J.1 hb t').1⟩
    · rintro (⟨_ | ⟨l, b⟩, x, v⟩ | l) hr
      · exact .ret optOk_none
      · obtain ⟨h2, h3, h4⟩ := hr l b rfl
        refine .ite (fun e => ?_) fun e => .ret (optOk_some.2 ⟨h4 e, h2⟩)
        rw [ByteSet.isPresent_eq, hb]
        exact Aud.bind (Q := fun _ => True) (.ok rfl trivial) fun _ _ => .ret (optOk_some.2 ⟨h3 e, h2⟩)
      · exact .ret ⟨hr.2, hr.1⟩

/-! ## Boxes -/

@[reducible] def box {C : Type} [ActColl σ C Hi T Lo V] (Q : KeepsColl σ C Hi T Lo V) (B : AuditC Us L σ C Hi T Lo V) :
    @AuditC Us L σ (Box C) Hi T Lo V _ P N _ (KeepsColl.box Q) :=
  letI := KeepsColl.box Q
  { A := fun n c => B.A n c.val
    E := B.E
    tree := B.tree
    up := fun n m c => B.up n m c.val
    create := fun n h t hn ht => (B.create n h t hn ht).bind fun _ hc => .ret hc
    get := fun n c => B.get n c.val
    getMut := fun n c h I J => (B.getMut n c.val h I J).bind fun o ho => by
      obtain _ | ⟨t, put⟩ := o
      · exact .ret (by rintro p ⟨⟩)
      · exact .ret (by rintro _ ⟨⟩; exact ho _ rfl)
    insertKey := fun n c h e I J l => (B.insertKey n c.val h e I J l).bind fun _ hr => .ret hr
    removeKey := fun n c h f I J hf => (B.removeKey n c.val h f I J hf).bind fun r hr => by
      obtain ⟨_ | ⟨c', b⟩, v⟩ := r
      · exact .ret optOk_none
      · exact .ret (optOk_some.2 (hr c' rfl))
    maybeRemoveKey := fun n c h f I J hf => (B.maybeRemoveKey n c.val h f I J hf).bind fun r hr => by
      obtain ⟨_ | ⟨c', b⟩, v⟩ | c' := r
      · exact .ret optOk_none
      · exact .ret (optOk_some.2 (hr c' rfl))
      · exact .ret hr }

end AuditC
end Veb
