import Verif.Proof.AuditColl

/-!
# Which panics code of the user can provoke: collections whose keys are treated properly
-/

set_option autoImplicit false
set_option linter.unusedSectionVars false

namespace Veb

open OptionArray KeepsColl

/-- the keys of a collection after an insertion -/
def DomIns {Hi X : Type} (d d' : Hi → Prop) (h : Hi) : Result Hi X → Prop
  | .Ok h' => h' = h ∧ ¬ d h ∧ ∀ x, d' x ↔ x = h ∨ d x
  | .Err _ => ∀ x, d' x ↔ d x
/-- the keys of a collection after a removal -/
def DomRem {Hi C : Type} (A : C → Prop) (dom : C → Hi → Prop) (d : Hi → Prop) (h : Hi) : Option (C × Bool) → Prop
  | none => True
  | some (c, false) => A c ∧ ∀ x, dom c x ↔ d x
  | some (c, true) => A c ∧ d h ∧ (∀ x, dom c x ↔ d x ∧ x ≠ h) ∧ ∃ x, dom c x

/-- A collection that treats its keys properly: it knows its keys, and panics only when a tree does. -/
class SyncC (Us : Panic → Prop) (L : Prop) (σ C : Type) (Hi T Lo V : outParam Type) [ActTree σ T Lo V]
    [P : Keeps σ T Lo V] [N : Audit Us L σ T Lo V] [ActColl σ C Hi T Lo V] [Q : KeepsColl σ C Hi T Lo V] where
  A : Nat → C → Prop
  dom : C → Hi → Prop
  up : ∀ n m c, n ≤ m → A n c → A m c
  create : ∀ n h t, 1 ≤ n → N.A n t → Aud N.E (ActColl.create (σ := σ) h t) fun c => A n c ∧ ∀ x, dom c x ↔ x = h
  get : ∀ n c h, Q.W c → A n c → Aud N.E (ActColl.get (σ := σ) c h) fun o => OptOk (N.A n) o ∧ (o = none → ¬ dom c h)
  getMut : ∀ n c h, Q.W c → A n c → Aud N.E (ActColl.getMut (σ := σ) c h) fun o => (∀ p, o = some p →
    N.A n p.1 ∧ ∀ u, N.A n u → A n (p.2 u) ∧ ∀ x, dom (p.2 u) x ↔ dom c x) ∧ (o = none → ¬ dom c h)
  insertKey : ∀ n c h e, Q.W c → A n c → (L → n < usizeMax) →
    Aud N.E (ActColl.insertKey (σ := σ) c h e) fun r => A (n + 1) r.1 ∧ DomIns (dom c) (dom r.1) h r.2
  removeKey : ∀ n c h f, Q.W c → A n c → dom c h → (∀ t, P.W t → N.A n t → Aud N.E (f t) fun r => OptOk (N.A n) r.1) →
    Aud N.E (ActColl.removeKey (σ := σ) c h f) fun r => DomRem (A n) dom (dom c) h r.1
  maybeRemoveKey : ∀ n c h f, Q.W c → A n c → (∀ t, P.W t → N.A n t → Aud N.E (f t) (MaybeA (N.A n))) →
    Aud N.E (ActColl.maybeRemoveKey (σ := σ) c h f) fun r => match r with
      | .Ok r => DomRem (A n) dom (dom c) h r.1
      | .Err c' => A n c' ∧ ∀ x, dom c' x ↔ dom c x

namespace SyncC
variable {Us : Panic → Prop} {L : Prop} {σ Hi T Lo V : Type} [ActTree σ T Lo V] [P : Keeps σ T Lo V]
  [N : Audit Us L σ T Lo V]

/-! ## Arrays -/

section
variable [ActIndex σ Hi] {f : Hi → Nat}

variable (σ) in
/-- what `index` answers -/
def Answers (f : Hi → Nat) : Prop :=
  Function.Injective f ∧ (∀ h, f h < typenumUsize (ActIndex.cardinality σ Hi)) ∧
    ∀ (h : Hi) (s s' : σ) (i : Nat), ActIndex.index h s = .ok (i, s') → i = f h

theorem Answers.fixed (hf : Answers σ f) : IndexFixed σ Hi := ⟨f, fun _ _ _ _ e => hf.2.2 _ _ _ _ e⟩

variable (σ) in
/-- the invariant: each tree is at the index of a key -/
def SArrA (N : Audit Us L σ T Lo V) (f : Hi → Nat) (n : Nat) (c : ArrayColl Hi T) : Prop :=
  AuditC.ArrA σ N n c ∧ ∀ i t, c.array.slot i = some t → ∃ h, f h = i

/-- the keys -/
def arrDom (f : Hi → Nat) (c : ArrayColl Hi T) (h : Hi) : Prop := ∃ t, c.array.slot (f h) = some t

theorem idx (hU : IndexPanics σ Hi Us) (hf : Answers σ f) {h : Hi} {l : Nat}
    (hl : l = typenumUsize (ActIndex.cardinality σ Hi)) :
    Aud N.E (ActIndex.index (σ := σ) h) fun i => i = f h ∧ i < l := by
  refine ((Aud.user (hU h) N.user).and post_idx).mono fun i hi => ?_
  obtain ⟨-, s, s', e⟩ := hi
  have := hf.2.2 _ _ _ _ e
  exact ⟨this, by rw [this, hl]; exact hf.2.1 h⟩

theorem get_in {E : Panic → Prop} {a : OptionArray T} {i : Nat} (hi : i < a.len) :
    Aud E (liftM (a.get i) : Act σ (Option T)) fun o => o = a.slot i := .ok (if_pos hi) rfl
theorem put_in {E : Panic → Prop} {a : OptionArray T} {i : Nat} {o : Option T} (hi : i < a.len) :
    Aud E (liftM (a.put i o) : Act σ (OptionArray T)) fun b => b = a.upd i o := .ok (if_pos hi) rfl

/-- the counter after a removal -/
theorem aud_count {α : Type} {n : Nat} {o : Option T} {g : Nat → Act σ α} {Q : α → Prop} {E : Panic → Prop} (hn : 1 ≤ n)
    (h : ∀ r, r + 1 = n + occ o → Aud E (g r) Q) :
    Aud E (if o.isNone = true then liftM (subUsize n 1) >>= g else pure n >>= g : Act σ α) Q := by
  cases o with
  | none => exact (Aud.sub hn).bind fun r hr => h r hr
  | some t => exact Aud.bind (Q := fun m => m = n) (.ret rfl) fun r hr => h r (by rw [hr]; rfl)

theorem some_of_occ {a : OptionArray T} (h : total occ a ≠ 0) : ∃ i t, a.slot i = some t := by
  by_contra hc
  push Not at hc
  refine h (Finset.sum_eq_zero fun i _ => ?_)
  cases e : a.slot i with
  | none => rfl
  | some t => exact absurd e (hc i t)

theorem dom_upd (hf : Function.Injective f) {a : OptionArray T} {h : Hi} {o : Option T} {n m : Nat} (x : Hi) :
    arrDom f (⟨a.upd (f h) o, n⟩ : ArrayColl Hi T) x ↔ x = h ∧ o ≠ none ∨ x ≠ h ∧ arrDom f ⟨a, m⟩ x := by
  show (∃ t, (if f x = f h then o else a.slot (f x)) = some t) ↔ _
  by_cases e : x = h
  · rw [if_pos (congrArg f e)]
    simp [e, Option.ne_none_iff_exists']
  · rw [if_neg fun y => e (hf y)]
    simp [e, arrDom]

theorem keyed_upd {a : OptionArray T} (J : ∀ i t, a.slot i = some t → ∃ h, f h = i) {h : Hi} {o : Option T} :
    ∀ i t, (a.upd (f h) o).slot i = some t → ∃ h, f h = i := by
  intro i t e
  by_cases x : i = f h
  · exact ⟨h, x.symm⟩
  · exact J i t ((if_neg x).symm.trans e)

/-- what the removal of a tree leaves -/
theorem arr_rem (hf : Answers σ f) {n m : Nat} {c : ArrayColl Hi T} {h : Hi} {t : T} {o : Option T}
    (I : KeepsColl.ArrW σ Hi T c) (J : SArrA σ N f n c) (hi : f h < c.array.len) (e : c.array.slot (f h) = some t)
    (ho : OptOk (N.A n) o) (hm : m + 1 = c.count + occ o) (h0 : ¬ m = 0) :
    DomRem (SArrA σ N f n) (arrDom f) (arrDom f c) h
      (some ((⟨(c.array.upd (f h) none).upd (f h) o, m⟩ : ArrayColl Hi T), o.isNone)) := by
  rw [upd_upd]
  have h1 := occ_take hi e o
  have h2 := I.2.2 hf.fixed
  have h3 : m = total occ (c.array.upd (f h) o) := by omega
  have h4 := J.1.2.2
  have hA : SArrA σ N f n (⟨c.array.upd (f h) o, m⟩ : ArrayColl Hi T) := by
    refine ⟨⟨AuditC.all_upd J.1.1 ho, J.1.2.1, ?_⟩, keyed_upd J.2⟩
    show m ≤ n
    cases o with
    | none => rw [show occ (none : Option T) = 0 from rfl] at hm; omega
    | some u => rw [show occ (some u) = 1 from rfl] at hm; omega
  cases o with
  | some u =>
    refine ⟨hA, fun x => (dom_upd hf.1 (m := c.count) x).trans ⟨?_, fun y => ?_⟩⟩
    · rintro (⟨rfl, -⟩ | ⟨-, y⟩)
      · exact ⟨t, e⟩
      · exact y
    · by_cases z : x = h
      · exact .inl ⟨z, by simp⟩
      · exact .inr ⟨z, y⟩
  | none =>
    refine ⟨hA, ⟨t, e⟩, fun x => (dom_upd hf.1 (m := c.count) x).trans ⟨?_, fun y => .inr ⟨y.2, y.1⟩⟩, ?_⟩
    · rintro (⟨-, y⟩ | ⟨z, y⟩)
      · exact absurd rfl y
      · exact ⟨y, z⟩
    · obtain ⟨i, u, hu⟩ := some_of_occ (a := c.array.upd (f h) none) (by omega)
      obtain ⟨x, rfl⟩ := hA.2 i u hu
      exact ⟨x, u, hu⟩

@[reducible] def array (hU : IndexPanics σ Hi Us) (hf : Answers σ f) : SyncC Us L σ (ArrayColl Hi T) Hi T Lo V where
  A := SArrA σ N f
  dom := arrDom f
  up n m c l h := ⟨⟨fun i t e => N.up n m t l (h.1.1 i t e), h.1.2.1, h.1.2.2.trans l⟩, h.2⟩
  create n h t hn ht := by
    show Aud _ (ArrayColl.createA h t) _
    unfold ArrayColl.createA
    refine (idx hU hf rfl).bind fun i xi => ?_
    obtain ⟨rfl, hi⟩ := xi
    refine (put_in hi).bind fun b hb => .ret ?_
    subst hb
    refine ⟨⟨⟨AuditC.all_upd (by rintro i t ⟨⟩) (optOk_some.2 ht), rfl, hn⟩, keyed_upd (by rintro i t ⟨⟩)⟩, fun x => ?_⟩
    refine (dom_upd hf.1 (m := 0) x).trans ⟨?_, fun e => .inl ⟨e, by simp⟩⟩
    rintro (⟨e, -⟩ | ⟨-, t, ⟨⟩⟩)
    exact e
  get n c h I J := by
    show Aud _ (ArrayColl.getA c h) _
    unfold ArrayColl.getA
    refine (idx hU hf J.1.2.1).bind fun i xi => ?_
    obtain ⟨rfl, hi⟩ := xi
    refine (get_in hi).mono fun o ho => ⟨fun t ht => J.1.1 _ t (ho.symm.trans ht), ?_⟩
    rintro rfl ⟨t, e⟩
    rw [← ho] at e
    cases e
  getMut n c h I J := by
    show Aud _ (ArrayColl.getMutA c h) _
    unfold ArrayColl.getMutA
    refine (idx hU hf J.1.2.1).bind fun i xi => ?_
    obtain ⟨rfl, hi⟩ := xi
    refine (get_in hi).bind fun o ho => ?_
    obtain _ | t := o
    · refine .ret ⟨by rintro p ⟨⟩, ?_⟩
      rintro - ⟨t, e⟩
      rw [← ho] at e
      cases e
    · refine .ret ⟨?_, by rintro ⟨⟩⟩
      rintro _ ⟨⟩
      refine ⟨J.1.1 _ t ho.symm, fun u hu => ⟨⟨⟨AuditC.all_upd J.1.1 (optOk_some.2 hu), J.1.2⟩, keyed_upd J.2⟩, fun x => ?_⟩⟩
      refine (dom_upd hf.1 (m := c.count) x).trans ⟨?_, fun y => ?_⟩
      · rintro (⟨rfl, -⟩ | ⟨-, y⟩)
        · exact ⟨t, ho.symm⟩
        · exact y
      · by_cases z : x = h
        · exact .inl ⟨z, by simp⟩
        · exact .inr ⟨z, y⟩
  insertKey n c h e I J l := by
    show Aud _ (ArrayColl.insertKeyA c h e) _
    unfold ArrayColl.insertKeyA
    have J1 : ∀ i t, c.array.slot i = some t → N.A (n + 1) t := fun i t e => N.up _ _ _ (Nat.le_succ n) (J.1.1 i t e)
    refine (idx hU hf J.1.2.1).bind fun i xi => ?_
    obtain ⟨rfl, hi⟩ := xi
    refine (get_in hi).bind fun o ho => ?_
    obtain _ | t := o
    · refine (idx hU hf J.1.2.1).bind fun i xi => ?_
      obtain ⟨rfl, hi⟩ := xi
      refine (put_in hi).bind fun b hb => ?_
      subst hb
      have h0 : addUsize c.count 1 = .ok (c.count + 1) := by
        refine if_pos ?_
        have h1 := occ_empty hi ho.symm (ActTree.fromMonad σ e.1 e.2)
        have h2 := AuditC.occ_len (c.array.upd (f h) (some (ActTree.fromMonad σ e.1 e.2)))
        rw [h1, ← I.2.2 hf.fixed] at h2
        have h3 : (c.array.upd (f h) (some (ActTree.fromMonad σ e.1 e.2))).len = _ := J.1.2.1
        have h4 : typenumUsize (ActIndex.cardinality σ Hi) < usizeMax + 1 := Nat.mod_lt _ (by decide)
        omega
      rw [h0]
      refine Aud.bind (Q := fun m => m = c.count + 1) (.ok rfl rfl) ?_
      rintro _ rfl
      refine .ret ⟨⟨⟨AuditC.all_upd J1 (optOk_some.2 (N.up _ _ _ (by omega) (N.fromMonad _ _))), J.1.2.1, ?_⟩, keyed_upd J.2⟩,
        rfl, ?_, fun x => ?_⟩
      · exact Nat.succ_le_succ J.1.2.2
      · rintro ⟨t, e⟩
        rw [← ho] at e
        cases e
      · refine (dom_upd hf.1 (m := c.count) x).trans ⟨?_, fun y => ?_⟩
        · rintro (⟨rfl, -⟩ | ⟨-, y⟩)
          · exact .inl rfl
          · exact .inr y
        · by_cases z : x = h
          · exact .inl ⟨z, by simp⟩
          · exact .inr ⟨z, y.resolve_left z⟩
    · refine (N.insert n t e.1 e.2 (I.1 _ t ho.symm) (J.1.1 _ t ho.symm) l).bind fun r hr => ?_
      obtain ⟨u, x⟩ := r
      refine (put_in hi).bind fun b hb => .ret ?_
      subst hb
      refine ⟨⟨⟨AuditC.all_upd J1 (optOk_some.2 hr), J.1.2.1, Nat.le_succ_of_le J.1.2.2⟩, keyed_upd J.2⟩, fun x => ?_⟩
      refine (dom_upd hf.1 (m := c.count) x).trans ⟨?_, fun y => ?_⟩
      · rintro (⟨rfl, -⟩ | ⟨-, y⟩)
        · exact ⟨t, ho.symm⟩
        · exact y
      · by_cases z : x = h
        · exact .inl ⟨z, by simp⟩
        · exact .inr ⟨z, y⟩
  removeKey n c h g I J hd hg := by
    show Aud _ (ArrayColl.removeKeyA c h g) _
    unfold ArrayColl.removeKeyA
    refine (idx hU hf J.1.2.1).bind fun i xi => ?_
    obtain ⟨rfl, hi⟩ := xi
    refine (get_in hi).bind fun o ho => ?_
    obtain ⟨t, ht⟩ := hd
    rw [ho, ht]
    refine Aud.bind (Q := fun a => t = a) (.ok rfl rfl) ?_
    rintro _ rfl
    refine (put_in hi).bind fun b hb => ?_
    subst hb
    refine (hg t (I.1 _ t ht) (J.1.1 _ t ht)).bind fun r hr => ?_
    obtain ⟨o, x, v⟩ := r
    refine aud_count (AuditC.counted I hi ht) fun m hm => (idx hU hf J.1.2.1).bind fun j xj => ?_
    obtain ⟨rfl, hj⟩ := xj
    refine (put_in (a := c.array.upd (f h) none) hj).bind fun b hb => ?_
    subst hb
    split
    · exact .ret trivial
    · next h0 => exact .ret (arr_rem hf I J hi ht hr hm h0)
  maybeRemoveKey n c h g I J hg := by
    show Aud _ (ArrayColl.maybeRemoveKeyA c h g) _
    unfold ArrayColl.maybeRemoveKeyA
    refine (idx hU hf J.1.2.1).bind fun i xi => ?_
    obtain ⟨rfl, hi⟩ := xi
    refine (get_in hi).bind fun o ho => ?_
    obtain _ | t := o
    · exact .ret ⟨J, fun _ => Iff.rfl⟩
    have ht := ho.symm
    refine (put_in hi).bind fun b hb => ?_
    subst hb
    refine (hg t (I.1 _ t ht) (J.1.1 _ t ht)).bind fun r hr => ?_
    obtain ⟨o, x, v⟩ | u := r
    · refine aud_count (AuditC.counted I hi ht) fun m hm => (idx hU hf J.1.2.1).bind fun j xj => ?_
      obtain ⟨rfl, hj⟩ := xj
      refine (put_in (a := c.array.upd (f h) none) hj).bind fun b hb => ?_
      subst hb
      split
      · exact .ret trivial
      · next h0 => exact .ret (arr_rem hf I J hi ht hr hm h0)
    · refine (idx hU hf J.1.2.1).bind fun j xj => ?_
      obtain ⟨rfl, hj⟩ := xj
      refine (put_in (a := c.array.upd (f h) none) hj).bind fun b hb => .ret ?_
      subst hb
      exact arr_rem hf I J hi ht (o := some u) (optOk_some.2 hr) (m := c.count) rfl
        (by have := AuditC.counted I hi ht; omega)

end

/-! ## Hash tables -/

section
variable [ActHash σ Hi]

variable (σ) in
/-- the trees are good, no key is there twice -/
def SHashA (N : Audit Us L σ T Lo V) (n : Nat) (c : HashMap Hi T) : Prop :=
  AuditC.HashA σ N n c ∧ (c.entries.map Prod.fst).Nodup

/-- the keys -/
def hashDom (c : HashMap Hi T) (h : Hi) : Prop := h ∈ c.entries.map Prod.fst

/-- what a lookup finds -/
def Found (c : HashMap Hi T) (h : Hi) : Option (Nat × Hi × T) → Prop
  | none => ¬ hashDom c h
  | some (i, h', t) => h' = h ∧ c.entries[i]? = some (h, t)

theorem probe (hU : HashPanics σ Hi Us) (hp : HashProper σ Hi) {c : HashMap Hi T} (hn : (c.entries.map Prod.fst).Nodup)
    (h : Hi) : Aud N.E (c.probeA (σ := σ) h) (Found c h) := by
  refine Aud.bind (Q := fun r => ∀ i, r = some i ↔ (c.entries.map Prod.fst)[i]? = some h)
    (((Aud.user (hU.probe _ h) N.user).and fun s r s' e => hp.probe _ _ _ _ _ hn e).mono fun _ h => h.2) fun r hr => ?_
  cases r with
  | none =>
    refine .ret fun hd => ?_
    obtain ⟨i, hi⟩ := List.mem_iff_getElem?.1 hd
    cases (hr i).2 hi
  | some i =>
    have h1 := (hr i).1 rfl
    rw [List.getElem?_map] at h1
    obtain ⟨⟨h', t⟩, h2, rfl⟩ := Option.map_eq_some_iff.1 h1
    dsimp only
    rw [h2]
    exact .ret ⟨rfl, h2⟩

theorem dom_of {c : HashMap Hi T} {h : Hi} {i : Nat} {t : T} (e : c.entries[i]? = some (h, t)) : hashDom c h :=
  List.mem_map.2 ⟨_, List.mem_of_getElem? e, rfl⟩

theorem assign {n : Nat} {c : HashMap Hi T} {h : Hi} {i : Nat} {t u : T} (J : SHashA σ N n c)
    (e : c.entries[i]? = some (h, t)) (hu : N.A n u) :
    SHashA σ N n (c.assignAt i h u) ∧ ∀ x, hashDom (c.assignAt i h u) x ↔ hashDom c x := by
  have h1 : (c.assignAt i h u).entries.map Prod.fst = c.entries.map Prod.fst := keys_set e u
  exact ⟨⟨AuditC.hash_set J.1 hu, by rw [h1]; exact J.2⟩, fun x => by unfold hashDom; rw [h1]⟩

/-- what the removal of a tree leaves -/
theorem hash_rem {n : Nat} {c : HashMap Hi T} {h : Hi} {i : Nat} {t : T} {o : Option T} (J : SHashA σ N n c)
    (e : c.entries[i]? = some (h, t)) (ho : OptOk (N.A n) o) (h0 : (c.replaceAt i h o).entries.isEmpty = false) :
    DomRem (SHashA σ N n) hashDom (hashDom c) h (some (c.replaceAt i h o, o.isNone)) := by
  cases o with
  | some u => exact assign J e (ho u rfl)
  | none =>
    have h1 : (c.entries.eraseIdx i).map Prod.fst = (c.entries.map Prod.fst).eraseIdx i := by
      rw [List.eraseIdx_map]
    have h2 : (c.entries.map Prod.fst)[i]? = some h := by rw [List.getElem?_map, e]; rfl
    refine ⟨⟨AuditC.hash_replace J.1 ho, J.2.sublist ((List.eraseIdx_sublist _ _).map _)⟩, dom_of e, fun x => ?_, ?_⟩
    · show x ∈ (c.entries.eraseIdx i).map Prod.fst ↔ _
      rw [h1]
      constructor
      · intro hx
        refine ⟨List.mem_of_mem_eraseIdx hx, ?_⟩
        rintro rfl
        obtain ⟨j, hj⟩ := List.mem_iff_getElem?.1 hx
        rw [List.getElem?_eraseIdx] at hj
        split at hj
        · have := (List.nodup_iff_getElem?_ne_getElem?.1 J.2) j i (by assumption) (List.getElem?_eq_some_iff.1 h2).1
          exact this (hj.trans h2.symm)
        · have := (List.nodup_iff_getElem?_ne_getElem?.1 J.2) i (j + 1) (by omega) (List.getElem?_eq_some_iff.1 hj).1
          exact this (h2.trans hj.symm)
      · rintro ⟨hx, hne⟩
        obtain ⟨j, hj⟩ := List.mem_iff_getElem?.1 hx
        have hji : j ≠ i := by
          rintro rfl
          rw [h2] at hj
          exact hne (Option.some.inj hj).symm
        rw [List.mem_iff_getElem?]
        rcases Nat.lt_or_gt_of_ne hji with hlt | hgt
        · exact ⟨j, by rw [List.getElem?_eraseIdx, if_pos hlt, hj]⟩
        · exact ⟨j - 1, by rw [List.getElem?_eraseIdx, if_neg (by omega), show j - 1 + 1 = j by omega, hj]⟩
    · change (c.entries.eraseIdx i).isEmpty = false at h0
      obtain ⟨a, ha⟩ := List.exists_mem_of_ne_nil (c.entries.eraseIdx i) fun y => by rw [y] at h0; cases h0
      exact ⟨a.1, List.mem_map.2 ⟨a, ha, rfl⟩⟩

@[reducible] def hash (hU : HashPanics σ Hi Us) (hp : HashProper σ Hi) : SyncC Us L σ (HashMap Hi T) Hi T Lo V where
  A := SHashA σ N
  dom := hashDom
  up n m c l h := ⟨fun e he => N.up n m e.2 l (h.1 e he), h.2⟩
  create n h t hn ht := by
    show Aud _ (HashMap.createA h t) _
    unfold HashMap.createA
    refine ((Aud.user (hU.clone h) N.user).and fun s h' s' e => hp.clone _ _ _ _ e).bind fun h' hh => ?_
    obtain ⟨-, rfl⟩ := hh
    refine (Aud.user (hU.hashing h') N.user).bind fun _ _ => (Aud.assert ?_).bind fun _ _ =>
      (probe (c := ⟨[(h', t)]⟩) hU hp (by simp) h').bind fun o ho => (Aud.assert fun e => ?_).bind fun _ _ => .ret ⟨⟨?_, ?_⟩, ?_⟩
    · intro e; cases e
    · obtain _ | o := o
      · exact absurd (List.mem_singleton.2 rfl) ho
      · cases e
    · intro e he
      rw [List.mem_singleton.1 he]
      exact ht
    · simp
    · intro x
      simp [hashDom]
  get n c h I J := by
    show Aud _ (HashMap.getA c h) _
    unfold HashMap.getA
    refine (probe hU hp J.2 h).bind fun r hr => .ret ?_
    obtain _ | ⟨i, h', t⟩ := r
    · exact ⟨optOk_none, fun _ => hr⟩
    · obtain ⟨rfl, h0⟩ := hr
      exact ⟨optOk_some.2 (AuditC.hash_at J.1 h0), by rintro ⟨⟩⟩
  getMut n c h I J := by
    show Aud _ (HashMap.getMutA c h) _
    unfold HashMap.getMutA
    refine (probe hU hp J.2 h).bind fun r hr => .ret ?_
    obtain _ | ⟨i, h', t⟩ := r
    · exact ⟨by rintro p ⟨⟩, fun _ => hr⟩
    · obtain ⟨rfl, h0⟩ := hr
      refine ⟨?_, by rintro ⟨⟩⟩
      rintro _ ⟨⟩
      exact ⟨AuditC.hash_at J.1 h0, fun u hu => assign J h0 hu⟩
  insertKey n c h e I J l := by
    show Aud _ (HashMap.insertKeyA c h e) _
    unfold HashMap.insertKeyA
    have J1 : SHashA σ N (n + 1) c := ⟨fun e he => N.up _ _ _ (Nat.le_succ n) (J.1 e he), J.2⟩
    refine (probe hU hp J.2 h).bind fun r hr => ?_
    obtain _ | ⟨i, h', t⟩ := r
    · refine (Aud.user (hU.hashing h) N.user).bind fun _ _ =>
        ((Aud.user (hU.clone h) N.user).and fun s h' s' e => hp.clone _ _ _ _ e).bind fun h' hh =>
          .ret ⟨⟨fun a ha => ?_, List.nodup_cons.2 ⟨hr, J.2⟩⟩, hh.2, hr, fun x => List.mem_cons⟩
      rcases List.mem_cons.1 ha with rfl | ha
      · exact N.up _ _ _ (by omega) (N.fromMonad _ _)
      · exact J1.1 a ha
    · obtain ⟨rfl, h0⟩ := hr
      exact (N.insert n t e.1 e.2 (LW.at (p := Prod.snd) h0 I.1) (AuditC.hash_at J.1 h0) l).bind
        fun r hr => .ret (assign J1 h0 hr)
  removeKey n c h g I J hd hg := by
    show Aud _ (HashMap.removeKeyA c h g) _
    unfold HashMap.removeKeyA
    refine (probe hU hp J.2 h).bind fun r hr => ?_
    obtain _ | ⟨i, h', t⟩ := r
    · exact absurd hd hr
    · obtain ⟨rfl, h0⟩ := hr
      refine (hg t (LW.at (p := Prod.snd) h0 I.1) (AuditC.hash_at J.1 h0)).bind fun r hr => ?_
      obtain ⟨o, x, v⟩ := r
      exact .ite (fun _ => .ret trivial) fun he => .ret (hash_rem J h0 hr he)
  maybeRemoveKey n c h g I J hg := by
    show Aud _ (HashMap.maybeRemoveKeyA c h g) _
    unfold HashMap.maybeRemoveKeyA
    refine (probe hU hp J.2 h).bind fun r hr => ?_
    obtain _ | ⟨i, h', t⟩ := r
    · exact .ret ⟨J, fun _ => Iff.rfl⟩
    · obtain ⟨rfl, h0⟩ := hr
      refine (hg t (LW.at (p := Prod.snd) h0 I.1) (AuditC.hash_at J.1 h0)).bind fun r hr => ?_
      obtain ⟨o, x, v⟩ | t' := r
      · dsimp only
        rw [pure_bind]
        dsimp only
        cases he : (c.replaceAt i h' o).entries.isEmpty
        · exact .ret (hash_rem J h0 hr he)
        · exact .ret trivial
      · dsimp only
        rw [pure_bind]
        dsimp only
        cases he : (c.replaceAt i h' (some t')).entries.isEmpty
        · exact .ret (assign J h0 hr)
        · exfalso
          have h1 : (c.entries.set i (h', t')).length = 0 := by
            rw [show c.entries.set i (h', t') = [] from List.isEmpty_iff.1 he]; rfl
          rw [List.length_set] at h1
          have := (List.getElem?_eq_some_iff.1 h0).1
          omega

end

/-! ## `ByteMap` -/

open ByteMap

/-- the keys -/
def byteDom (c : ByteMap T) (h : Veb.U 8) : Prop := c.set.words.bitAt (ByteSet.nat h) = true

theorem dom_unset (s : ByteSet) {l l' : List T} {h : Veb.U 8} (x : Veb.U 8) :
    byteDom (⟨s.unsetBit h, l'⟩ : ByteMap T) x ↔ byteDom (⟨s, l⟩ : ByteMap T) x ∧ x ≠ h := by
  show (s.unsetBit h).words.bitAt (ByteSet.nat x) = true ↔ s.words.bitAt (ByteSet.nat x) = true ∧ x ≠ h
  rw [ByteSet.bitAt_unsetBit, Bool.and_eq_true, Bool.not_eq_true', decide_eq_false_iff_not]
  exact and_congr_right fun _ => not_congr ⟨fun e => U.ext' e, fun e => by rw [e]⟩

theorem dom_set (s : ByteSet) {l l' : List T} {h : Veb.U 8} (x : Veb.U 8) :
    byteDom (⟨s.setBit h, l'⟩ : ByteMap T) x ↔ x = h ∨ byteDom (⟨s, l⟩ : ByteMap T) x := by
  show (ByteSet.arraySetBit s.words h).bitAt (ByteSet.nat x) = true ↔ x = h ∨ s.words.bitAt (ByteSet.nat x) = true
  rw [ByteSet.bitAt_arraySetBit, Bool.or_eq_true, decide_eq_true_iff, or_comm]
  exact or_congr_left ⟨fun e => U.ext' e, fun e => by rw [e]⟩

theorem byte_ne {c : ByteMap T} (h : c.Inv) : ∃ x, byteDom c x := by
  obtain ⟨k, hk⟩ := ByteSet.inv_iff.1 h.1
  exact ⟨k, ByteSet.mem_abs.1 hk⟩

@[reducible] def byte : SyncC Us L σ (ByteMap T) (Veb.U 8) T Lo V where
  A := AuditC.ByteA σ N
  dom := byteDom
  up n m c l h := ⟨h.1, fun t ht => N.up n m t l (h.2 t ht)⟩
  create n h t hn ht := .ok rfl ⟨⟨(fromMonad_ok h t).1, by intro a ha; rw [List.mem_singleton.1 ha]; exact ht⟩, fun x => by
    show (ByteSet.fromMonad h ()).words.bitAt (ByteSet.nat x) = true ↔ _
    rw [← ByteSet.mem_abs, ByteSet.abs_fromMonad, Map.mem_single]⟩
  get n c h I J := by
    show Aud _ (liftM (Coll.get c h)) _
    by_cases hb : c.set.words.bitAt (ByteSet.nat h) = true
    · obtain ⟨a, h3, h4⟩ := get_ok J.1 hb
      refine .ok (a := some a) ?_ ⟨optOk_some.2 (J.2 a (List.mem_of_getElem? h3)), by rintro ⟨⟩⟩
      simp [Coll.get, ByteSet.isPresent_eq, hb, VecDeque.get, index, countBelow', h3]
    · refine .ok (a := none) ?_ ⟨optOk_none, fun _ => hb⟩
      simp [Coll.get, ByteSet.isPresent_eq, hb]
  getMut n c h I J := by
    show Aud _ (liftM (Coll.getMut c h)) _
    by_cases hb : c.set.words.bitAt (ByteSet.nat h) = true
    · obtain ⟨a, h3, h4, h5⟩ := getMut_ok J.1 hb
      obtain ⟨b, h6, -⟩ := get_ok J.1 hb
      obtain rfl : a = b := by
        have : index c.list (c.set.countBelow h) = .ok b := by rw [countBelow', index, h6]
        rw [this] at h3
        cases h3
        rfl
      refine .ok (a := some (a, fun u => { c with list := c.list.set (cnt c.set.words.bitAt (ByteSet.nat h)) u })) ?_
        ⟨?_, by rintro ⟨⟩⟩
      · simp [Coll.getMut, ByteSet.isPresent_eq, hb, h5]
      · rintro _ ⟨⟩
        exact ⟨J.2 a (List.mem_of_getElem? h6), fun u hu => ⟨⟨(put_ok J.1 hb u).1, AuditC.all_set J.2 hu⟩, fun _ => Iff.rfl⟩⟩
    · refine .ok (a := none) ?_ ⟨by rintro p ⟨⟩, fun _ => hb⟩
      simp [Coll.getMut, ByteSet.isPresent_eq, hb]
  insertKey n c h e I J l := by
    show Aud _ (ByteMap.Coll.insertKeyA c h e) _
    unfold ByteMap.Coll.insertKeyA
    have J1 : ∀ t ∈ c.list, N.A (n + 1) t := fun t ht => N.up _ _ _ (Nat.le_succ n) (J.2 t ht)
    by_cases hb : c.set.words.bitAt (ByteSet.nat h) = true
    · obtain ⟨a, h3, h4, h5⟩ := getMut_ok J.1 hb
      obtain ⟨b, h6, -⟩ := get_ok J.1 hb
      obtain rfl : a = b := by
        have : index c.list (c.set.countBelow h) = .ok b := by rw [countBelow', index, h6]
        rw [this] at h3
        cases h3
        rfl
      have hs : c.set.insert h () = .ok (c.set, some (h, ())) := by
        simp [ByteSet.insert, ByteSet.isPresent_eq, hb]
      dsimp only
      rw [hs, h5]
      refine Aud.bind (Q := fun r => r = (c.set, some (h, ()))) (.ok rfl rfl) ?_
      rintro _ rfl
      refine Aud.bind (Q := fun r => r = (a, _)) (.ok rfl rfl) ?_
      rintro _ rfl
      refine (N.insert n a e.1 e.2 (LW.at (p := id) h6 I) (J.2 a (List.mem_of_getElem? h6)) l).bind
        fun r hr => .ret ⟨⟨(put_ok J.1 hb _).1, AuditC.all_set J1 hr⟩, fun _ => Iff.rfl⟩
    · have hb : c.set.words.bitAt (ByteSet.nat h) = false := by simpa using hb
      have hs : c.set.insert h () = .ok (c.set.setBit h, none) := by
        simp [ByteSet.insert, ByteSet.isPresent_eq, hb]
      rw [hs]
      refine Aud.bind (Q := fun r => r = (c.set.setBit h, none)) (.ok rfl rfl) ?_
      rintro _ rfl
      obtain ⟨h1, h2, h3⟩ := add_ok J.1 hb (ActTree.fromMonad σ e.1 e.2)
      refine Aud.bind (Q := fun r => r = c.list.insertIdx (cnt c.set.words.bitAt (ByteSet.nat h)) (ActTree.fromMonad σ e.1 e.2)) (.ok (a := _) ?_ rfl) ?_
      · rw [VecDeque.insertAt, countBelow', if_pos h1]
      · rintro _ rfl
        refine .ret ⟨⟨h2, fun t ht => ?_⟩, rfl, fun x => ?_, dom_set c.set⟩
        · rcases List.eq_or_mem_of_mem_insertIdx ht with rfl | ht
          · exact N.up _ _ _ (by omega) (N.fromMonad _ _)
          · exact J1 t ht
        · rw [show c.set.words.bitAt (ByteSet.nat h) = true from x] at hb
          cases hb
  removeKey n c h f I J hb hf := by
    show Aud _ (ByteMap.Coll.removeKeyA c h f) _
    unfold ByteMap.Coll.removeKeyA
    rw [set_find]
    refine Aud.bind (Q := fun r => r = _) (.ok rfl rfl) ?_
    rintro _ rfl
    replace hb : c.set.words.bitAt (ByteSet.nat h) = true := hb
    refine (Aud.assert fun e => ?_).bind fun _ hs => ?_
    · rw [if_pos hb] at e
      cases e
    obtain ⟨a, h1, -⟩ := get_ok J.1 hb
    unfold VecDeque.removeKeyA
    rw [countBelow']
    dsimp only
    rw [h1]
    refine Aud.bind (Q := fun r : Option (List T × Bool) × (Lo × V) => ∀ l b, r.1 = some (l, b) →
      (∀ t ∈ l, N.A n t) ∧ (b = true → Inv (⟨c.set.unsetBit h, l⟩ : ByteMap T)) ∧ (b = false → Inv (⟨c.set, l⟩ : ByteMap T))) ?_ ?_
    · refine (hf a (LW.at (p := id) h1 I) (J.2 a (List.mem_of_getElem? h1))).bind fun r hr => ?_
      obtain ⟨_ | t', x, v⟩ := r
      · dsimp only [Option.isNone]
        split
        · exact Aud.bind (Q := fun _ => True) (.ok rfl trivial) fun _ _ => .ret (by rintro l b ⟨⟩)
        · next he =>
          refine .ret ?_
          rintro l b ⟨⟩
          refine ⟨fun t ht => J.2 t (List.mem_of_mem_eraseIdx ht), fun _ => del_ok J.1 hb fun hs => he ?_, by rintro ⟨⟩⟩
          rw [List.isEmpty_iff]
          exact (erase_nil J.1 hb).2 hs
      · dsimp only [Option.isNone]
        split
        · next he => exact absurd (List.isEmpty_iff.1 he) (set_nil J.1 hb t')
        · refine .ret ?_
          rintro l b ⟨⟩
          exact ⟨AuditC.all_set J.2 (hr t' rfl), (by rintro ⟨⟩), fun _ => (put_ok J.1 hb t').1⟩
    · rintro ⟨_ | ⟨l, b⟩, x, v⟩ hr
      · exact .ret trivial
      · obtain ⟨h2, h3, h4⟩ := hr l b rfl
        refine .ite (fun e => ?_) fun e => .ret ?_
        · subst e
          rw [ByteSet.isPresent_eq, hb]
          exact Aud.bind (Q := fun _ => True) (.ok rfl trivial) fun _ _ => .ret
            ⟨⟨h3 rfl, h2⟩, hb, dom_unset c.set, byte_ne (h3 rfl)⟩
        · subst e
          exact ⟨⟨h4 rfl, h2⟩, fun _ => Iff.rfl⟩
  maybeRemoveKey n c h f I J hf := by
    show Aud _ (ByteMap.Coll.maybeRemoveKeyA c h f) _
    unfold ByteMap.Coll.maybeRemoveKeyA
    rw [set_find]
    refine Aud.bind (Q := fun r => r = _) (.ok rfl rfl) ?_
    rintro _ rfl
    refine .ite (fun _ => .ret ⟨J, fun _ => Iff.rfl⟩) fun hs => ?_
    have hb : c.set.words.bitAt (ByteSet.nat h) = true := by
      by_contra x
      rw [if_neg x] at hs
      cases hs
    obtain ⟨a, h1, -⟩ := get_ok J.1 hb
    unfold VecDeque.maybeRemoveKeyA
    rw [countBelow']
    dsimp only
    rw [h1]
    refine Aud.bind (Q := fun r : Result (Option (List T × Bool) × (Lo × V)) (List T) => match r with
      | .Ok r => ∀ l b, r.1 = some (l, b) →
        (∀ t ∈ l, N.A n t) ∧ (b = true → Inv (⟨c.set.unsetBit h, l⟩ : ByteMap T)) ∧ (b = false → Inv (⟨c.set, l⟩ : ByteMap T))
      | .Err l => (∀ t ∈ l, N.A n t) ∧ Inv (⟨c.set, l⟩ : ByteMap T)) ?_ ?_
    · refine (hf a (LW.at (p := id) h1 I) (J.2 a (List.mem_of_getElem? h1))).bind fun r hr => ?_
      obtain ⟨_ | t', x, v⟩ | t' := r
      · dsimp only [Option.isNone]
        split
        · exact Aud.bind (Q := fun _ => True) (.ok rfl trivial) fun _ _ => .ret (by rintro l b ⟨⟩)
        · next he =>
          refine .ret ?_
          rintro l b ⟨⟩
          refine ⟨fun t ht => J.2 t (List.mem_of_mem_eraseIdx ht), fun _ => del_ok J.1 hb fun hs => he ?_, by rintro ⟨⟩⟩
          rw [List.isEmpty_iff]
          exact (erase_nil J.1 hb).2 hs
      · dsimp only [Option.isNone]
        split
        · next he => exact absurd (List.isEmpty_iff.1 he) (set_nil J.1 hb t')
        · refine .ret ?_
          rintro l b ⟨⟩
          exact ⟨AuditC.all_set J.2 (hr t' rfl), (by rintro ⟨⟩), fun _ => (put_ok J.1 hb t').1⟩
      · exact .ret ⟨AuditC.all_set J.2 hr, (put_ok J.1 hb t').1⟩
    · rintro (⟨_ | ⟨l, b⟩, x, v⟩ | l) hr
      · exact .ret trivial
      · obtain ⟨h2, h3, h4⟩ := hr l b rfl
        refine .ite (fun e => ?_) fun e => .ret ?_
        · subst e
          rw [ByteSet.isPresent_eq, hb]
          exact Aud.bind (Q := fun _ => True) (.ok rfl trivial) fun _ _ => .ret
            ⟨⟨h3 rfl, h2⟩, hb, dom_unset c.set, byte_ne (h3 rfl)⟩
        · subst e
          exact ⟨⟨h4 rfl, h2⟩, fun _ => Iff.rfl⟩
      · exact .ret ⟨⟨hr.2, hr.1⟩, fun _ => Iff.rfl⟩

/-! ## Boxes -/

@[reducible] def box {C : Type} [ActColl σ C Hi T Lo V] (Q : KeepsColl σ C Hi T Lo V) (B : SyncC Us L σ C Hi T Lo V) :
    @SyncC Us L σ (Box C) Hi T Lo V _ P N _ (KeepsColl.box Q) :=
  letI := KeepsColl.box Q
  have rem : ∀ {n : Nat} {d : Hi → Prop} {h : Hi} {c : C} {b : Bool}, DomRem (B.A n) B.dom d h (some (c, b)) →
      DomRem (fun c : Box C => B.A n c.val) (fun c => B.dom c.val) d h (some (⟨c⟩, b)) := by
    intro n d h c b hr
    cases b <;> exact hr
  { A := fun n c => B.A n c.val
    dom := fun c => B.dom c.val
    up := fun n m c => B.up n m c.val
    create := fun n h t hn ht => (B.create n h t hn ht).bind fun _ hc => .ret hc
    get := fun n c => B.get n c.val
    getMut := fun n c h I J => (B.getMut n c.val h I J).bind fun o ho => by
      obtain _ | ⟨t, put⟩ := o
      · exact .ret ⟨by rintro p ⟨⟩, fun _ => ho.2 rfl⟩
      · exact .ret ⟨by rintro _ ⟨⟩; exact ho.1 _ rfl, by rintro ⟨⟩⟩
    insertKey := fun n c h e I J l => (B.insertKey n c.val h e I J l).bind fun r hr => .ret hr
    removeKey := fun n c h f I J hd hf => (B.removeKey n c.val h f I J hd hf).bind fun r hr => by
      obtain ⟨_ | ⟨c', b⟩, v⟩ := r
      · exact .ret trivial
      · exact .ret (rem hr)
    maybeRemoveKey := fun n c h f I J hf => (B.maybeRemoveKey n c.val h f I J hf).bind fun r hr => by
      obtain ⟨_ | ⟨c', b⟩, v⟩ | c' := r
      · exact .ret trivial
      · exact .ret (rem hr)
      · exact .ret hr }

end SyncC
end Veb
