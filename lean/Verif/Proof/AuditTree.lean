import Verif.Proof.AuditColl

/-!
# Which panics code of the user can provoke: `Tree`
-/

set_option autoImplicit false
set_option linter.unusedSectionVars false

namespace Veb
namespace Tree
variable {Us : Panic → Prop} {L : Prop}
variable {σ K V S C Hi Lo T : Type} [ActKey σ K Hi Lo] [ActTree σ S Hi Unit] [PS : Keeps σ S Hi Unit]
  [AS : Audit Us L σ S Hi Unit] [ActTree σ T Lo V] [P : Keeps σ T Lo V] [N : Audit Us L σ T Lo V]
  [ActColl σ C Hi T Lo V] [Q : KeepsColl σ C Hi T Lo V] [AC : AuditC Us L σ C Hi T Lo V]

/-- summary and children are good -/
def ca (AS : Audit Us L σ S Hi Unit) (AC : AuditC Us L σ C Hi T Lo V) (n : Nat) (o : Option (S × C)) : Prop :=
  ∀ p, o = some p → PS.W p.1 ∧ AS.A n p.1 ∧ AC.A n p.2
/-- the invariant -/
def ta (AS : Audit Us L σ S Hi Unit) (AC : AuditC Us L σ C Hi T Lo V) (n : Nat) (t : Tree K V S C) : Prop :=
  ∀ d, t.data = some d → ca AS AC n d.children

/-- what can happen -/
def te (AS : Audit Us L σ S Hi Unit) (AC : AuditC Us L σ C Hi T Lo V) (p : Panic) : Prop :=
  AS.E p ∨ AC.E p ∨ TreePanics p

theorem ca_none {n : Nat} : ca AS AC n none := by rintro p ⟨⟩
theorem ca_some {n : Nat} {s : S} {c : C} : ca AS AC n (some (s, c)) ↔ PS.W s ∧ AS.A n s ∧ AC.A n c :=
  ⟨fun h => h _ rfl, by rintro h p ⟨⟩; exact h⟩
theorem ta_leaf {n : Nat} (m : K × V) : ta AS AC n (⟨m, none⟩ : Tree K V S C) := by rintro d ⟨⟩
theorem ta_iff {n : Nat} {m x : K × V} {o : Option (S × C)} : ta AS AC n (⟨m, some ⟨x, o⟩⟩ : Tree K V S C) ↔ ca AS AC n o :=
  ⟨fun h => h _ rfl, by rintro h d ⟨⟩; exact h⟩
theorem ta_full {n : Nat} {m x : K × V} {s : S} {c : C} :
    ta AS AC n (⟨m, some ⟨x, some (s, c)⟩⟩ : Tree K V S C) ↔ PS.W s ∧ AS.A n s ∧ AC.A n c := ta_iff.trans ca_some

theorem ca_up {n m : Nat} {o : Option (S × C)} (l : n ≤ m) (h : ca AS AC n o) : ca AS AC m o := fun p e =>
  ⟨(h p e).1, AS.up _ _ _ l (h p e).2.1, AC.up _ _ _ l (h p e).2.2⟩

theorem te_user {p : Panic} (h : Us p) : te AS AC p := .inl (AS.user p h)
theorem te_child {p : Panic} (h : N.E p) : te AS AC p := .inr (.inl (AC.tree p h))
theorem te_none {p : Panic} (h : NoPanics p) : te AS AC p := h.elim
theorem te_gone : te AS AC (.expect "child should exist for summary key") := .inr (.inr (.inl rfl))
theorem te_rest : te AS AC (.expect "summary should have remaining elements after removal") := .inr (.inr (.inr (.inl rfl)))

theorem key_aud {α : Type} {x : Act σ α} (h : Only Us x) : Aud (te AS AC) x fun _ => True := .user h fun _ => te_user

theorem get_aud {n : Nat} {c : C} {hi : Hi} (I : Q.W c) (J : AC.A n c) :
    Aud (te AS AC) (ActColl.get (σ := σ) c hi) fun o => ∀ t, o = some t → P.W t ∧ N.A n t :=
  (((AC.get n c hi I J).and (Q.get c hi I)).more fun _ h => .inr (.inl h)).mono fun _ h t e => ⟨(h.2 t e).1, h.1 t e⟩

theorem getMut_aud {n : Nat} {c : C} {hi : Hi} (I : Q.W c) (J : AC.A n c) :
    Aud (te AS AC) (ActColl.getMut (σ := σ) c hi) fun o => ∀ p, o = some p → P.W p.1 ∧ N.A n p.1 ∧
      ∀ u, N.A n u → AC.A n (p.2 u) :=
  (((AC.getMut n c hi I J).and (Q.getMut c hi I)).more fun _ h => .inr (.inl h)).mono fun _ h t e => ⟨(h.2 t e).1, h.1 t e⟩

theorem muta_min {n : Nat} {t : Tree K V S C} (J : ta AS AC n t) : MutA (ta AS AC n) (some (t.min.1, t.min.2, t.putMin)) := by
  rintro e ⟨⟩ w
  exact J
theorem muta_max {n : Nat} {m x : K × V} {o : Option (S × C)} (J : ta AS AC n (⟨m, some ⟨x, o⟩⟩ : Tree K V S C)) :
    MutA (ta AS AC n) (some (x.1, x.2, (⟨m, some ⟨x, o⟩⟩ : Tree K V S C).putMax ⟨x, o⟩)) := by
  rintro e ⟨⟩ w
  exact ta_iff.2 (ta_iff.1 J)
theorem muta_none {n : Nat} : MutA (ta AS AC n) (none : Option (K × V × (V → Tree K V S C))) := by rintro e ⟨⟩

theorem aud_far {n : Nat} {c : C} (hk : KeyPanics σ K Us) {f : T → Act σ (Lo × V)} (I : Q.W c) (J : AC.A n c)
    (hf : ∀ t, P.W t → N.A n t → Aud NoPanics (f t) fun _ => True) {hi : Hi} :
    Aud (te AS AC) (do
      let child ← expect "child should exist for summary key" (← ActColl.get (σ := σ) c hi)
      let (lo, val) ← f child
      pure (some (← ActKey.join hi lo, val)) : Act σ (Option (K × V))) fun _ => True :=
  (get_aud I J).bind fun _ ho => (Aud.exp fun _ => te_gone).bind fun t ht =>
    ((hf t (ho t ht).1 (ho t ht).2).more fun _ => te_none).bind fun _ _ => (key_aud (hk.join _ _)).bind fun _ _ => .ret trivial

theorem aud_far_mut {n : Nat} {m x : K × V} {s : S} {c : C} (hk : KeyPanics σ K Us) {f : T → Act σ (Lo × V × (V → T))}
    (I : Q.W c) (J : ta AS AC n (⟨m, some ⟨x, some (s, c)⟩⟩ : Tree K V S C))
    (hf : ∀ t, P.W t → N.A n t → Aud NoPanics (f t) fun r => MutA (N.A n) (some r)) {hi : Hi} :
    Aud (te AS AC) (do
      let (child, putC) ← expect "child should exist for summary key" (← ActColl.getMut (σ := σ) c hi)
      let (lo, val, put) ← f child
      pure (some (← ActKey.join hi lo, val, fun w =>
        (⟨m, some ⟨x, some (s, c)⟩⟩ : Tree K V S C).putChildren ⟨x, some (s, c)⟩ s (putC (put w)))) :
        Act σ (Option (K × V × (V → Tree K V S C)))) (MutA (ta AS AC n)) := by
  obtain ⟨j1, j2, j3⟩ := ta_full.1 J
  refine (getMut_aud I j3).bind fun o ho => (Aud.exp fun _ => te_gone).bind fun p hp => ?_
  obtain ⟨t, putC⟩ := p
  obtain ⟨h1, h2, h3⟩ := ho _ hp
  refine ((hf t h1 h2).more fun _ => te_none).bind fun e he => ?_
  obtain ⟨l, v, put⟩ := e
  refine (key_aud (hk.join _ _)).bind fun k _ => .ret ?_
  rintro e ⟨⟩ w
  exact ta_full.2 ⟨j1, j2, h3 _ (he _ rfl w)⟩

theorem aud_near {n : Nat} {c : C} {f : T → Act σ (Option (Lo × V))} (I : Q.W c) (J : AC.A n c)
    (hf : ∀ t, P.W t → N.A n t → Aud N.E (f t) fun _ => True) {hi : Hi} :
    Aud (te AS AC) (do
      match (← ActColl.get (σ := σ) c hi) with
      | none => pure none
      | some child => f child : Act σ (Option (Lo × V))) fun _ => True := by
  refine (get_aud I J).bind fun o ho => ?_
  obtain _ | t := o
  · exact .ret trivial
  · exact (hf t (ho t rfl).1 (ho t rfl).2).more fun _ => te_child

theorem aud_near_mut {n : Nat} {c : C} {f : T → Act σ (Option (Lo × V × (V → T)))} (I : Q.W c) (J : AC.A n c)
    (hf : ∀ t, P.W t → N.A n t → Aud N.E (f t) (MutA (N.A n))) {hi : Hi} :
    Aud (te AS AC) (do
      match (← ActColl.getMut (σ := σ) c hi) with
      | none => pure none
      | some (child, putC) => pure ((← f child).map (mapPut putC)) : Act σ (Option (Lo × V × (V → C))))
      fun r => MutA (AC.A n) r := by
  refine (getMut_aud I J).bind fun o ho => ?_
  obtain _ | ⟨t, putC⟩ := o
  · exact .ret (by rintro e ⟨⟩)
  · obtain ⟨h1, h2, h3⟩ := ho _ rfl
    exact ((hf t h1 h2).more fun _ => te_child).bind fun r hr => .ret (Audit.mut_map hr h3)

section
variable (hk : KeyPanics σ K Us)
include hk

theorem aud_find (n : Nat) (t : Tree K V S C) (k : K) (I : tw Q t) (J : ta AS AC n t) :
    Aud (te AS AC) (t.findA (σ := σ) k) fun _ => True := by
  obtain ⟨m, d⟩ := t
  unfold findA
  refine (key_aud (hk.cmp _ _)).bind fun o _ => ?_
  cases o with
  | lt => exact .ret trivial
  | eq => exact .ret trivial
  | gt =>
    obtain _ | ⟨x, o⟩ := d
    · exact .ret trivial
    · refine (key_aud (hk.eq _ _)).bind fun b _ => .ite (fun _ => .ret trivial) fun _ => ?_
      obtain _ | ⟨s, c⟩ := o
      · exact .ret trivial
      · refine .split hk (fun _ => te_user) fun hi lo => (get_aud (of_tw I) (ta_full.1 J).2.2).bind fun o ho => ?_
        obtain _ | t := o
        · exact .ret trivial
        · refine ((N.find n t lo (ho t rfl).1 (ho t rfl).2).more fun _ => te_child).bind fun r _ => ?_
          obtain _ | ⟨l, v⟩ := r
          · exact .ret trivial
          · exact (key_aud (hk.join _ _)).bind fun _ _ => .ret trivial

theorem aud_findMut (n : Nat) (t : Tree K V S C) (k : K) (I : tw Q t) (J : ta AS AC n t) :
    Aud (te AS AC) (t.findMutA (σ := σ) k) (MutA (ta AS AC n)) := by
  obtain ⟨m, d⟩ := t
  unfold findMutA
  refine (key_aud (hk.cmp _ _)).bind fun o _ => ?_
  cases o with
  | lt => exact .ret muta_none
  | eq => exact .ret (muta_min J)
  | gt =>
    obtain _ | ⟨x, o⟩ := d
    · exact .ret muta_none
    · refine (key_aud (hk.eq _ _)).bind fun b _ => .ite (fun _ => .ret (muta_max J)) fun _ => ?_
      obtain _ | ⟨s, c⟩ := o
      · exact .ret muta_none
      · obtain ⟨j1, j2, j3⟩ := ta_full.1 J
        refine .split hk (fun _ => te_user) fun hi lo => (getMut_aud (of_tw I) j3).bind fun o ho => ?_
        obtain _ | ⟨t, putC⟩ := o
        · exact .ret muta_none
        · obtain ⟨h1, h2, h3⟩ := ho _ rfl
          refine ((N.findMut n t lo h1 h2).more fun _ => te_child).bind fun r hr => ?_
          obtain _ | ⟨l, v, put⟩ := r
          · exact .ret muta_none
          · refine (key_aud (hk.join _ _)).bind fun _ _ => .ret ?_
            rintro e ⟨⟩ w
            exact ta_full.2 ⟨j1, j2, h3 _ (hr _ rfl w)⟩

theorem aud_predecessor (n : Nat) (t : Tree K V S C) (k : K) (I : tw Q t) (J : ta AS AC n t) :
    Aud (te AS AC) (t.predecessorA (σ := σ) k) fun _ => True := by
  obtain ⟨m, d⟩ := t
  unfold predecessorA
  refine (key_aud (hk.le _ _)).bind fun b _ => .ite (fun _ => .ret trivial) fun _ => ?_
  obtain _ | ⟨x, o⟩ := d
  · exact .ret trivial
  · refine (key_aud (hk.cmp _ _)).bind fun b _ => ?_
    obtain _ | ⟨s, c⟩ := o
    · cases b <;> exact .ret trivial
    · obtain ⟨j1, j2, j3⟩ := ta_full.1 J
      cases b with
      | gt => exact .ret trivial
      | eq =>
        exact ((AS.maxVal n s j1 j2).more fun _ => te_none).bind fun e _ =>
          aud_far hk (of_tw I) j3 (N.maxVal n)
      | lt =>
        refine .split hk (fun _ => te_user) fun hi lo =>
          (aud_near (of_tw I) j3 fun t => N.predecessor n t lo).bind fun r _ => ?_
        obtain _ | ⟨l, v⟩ := r
        · refine ((AS.predecessor n s hi j1 j2).more fun _ => .inl).bind fun o _ => ?_
          obtain _ | ⟨h', -⟩ := o
          · exact .ret trivial
          · exact aud_far hk (of_tw I) j3 (N.maxVal n)
        · exact (key_aud (hk.join _ _)).bind fun _ _ => .ret trivial

theorem aud_predecessorMut (n : Nat) (t : Tree K V S C) (k : K) (I : tw Q t) (J : ta AS AC n t) :
    Aud (te AS AC) (t.predecessorMutA (σ := σ) k) (MutA (ta AS AC n)) := by
  obtain ⟨m, d⟩ := t
  unfold predecessorMutA
  refine (key_aud (hk.le _ _)).bind fun b _ => .ite (fun _ => .ret muta_none) fun _ => ?_
  obtain _ | ⟨x, o⟩ := d
  · exact .ret (muta_min J)
  · refine (key_aud (hk.cmp _ _)).bind fun b _ => ?_
    obtain _ | ⟨s, c⟩ := o
    · cases b
      · exact .ret (muta_min J)
      · exact .ret (muta_min J)
      · exact .ret (muta_max J)
    · obtain ⟨j1, j2, j3⟩ := ta_full.1 J
      cases b with
      | gt => exact .ret (muta_max J)
      | eq =>
        exact (key_aud (hk.gt _ _)).bind fun b _ => (Aud.assert fun _ => .inr (.inr (.inr (.inr (.inr rfl))))).bind fun _ _ =>
          ((AS.maxVal n s j1 j2).more fun _ => te_none).bind fun e _ => aud_far_mut hk (of_tw I) J (N.maxValMut n)
      | lt =>
        refine .split hk (fun _ => te_user) fun hi lo =>
          (aud_near_mut (of_tw I) j3 fun t => N.predecessorMut n t lo).bind fun r hr => ?_
        obtain _ | ⟨l, v, put⟩ := r
        · refine ((AS.predecessor n s hi j1 j2).more fun _ => .inl).bind fun o _ => ?_
          obtain _ | ⟨h', -⟩ := o
          · exact .ret (muta_min J)
          · exact aud_far_mut hk (of_tw I) J (N.maxValMut n)
        · refine (key_aud (hk.join _ _)).bind fun _ _ => .ret ?_
          rintro e ⟨⟩ w
          exact ta_full.2 ⟨j1, j2, hr _ rfl w⟩

theorem aud_successor (n : Nat) (t : Tree K V S C) (k : K) (I : tw Q t) (J : ta AS AC n t) :
    Aud (te AS AC) (t.successorA (σ := σ) k) fun _ => True := by
  obtain ⟨m, d⟩ := t
  unfold successorA
  refine (key_aud (hk.lt _ _)).bind fun b _ => .ite (fun _ => .ret trivial) fun _ => ?_
  obtain _ | ⟨x, o⟩ := d
  · exact .ret trivial
  · refine (key_aud (hk.ge _ _)).bind fun b _ => .ite (fun _ => .ret trivial) fun _ => ?_
    obtain _ | ⟨s, c⟩ := o
    · exact .ret trivial
    · obtain ⟨j1, j2, j3⟩ := ta_full.1 J
      refine (key_aud (hk.eq _ _)).bind fun b _ => .ite (fun _ => ?_) fun _ => ?_
      · exact ((AS.minVal n s j1 j2).more fun _ => te_none).bind fun e _ =>
          aud_far hk (of_tw I) j3 (N.minVal n)
      · refine .split hk (fun _ => te_user) fun hi lo =>
          (aud_near (of_tw I) j3 fun t => N.successor n t lo).bind fun r _ => ?_
        obtain _ | ⟨l, v⟩ := r
        · refine ((AS.successor n s hi j1 j2).more fun _ => .inl).bind fun o _ => ?_
          obtain _ | ⟨h', -⟩ := o
          · exact .ret trivial
          · exact aud_far hk (of_tw I) j3 (N.minVal n)
        · exact (key_aud (hk.join _ _)).bind fun _ _ => .ret trivial

theorem aud_successorMut (n : Nat) (t : Tree K V S C) (k : K) (I : tw Q t) (J : ta AS AC n t) :
    Aud (te AS AC) (t.successorMutA (σ := σ) k) (MutA (ta AS AC n)) := by
  obtain ⟨m, d⟩ := t
  unfold successorMutA
  refine (key_aud (hk.lt _ _)).bind fun b _ => .ite (fun _ => .ret (muta_min J)) fun _ => ?_
  obtain _ | ⟨x, o⟩ := d
  · exact .ret muta_none
  · refine (key_aud (hk.ge _ _)).bind fun b _ => .ite (fun _ => .ret muta_none) fun _ => ?_
    obtain _ | ⟨s, c⟩ := o
    · exact .ret (muta_max J)
    · obtain ⟨j1, j2, j3⟩ := ta_full.1 J
      refine (key_aud (hk.eq _ _)).bind fun b _ => .ite (fun _ => ?_) fun _ => ?_
      · exact ((AS.minVal n s j1 j2).more fun _ => te_none).bind fun e _ => aud_far_mut hk (of_tw I) J (N.minValMut n)
      · refine .split hk (fun _ => te_user) fun hi lo =>
          (aud_near_mut (of_tw I) j3 fun t => N.successorMut n t lo).bind fun r hr => ?_
        obtain _ | ⟨l, v, put⟩ := r
        · refine ((AS.successor n s hi j1 j2).more fun _ => .inl).bind fun o _ => ?_
          obtain _ | ⟨h', -⟩ := o
          · exact .ret (muta_max J)
          · exact aud_far_mut hk (of_tw I) J (N.minValMut n)
        · refine (key_aud (hk.join _ _)).bind fun _ _ => .ret ?_
          rintro e ⟨⟩ w
          exact ta_full.2 ⟨j1, j2, hr _ rfl w⟩

theorem aud_below {n : Nat} {m x : K × V} {o : Option (S × C)} {k : K} {v : V} (I : cw Q o) (J : ca AS AC n o)
    (l : L → n < usizeMax) :
    Aud (te AS AC) (insertBelowA (σ := σ) m ⟨x, o⟩ k v) fun r => ta AS AC (n + 1) r.1 := by
  unfold insertBelowA
  refine (key_aud (hk.splitVal _)).bind fun p _ => ?_
  obtain ⟨hi, lo⟩ := p
  obtain _ | ⟨s, c⟩ := o
  · refine ((AC.create (n + 1) hi _ (by omega) (N.up _ _ _ (by omega) (N.fromMonad lo v))).more fun _ h => .inr (.inl h)).bind
      fun c' hc => .ret (ta_full.2 ⟨(PS.fromMonad _ _).1, AS.up _ _ _ (by omega) (AS.fromMonad _ _), hc⟩)
  · obtain ⟨j1, j2, j3⟩ := ca_some.1 J
    refine ((AC.insertKey n c hi (lo, v) (I _ rfl) j3 l).more fun _ h => .inr (.inl h)).bind fun r hr => ?_
    have j2' := AS.up _ _ _ (Nat.le_succ n) j2
    obtain ⟨c', h' | ⟨h', _ | ⟨l, u⟩⟩⟩ := r
    · exact (((AS.insert n s h' () j1 j2 l).and (PS.insert s h' () j1)).more fun _ => .inl).bind fun s' hs =>
        .ret (ta_full.2 ⟨hs.2.1, hs.1, hr⟩)
    · exact .ret (ta_full.2 ⟨j1, j2', hr⟩)
    · exact (key_aud (hk.join _ _)).bind fun _ _ => .ret (ta_full.2 ⟨j1, j2', hr⟩)

theorem aud_insert (n : Nat) (t : Tree K V S C) (k : K) (v : V) (I : tw Q t) (J : ta AS AC n t) (l : L → n < usizeMax) :
    Aud (te AS AC) (t.insertA (σ := σ) k v) fun r => ta AS AC (n + 1) r.1 := by
  obtain ⟨m, d⟩ := t
  unfold insertA
  refine (key_aud (hk.cmp _ _)).bind fun q _ => ?_
  obtain _ | ⟨x, o⟩ := d
  · cases q
    · exact .ret (ta_iff.2 ca_none)
    · exact .ret (ta_leaf _)
    · exact .ret (ta_iff.2 ca_none)
  · have J1 : ca AS AC (n + 1) o := ca_up (Nat.le_succ n) (ta_iff.1 J)
    cases q with
    | lt =>
      refine (key_aud (hk.cmp _ _)).bind fun q _ => ?_
      cases q
      · exact aud_below hk (I _ rfl) (ta_iff.1 J) l
      · exact .ret (ta_iff.2 J1)
      · exact aud_below hk (I _ rfl) (ta_iff.1 J) l
    | eq => exact .ret (ta_iff.2 J1)
    | gt =>
      refine (key_aud (hk.cmp _ _)).bind fun q _ => ?_
      cases q
      · exact aud_below hk (I _ rfl) (ta_iff.1 J) l
      · exact .ret (ta_iff.2 J1)
      · exact aud_below hk (I _ rfl) (ta_iff.1 J) l

theorem aud_removeMin (n : Nat) (t : Tree K V S C) (I : tw Q t) (J : ta AS AC n t) :
    Aud (te AS AC) (t.removeMinA (σ := σ)) fun r => OptOk (ta AS AC n) r.1 := by
  obtain ⟨m, _ | ⟨x, _ | ⟨s, c⟩⟩⟩ := t
  · exact .ret optOk_none
  · exact .ret (optOk_some.2 (ta_leaf _))
  · unfold removeMinA
    obtain ⟨j1, j2, j3⟩ := ta_full.1 J
    refine ((AS.minVal n s j1 j2).more fun _ => te_none).bind fun e _ => ?_
    obtain ⟨hi, -⟩ := e
    refine ((AC.removeKey n c hi _ (of_tw I) j3 fun t h1 h2 => (N.removeMin n t h1 h2).more AC.tree).more
      fun _ h => .inr (.inl h)).bind fun r hr => ?_
    obtain ⟨o, lo, v⟩ := r
    refine (key_aud (hk.join _ _)).bind fun k _ => Aud.bind (Q := ca AS AC n) ?_ fun o ho =>
      .ret (optOk_some.2 (ta_iff.2 ho))
    obtain _ | ⟨c', _ | _⟩ := o
    · exact .ret ca_none
    · exact .ret (ca_some.2 ⟨j1, j2, hr _ rfl⟩)
    · exact (((AS.removeMin n s j1 j2).and (PS.removeMin s j1)).more fun _ => .inl).bind fun r hs =>
        (Aud.exp fun _ => te_rest).bind fun s' e => .ret (ca_some.2 ⟨hs.2.1 _ e, hs.1 _ e, hr _ rfl⟩)

theorem aud_takeMax {n : Nat} {s : S} {c : C} (I : Q.W c) (J : ca AS AC n (some (s, c))) {α : Type}
    {g : K → V → Option (S × C) → α} {R : α → Prop} (hg : ∀ k v o, ca AS AC n o → R (g k v o)) :
    Aud (te AS AC) (do
      let (hi, ()) ← ActTree.maxVal (σ := σ) s
      let (children, (lo, val)) ← ActColl.removeKey c hi ActTree.removeMax
      let newMax := (← ActKey.join (K := K) hi lo, val)
      let children ← (match children with
        | none => pure none
        | some (children, false) => pure (some (s, children))
        | some (children, true) => do
          let summary ← expect "summary should have remaining elements after removal"
            (← ActTree.removeMax s).1
          pure (some (summary, children)) : Act σ (Option (S × C)))
      pure (g newMax.1 newMax.2 children)) R := by
  obtain ⟨j1, j2, j3⟩ := ca_some.1 J
  refine ((AS.maxVal n s j1 j2).more fun _ => te_none).bind fun e _ => ?_
  obtain ⟨hi, -⟩ := e
  refine ((AC.removeKey n c hi _ I j3 fun t h1 h2 => (N.removeMax n t h1 h2).more AC.tree).more
    fun _ h => .inr (.inl h)).bind fun r hr => ?_
  obtain ⟨o, lo, v⟩ := r
  refine (key_aud (hk.join _ _)).bind fun k _ => Aud.bind (Q := ca AS AC n) ?_ fun o ho => .ret (hg _ _ _ ho)
  obtain _ | ⟨c', _ | _⟩ := o
  · exact .ret ca_none
  · exact .ret (ca_some.2 ⟨j1, j2, hr _ rfl⟩)
  · exact (((AS.removeMax n s j1 j2).and (PS.removeMax s j1)).more fun _ => .inl).bind fun r hs =>
      (Aud.exp fun _ => te_rest).bind fun s' e => .ret (ca_some.2 ⟨hs.2.1 _ e, hs.1 _ e, hr _ rfl⟩)

theorem aud_removeMax (n : Nat) (t : Tree K V S C) (I : tw Q t) (J : ta AS AC n t) :
    Aud (te AS AC) (t.removeMaxA (σ := σ)) fun r => OptOk (ta AS AC n) r.1 := by
  obtain ⟨m, _ | ⟨x, _ | ⟨s, c⟩⟩⟩ := t
  · exact .ret optOk_none
  · exact .ret (optOk_some.2 (ta_leaf _))
  · unfold removeMaxA
    exact aud_takeMax hk (of_tw I) (ta_iff.1 J) (g := fun k v o => (some (⟨m, some ⟨(k, v), o⟩⟩ : Tree K V S C), x))
      fun k v o ho => optOk_some.2 (ta_iff.2 ho)

theorem aud_remove (n : Nat) (t : Tree K V S C) (k : K) (I : tw Q t) (J : ta AS AC n t) :
    Aud (te AS AC) (t.removeA (σ := σ) k) (MaybeA (ta AS AC n)) := by
  unfold removeA
  refine (key_aud (hk.eq _ _)).bind fun b _ => .ite (fun _ => (aud_removeMin hk n t I J).bind fun r hr => .ret hr) fun _ => ?_
  obtain ⟨m, _ | ⟨x, _ | ⟨s, c⟩⟩⟩ := t
  · exact .ret J
  · exact (key_aud (hk.eq _ _)).bind fun b _ => .ite (fun _ => .ret (optOk_some.2 (ta_leaf _))) fun _ => .ret J
  · refine (key_aud (hk.eq _ _)).bind fun b _ => .ite (fun _ => ?_) fun _ => ?_
    · exact aud_takeMax hk (of_tw I) (ta_iff.1 J)
        (g := fun k v o => Result.Ok (some (⟨m, some ⟨(k, v), o⟩⟩ : Tree K V S C), x))
        fun k v o ho => optOk_some.2 (ta_iff.2 ho)
    · obtain ⟨j1, j2, j3⟩ := ta_full.1 J
      refine .split hk (fun _ => te_user) fun hi lo => ((AC.maybeRemoveKey n c hi _ (of_tw I) j3 fun t h1 h2 =>
        (N.remove n t lo h1 h2).more AC.tree).more fun _ h => .inr (.inl h)).bind fun r hr => ?_
      obtain ⟨_ | ⟨c', _ | _⟩, l, v⟩ | c' := r
      · exact (key_aud (hk.join _ _)).bind fun k _ => .ret (optOk_some.2 (ta_iff.2 ca_none))
      · exact (key_aud (hk.join _ _)).bind fun k _ => .ret (optOk_some.2 (ta_full.2 ⟨j1, j2, hr _ rfl⟩))
      · refine (((AS.remove n s hi j1 j2).and (PS.remove s hi j1)).more fun _ => .inl).bind fun r hs => ?_
        obtain ⟨o, e⟩ | s' := r
        · refine Aud.bind (Q := fun r => r = (o, e)) (.ret rfl) ?_
          rintro _ rfl
          exact (Aud.exp fun _ => te_rest).bind fun s' e => (key_aud (hk.join _ _)).bind fun k _ =>
            .ret (optOk_some.2 (ta_full.2 ⟨hs.2.1 _ e, hs.1 _ e, hr _ rfl⟩))
        · exact Aud.bind (Q := fun _ => False) (.fail (.inr (.inr (.inr (.inr (.inl rfl)))))) fun _ h => h.elim
      · exact .ret (ta_full.2 ⟨j1, j2, hr⟩)

end

theorem tv_pos (t : Tree K V S C) : 1 ≤ (tv Q t).card := by
  obtain ⟨m, _ | ⟨x, o⟩⟩ := t
  · exact le_rfl
  · show 1 ≤ (m.2 ::ₘ x.2 ::ₘ cv Q o).card
    simp

@[reducible] def audit (hk : KeyPanics σ K Us) : Audit Us L σ (Tree K V S C) K V where
  A := ta AS AC
  E := te AS AC
  user _ := te_user
  up n m t l h d hd := ca_up l (h d hd)
  pos t _ := tv_pos t
  monadOk t _ h := by
    obtain ⟨m, _ | ⟨x, o⟩⟩ := t
    · exact tok_leaf _
    · exact absurd (card_tv.2 h) (by simp)
  fromMonad k v := ta_leaf _
  isMonad n t _ _ := .ret trivial
  lenHint n t _ _ := by
    obtain ⟨m, _ | ⟨x, o⟩⟩ := t
    · exact .ret trivial
    · exact .ret trivial
  intoMonad n t _ J := by
    obtain ⟨m, _ | ⟨x, o⟩⟩ := t
    · exact .ret (by rintro u ⟨⟩)
    · exact .ret (by rintro u ⟨⟩; exact J)
  minVal n t _ _ := .ret trivial
  minValMut n t _ J := .ret (muta_min J)
  maxVal n t _ _ := by
    obtain ⟨m, _ | ⟨x, o⟩⟩ := t
    · exact .ret trivial
    · exact .ret trivial
  maxValMut n t _ J := by
    obtain ⟨m, _ | ⟨x, o⟩⟩ := t
    · exact .ret (muta_min J)
    · exact .ret (muta_max J)
  find := aud_find hk
  findMut := aud_findMut hk
  predecessor := aud_predecessor hk
  predecessorMut := aud_predecessorMut hk
  successor := aud_successor hk
  successorMut := aud_successorMut hk
  insert := aud_insert hk
  remove := aud_remove hk
  removeMin := aud_removeMin hk
  removeMax := aud_removeMax hk

end Tree
end Veb
