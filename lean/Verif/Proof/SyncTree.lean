import Verif.Proof.SyncColl
import Verif.Proof.Honest
import Verif.Proof.Phys

/-!
# Which panics code of the user can provoke: `Tree` when only the keys themselves are treated arbitrarily
-/

set_option autoImplicit false
set_option linter.unusedSectionVars false

namespace Veb

theorem Aud.follows {σ α : Type} {Us E : Panic → Prop} (hE : ∀ p, Us p → E p) {x : Act σ α} {r : R α} {Q : α → Prop}
    (h : Follows Us Q x r) {a : α} (hr : r = .ok a) : Aud E x fun b => b = a ∧ Q b := by
  intro s
  subst hr
  rcases h s with ⟨b, s', h1, h2, h3⟩ | ⟨p, h1, h2⟩
  · cases h1
    rw [h2]
    exact ⟨by rintro b u ⟨⟩; exact ⟨rfl, h3⟩, by rintro p ⟨⟩⟩
  · rw [h1]
    refine ⟨by rintro b u ⟨⟩, ?_⟩
    rintro _ ⟨⟩
    exact hE p (h2.resolve_left (by rintro ⟨⟩))

namespace Sync
section
variable {Us : Panic → Prop} {σ S Hi : Type} [LinearOrder Hi] [ActTree σ S Hi Unit] [VebTree S Hi Unit] (HS : HTree Us σ S Hi Unit)
  (PS : PhysTree S Hi Unit) {E : Panic → Prop}

/-- the summary has the keys in `d` -/
def SumOk (s : S) (d : Hi → Prop) : Prop := HS.W s ∧ PS.W s ∧ (PS.bag s).Nodup ∧ ∀ x, x ∈ PS.bag s ↔ d x

/-- what is left of a summary without `h` -/
def SumRest (d : Hi → Prop) (h : Hi) : Option S → Prop
  | none => ∀ x, d x → x = h
  | some s => SumOk HS PS s fun x => d x ∧ x ≠ h

variable {HS PS}

theorem SumOk.congr {s : S} {d d' : Hi → Prop} (h : SumOk HS PS s d) (i : ∀ x, d' x ↔ d x) : SumOk HS PS s d' :=
  ⟨h.1, h.2.1, h.2.2.1, fun x => (h.2.2.2 x).trans (i x).symm⟩

theorem sum_new (h : Hi) : SumOk HS PS (ActTree.fromMonad σ h () : S) fun x => x = h := by
  rw [(HS.fromMonad h ()).1]
  refine ⟨(HS.fromMonad h ()).2, (PS.fromMonad h ()).1, ?_, fun x => ?_⟩
  · rw [(PS.fromMonad h ()).2]; exact Multiset.nodup_singleton h
  · rw [(PS.fromMonad h ()).2]; exact Multiset.mem_singleton

theorem rest {s : S} {d : Hi → Prop} (J : SumOk HS PS s d) {h : Hi} {o : Option S} (hw : OptOk HS.W o)
    (hr : RestRel PS.W PS.bag (PS.bag s) h o) : SumRest HS PS d h o := by
  obtain ⟨-, -, j3, j4⟩ := J
  cases o with
  | none =>
    intro x hx
    have := (j4 x).2 hx
    rw [show PS.bag s = {h} from hr] at this
    exact Multiset.mem_singleton.1 this
  | some s' =>
    obtain ⟨h1, h2⟩ := hr
    rw [h2] at j3
    obtain ⟨h3, h4⟩ := Multiset.nodup_cons.1 j3
    refine ⟨hw s' rfl, h1, h4, fun x => ?_⟩
    show _ ↔ d x ∧ x ≠ h
    rw [← j4 x, h2, Multiset.mem_cons]
    constructor
    · intro hx
      exact ⟨.inr hx, by rintro rfl; exact h3 hx⟩
    · rintro ⟨hx, hne⟩
      exact hx.resolve_left hne

/-- the largest key -/
theorem sum_max (hE : ∀ p, Us p → E p) {s : S} {d : Hi → Prop} (J : SumOk HS PS s d) : ∃ h, d h ∧
    Aud E (ActTree.maxVal (σ := σ) s) (fun e => e.1 = h) ∧
    Aud E (ActTree.removeMax (σ := σ) s) fun r => SumRest HS PS d h r.1 := by
  obtain ⟨o, h, v, h1, h2, h3⟩ := PS.removeMax s J.2.1
  refine ⟨h, ?_, (Aud.follows hE (HS.maxVal s J.1) h1).mono fun e he => by rw [he.1],
    (Aud.follows hE (HS.removeMax s J.1) h2).mono fun r hr => ?_⟩
  · rw [← J.2.2.2 h]
    cases o with
    | none => rw [show PS.bag s = {h} from h3]; exact Multiset.mem_singleton_self h
    | some s' => rw [h3.2]; exact Multiset.mem_cons_self _ _
  · obtain ⟨rfl, hw⟩ := hr
    exact rest J hw h3

/-- the smallest key -/
theorem sum_min (hE : ∀ p, Us p → E p) {s : S} {d : Hi → Prop} (J : SumOk HS PS s d) : ∃ h, d h ∧
    Aud E (ActTree.minVal (σ := σ) s) (fun e => e.1 = h) ∧
    Aud E (ActTree.removeMin (σ := σ) s) fun r => SumRest HS PS d h r.1 := by
  obtain ⟨o, h, v, h1, h2, h3⟩ := PS.removeMin s J.2.1
  refine ⟨h, ?_, (Aud.follows hE (HS.minVal s J.1) h1).mono fun e he => by rw [he.1],
    (Aud.follows hE (HS.removeMin s J.1) h2).mono fun r hr => ?_⟩
  · rw [← J.2.2.2 h]
    cases o with
    | none => rw [show PS.bag s = {h} from h3]; exact Multiset.mem_singleton_self h
    | some s' => rw [h3.2]; exact Multiset.mem_cons_self _ _
  · obtain ⟨rfl, hw⟩ := hr
    exact rest J hw h3

theorem sum_predecessor (hE : ∀ p, Us p → E p) {s : S} {d : Hi → Prop} (J : SumOk HS PS s d) (h : Hi) :
    Aud E (ActTree.predecessor (σ := σ) s h) fun o => ∀ e, o = some e → d e.1 := by
  obtain ⟨r, h1, h2⟩ := PS.predecessor s h J.2.1
  refine (Aud.follows hE (HS.predecessor s h J.1) h1).mono fun o ho e he => (J.2.2.2 _).1 (h2 e ?_)
  rw [← ho.1, he]

theorem sum_successor (hE : ∀ p, Us p → E p) {s : S} {d : Hi → Prop} (J : SumOk HS PS s d) (h : Hi) :
    Aud E (ActTree.successor (σ := σ) s h) fun o => ∀ e, o = some e → d e.1 := by
  obtain ⟨r, h1, h2⟩ := PS.successor s h J.2.1
  refine (Aud.follows hE (HS.successor s h J.1) h1).mono fun o ho e he => (J.2.2.2 _).1 (h2 e ?_)
  rw [← ho.1, he]

theorem sum_insert (hE : ∀ p, Us p → E p) (hl : ¬ PS.limited) {s : S} {d : Hi → Prop} (J : SumOk HS PS s d) {h : Hi} (hd : ¬ d h) :
    Aud E (ActTree.insert (σ := σ) s h ()) fun r => SumOk HS PS r.1 fun x => x = h ∨ d x := by
  have hn : h ∉ PS.bag s := mt (J.2.2.2 h).1 hd
  obtain ⟨s', o, h1, h2, h3, h4, -⟩ := PS.insert s h () J.2.1 fun x => absurd x hl
  obtain rfl := h4 J.2.2.1 hn
  have h3 : PS.bag s' = h ::ₘ PS.bag s := h3
  refine (Aud.follows hE (HS.insert s h () J.1) h1).mono fun r hr => ?_
  obtain ⟨rfl, hw⟩ := hr
  refine ⟨hw, h2, ?_, fun x => ?_⟩
  · show (PS.bag s').Nodup
    rw [h3]
    exact Multiset.nodup_cons.2 ⟨hn, J.2.2.1⟩
  · show x ∈ PS.bag s' ↔ _
    rw [h3, Multiset.mem_cons, J.2.2.2]

theorem sum_remove (hE : ∀ p, Us p → E p) {s : S} {d : Hi → Prop} (J : SumOk HS PS s d) {h : Hi} (hd : d h) :
    Aud E (ActTree.remove (σ := σ) s h) fun r => ∃ o e, r = .Ok (o, e) ∧ SumRest HS PS d h o := by
  rcases PS.remove s h J.2.1 with ⟨-, h1⟩ | ⟨o, v, h1, h2⟩
  · exact absurd ((J.2.2.2 h).2 hd) h1
  · refine (Aud.follows hE (HS.remove s h J.1) h1).mono fun r hr => ?_
    obtain ⟨rfl, hw⟩ := hr
    exact ⟨o, _, rfl, rest J hw h2⟩
end

variable {Us : Panic → Prop} {L : Prop}
variable {σ K V S C Hi Lo T : Type} [ActKey σ K Hi Lo] [LinearOrder Hi] [ActTree σ S Hi Unit] [VebTree S Hi Unit]
  [HS : HTree Us σ S Hi Unit] [PS : PhysTree S Hi Unit] [ActTree σ T Lo V] [P : Keeps σ T Lo V] [N : Audit Us L σ T Lo V]
  [ActColl σ C Hi T Lo V] [Q : KeepsColl σ C Hi T Lo V] [AC : SyncC Us L σ C Hi T Lo V]

open Tree

/-- summary and children have the same keys -/
def ca (HS : HTree Us σ S Hi Unit) (PS : PhysTree S Hi Unit) (AC : SyncC Us L σ C Hi T Lo V) (n : Nat) (o : Option (S × C)) : Prop :=
  ∀ p, o = some p → SumOk HS PS p.1 (AC.dom p.2) ∧ AC.A n p.2
/-- the invariant -/
def ta (HS : HTree Us σ S Hi Unit) (PS : PhysTree S Hi Unit) (AC : SyncC Us L σ C Hi T Lo V) (n : Nat) (t : Tree K V S C) : Prop :=
  ∀ d, t.data = some d → ca HS PS AC n d.children

/-- what can happen -/
def te (K : Type) [ActKey σ K Hi Lo] (N : Audit Us L σ T Lo V) (p : Panic) : Prop := N.E p ∨ p = .debugAssert ∧ ¬ LeGt σ K

theorem te_us (p : Panic) (h : Us p) : te K N p := .inl (N.user p h)
theorem ca_none {n : Nat} : ca HS PS AC n none := by rintro p ⟨⟩
theorem ca_some {n : Nat} {s : S} {c : C} : ca HS PS AC n (some (s, c)) ↔ SumOk HS PS s (AC.dom c) ∧ AC.A n c :=
  ⟨fun h => h _ rfl, by rintro h p ⟨⟩; exact h⟩
theorem ta_leaf {n : Nat} (m : K × V) : ta HS PS AC n (⟨m, none⟩ : Tree K V S C) := by rintro d ⟨⟩
theorem ta_iff {n : Nat} {m x : K × V} {o : Option (S × C)} :
    ta HS PS AC n (⟨m, some ⟨x, o⟩⟩ : Tree K V S C) ↔ ca HS PS AC n o :=
  ⟨fun h => h _ rfl, by rintro h d ⟨⟩; exact h⟩
theorem ta_full {n : Nat} {m x : K × V} {s : S} {c : C} :
    ta HS PS AC n (⟨m, some ⟨x, some (s, c)⟩⟩ : Tree K V S C) ↔ SumOk HS PS s (AC.dom c) ∧ AC.A n c := ta_iff.trans ca_some

theorem ca_up {n m : Nat} {o : Option (S × C)} (l : n ≤ m) (h : ca HS PS AC n o) : ca HS PS AC m o := fun p e =>
  ⟨(h p e).1, AC.up _ _ _ l (h p e).2⟩

theorem te_user {p : Panic} (h : Us p) : te K N p := .inl (N.user p h)
theorem te_child {p : Panic} (h : N.E p) : te K N p := .inl h
theorem te_none {p : Panic} (h : NoPanics p) : te K N p := h.elim

theorem key_aud {α : Type} {x : Act σ α} (h : Only Us x) : Aud (te K N) x fun _ => True := .user h fun _ => te_user

theorem get_aud {n : Nat} {c : C} {hi : Hi} (I : Q.W c) (J : AC.A n c) :
    Aud (te K N) (ActColl.get (σ := σ) c hi) fun o => (∀ t, o = some t → P.W t ∧ N.A n t) ∧ (o = none → ¬ AC.dom c hi) :=
  (((AC.get n c hi I J).and (Q.get c hi I)).more fun _ => te_child).mono fun _ h =>
    ⟨fun t e => ⟨(h.2 t e).1, h.1.1 t e⟩, h.1.2⟩

theorem getMut_aud {n : Nat} {c : C} {hi : Hi} (I : Q.W c) (J : AC.A n c) :
    Aud (te K N) (ActColl.getMut (σ := σ) c hi) fun o => (∀ p, o = some p → P.W p.1 ∧ N.A n p.1 ∧
      ∀ u, N.A n u → AC.A n (p.2 u) ∧ ∀ x, AC.dom (p.2 u) x ↔ AC.dom c x) ∧ (o = none → ¬ AC.dom c hi) :=
  (((AC.getMut n c hi I J).and (Q.getMut c hi I)).more fun _ => te_child).mono fun _ h =>
    ⟨fun t e => ⟨(h.2 t e).1, h.1.1 t e⟩, h.1.2⟩

theorem muta_min {n : Nat} {t : Tree K V S C} (J : ta HS PS AC n t) : MutA (ta HS PS AC n) (some (t.min.1, t.min.2, t.putMin)) := by
  rintro e ⟨⟩ w
  exact J
theorem muta_max {n : Nat} {m x : K × V} {o : Option (S × C)} (J : ta HS PS AC n (⟨m, some ⟨x, o⟩⟩ : Tree K V S C)) :
    MutA (ta HS PS AC n) (some (x.1, x.2, (⟨m, some ⟨x, o⟩⟩ : Tree K V S C).putMax ⟨x, o⟩)) := by
  rintro e ⟨⟩ w
  exact ta_iff.2 (ta_iff.1 J)
theorem muta_none {n : Nat} : MutA (ta HS PS AC n) (none : Option (K × V × (V → Tree K V S C))) := by rintro e ⟨⟩

theorem aud_far {n : Nat} {c : C} (hk : KeyPanics σ K Us) {f : T → Act σ (Lo × V)} (I : Q.W c) (J : AC.A n c)
    (hf : ∀ t, P.W t → N.A n t → Aud NoPanics (f t) fun _ => True) {hi : Hi} (hd : AC.dom c hi) :
    Aud (te K N) (do
      let child ← expect "child should exist for summary key" (← ActColl.get (σ := σ) c hi)
      let (lo, val) ← f child
      pure (some (← ActKey.join hi lo, val)) : Act σ (Option (K × V))) fun _ => True :=
  (get_aud I J).bind fun _ ho => (Aud.exp fun e => absurd hd (ho.2 e)).bind fun t ht =>
    ((hf t (ho.1 t ht).1 (ho.1 t ht).2).more fun _ => te_none).bind fun _ _ => (key_aud (hk.join _ _)).bind fun _ _ => .ret trivial

theorem aud_far_mut {n : Nat} {m x : K × V} {s : S} {c : C} (hk : KeyPanics σ K Us) {f : T → Act σ (Lo × V × (V → T))}
    (I : Q.W c) (J : ta HS PS AC n (⟨m, some ⟨x, some (s, c)⟩⟩ : Tree K V S C))
    (hf : ∀ t, P.W t → N.A n t → Aud NoPanics (f t) fun r => MutA (N.A n) (some r)) {hi : Hi} (hd : AC.dom c hi) :
    Aud (te K N) (do
      let (child, putC) ← expect "child should exist for summary key" (← ActColl.getMut (σ := σ) c hi)
      let (lo, val, put) ← f child
      pure (some (← ActKey.join hi lo, val, fun w =>
        (⟨m, some ⟨x, some (s, c)⟩⟩ : Tree K V S C).putChildren ⟨x, some (s, c)⟩ s (putC (put w)))) :
        Act σ (Option (K × V × (V → Tree K V S C)))) (MutA (ta HS PS AC n)) := by
  obtain ⟨j1, j3⟩ := ta_full.1 J
  refine (getMut_aud I j3).bind fun o ho => (Aud.exp fun e => absurd hd (ho.2 e)).bind fun p hp => ?_
  obtain ⟨t, putC⟩ := p
  obtain ⟨h1, h2, h3⟩ := ho.1 _ hp
  refine ((hf t h1 h2).more fun _ => te_none).bind fun e he => ?_
  obtain ⟨l, v, put⟩ := e
  refine (key_aud (hk.join _ _)).bind fun k _ => .ret ?_
  rintro e ⟨⟩ w
  exact ta_full.2 ⟨j1.congr (h3 _ (he _ rfl w)).2, (h3 _ (he _ rfl w)).1⟩

theorem aud_near {n : Nat} {c : C} {f : T → Act σ (Option (Lo × V))} (I : Q.W c) (J : AC.A n c)
    (hf : ∀ t, P.W t → N.A n t → Aud N.E (f t) fun _ => True) {hi : Hi} :
    Aud (te K N) (do
      match (← ActColl.get (σ := σ) c hi) with
      | none => pure none
      | some child => f child : Act σ (Option (Lo × V))) fun _ => True := by
  refine (get_aud I J).bind fun o ho => ?_
  obtain _ | t := o
  · exact .ret trivial
  · exact (hf t (ho.1 t rfl).1 (ho.1 t rfl).2).more fun _ => te_child

theorem aud_near_mut {n : Nat} {c : C} {f : T → Act σ (Option (Lo × V × (V → T)))} (I : Q.W c) (J : AC.A n c)
    (hf : ∀ t, P.W t → N.A n t → Aud N.E (f t) (MutA (N.A n))) {hi : Hi} :
    Aud (te K N) (do
      match (← ActColl.getMut (σ := σ) c hi) with
      | none => pure none
      | some (child, putC) => pure ((← f child).map (mapPut putC)) : Act σ (Option (Lo × V × (V → C))))
      fun r => MutA (fun c' => AC.A n c' ∧ ∀ x, AC.dom c' x ↔ AC.dom c x) r := by
  refine (getMut_aud I J).bind fun o ho => ?_
  obtain _ | ⟨t, putC⟩ := o
  · exact .ret (by rintro e ⟨⟩)
  · obtain ⟨h1, h2, h3⟩ := ho.1 _ rfl
    exact ((hf t h1 h2).more fun _ => te_child).bind fun r hr => .ret (Audit.mut_map hr h3)

section
variable (hk : KeyPanics σ K Us)
include hk

theorem aud_find (n : Nat) (t : Tree K V S C) (k : K) (I : tw Q t) (J : ta HS PS AC n t) :
    Aud (te K N) (t.findA (σ := σ) k) fun _ => True := by
  obtain ⟨m, d⟩ := t
  unfold findA
  refine (key_aud (hk.cmp _ _)).bind fun o _ => ?_
  cases o with
  | lt => exact .ret trivial
  | eq => exact .ret trivial
  | gt =>
    obtain _ | ⟨x, o⟩ := d
    · exact .ret trivial
    · refine (key_aud (hk.eq _ _)).bind fun b _ => .ite (fun _ => .ret trivial) fun _ => ?_
      obtain _ | ⟨s, c⟩ := o
      · exact .ret trivial
      · refine .split hk (fun _ => te_user) fun hi lo => (get_aud (of_tw I) (ta_full.1 J).2).bind fun o ho => ?_
        obtain _ | t := o
        · exact .ret trivial
        · refine ((N.find n t lo (ho.1 t rfl).1 (ho.1 t rfl).2).more fun _ => te_child).bind fun r _ => ?_
          obtain _ | ⟨l, v⟩ := r
          · exact .ret trivial
          · exact (key_aud (hk.join _ _)).bind fun _ _ => .ret trivial

theorem aud_findMut (n : Nat) (t : Tree K V S C) (k : K) (I : tw Q t) (J : ta HS PS AC n t) :
    Aud (te K N) (t.findMutA (σ := σ) k) (MutA (ta HS PS AC n)) := by
  obtain ⟨m, d⟩ := t
  unfold findMutA
  refine (key_aud (hk.cmp _ _)).bind fun o _ => ?_
  cases o with
  | lt => exact .ret muta_none
  | eq => exact .ret (muta_min J)
  | gt =>
    obtain _ | ⟨x, o⟩ := d
    · exact .ret muta_none
    · refine (key_aud (hk.eq _ _)).bind fun b _ => .ite (fun _ => .ret (muta_max J)) fun _ => ?_
      obtain _ | ⟨s, c⟩ := o
      · exact .ret muta_none
      · obtain ⟨j1, j3⟩ := ta_full.1 J
        refine .split hk (fun _ => te_user) fun hi lo => (getMut_aud (of_tw I) j3).bind fun o ho => ?_
        obtain _ | ⟨t, putC⟩ := o
        · exact .ret muta_none
        · obtain ⟨h1, h2, h3⟩ := ho.1 _ rfl
          refine ((N.findMut n t lo h1 h2).more fun _ => te_child).bind fun r hr => ?_
          obtain _ | ⟨l, v, put⟩ := r
          · exact .ret muta_none
          · refine (key_aud (hk.join _ _)).bind fun _ _ => .ret ?_
            rintro e ⟨⟩ w
            exact ta_full.2 ⟨j1.congr (h3 _ (hr _ rfl w)).2, (h3 _ (hr _ rfl w)).1⟩

theorem aud_predecessor (n : Nat) (t : Tree K V S C) (k : K) (I : tw Q t) (J : ta HS PS AC n t) :
    Aud (te K N) (t.predecessorA (σ := σ) k) fun _ => True := by
  obtain ⟨m, d⟩ := t
  unfold predecessorA
  refine (key_aud (hk.le _ _)).bind fun b _ => .ite (fun _ => .ret trivial) fun _ => ?_
  obtain _ | ⟨x, o⟩ := d
  · exact .ret trivial
  · refine (key_aud (hk.cmp _ _)).bind fun b _ => ?_
    obtain _ | ⟨s, c⟩ := o
    · cases b <;> exact .ret trivial
    · obtain ⟨j1, j3⟩ := ta_full.1 J
      cases b with
      | gt => exact .ret trivial
      | eq =>
        obtain ⟨h, hd, h1, -⟩ := sum_max (te_us (K := K) (N := N)) j1
        exact h1.bind fun e he => aud_far hk (of_tw I) j3 (N.maxVal n) (by rw [he]; exact hd)
      | lt =>
        refine .split hk (fun _ => te_user) fun hi lo =>
          (aud_near (of_tw I) j3 fun t => N.predecessor n t lo).bind fun r _ => ?_
        obtain _ | ⟨l, v⟩ := r
        · refine (sum_predecessor te_us j1 hi).bind fun o ho => ?_
          obtain _ | ⟨h', u⟩ := o
          · exact .ret trivial
          · exact aud_far hk (of_tw I) j3 (N.maxVal n) (ho _ rfl)
        · exact (key_aud (hk.join _ _)).bind fun _ _ => .ret trivial

theorem aud_predecessorMut (n : Nat) (t : Tree K V S C) (k : K) (I : tw Q t) (J : ta HS PS AC n t) :
    Aud (te K N) (t.predecessorMutA (σ := σ) k) (MutA (ta HS PS AC n)) := by
  obtain ⟨m, d⟩ := t
  unfold predecessorMutA
  refine ((key_aud (hk.le _ _)).and (Q' := fun b => ∃ u u', ActKey.le k m.1 u = .ok (b, u')) fun u b u' e =>
    ⟨u, u', e⟩).bind fun b hb => .ite (fun _ => .ret muta_none) fun hf => ?_
  have hle := hb.2
  rw [hf] at hle
  obtain _ | ⟨x, o⟩ := d
  · exact .ret (muta_min J)
  · refine (key_aud (hk.cmp _ _)).bind fun b _ => ?_
    obtain _ | ⟨s, c⟩ := o
    · cases b
      · exact .ret (muta_min J)
      · exact .ret (muta_min J)
      · exact .ret (muta_max J)
    · obtain ⟨j1, j3⟩ := ta_full.1 J
      cases b with
      | gt => exact .ret (muta_max J)
      | eq =>
        obtain ⟨h, hd, h1, -⟩ := sum_max (te_us (K := K) (N := N)) j1
        refine ((key_aud (hk.gt _ _)).and (Q' := fun b => ∃ u u', ActKey.gt k m.1 u = .ok (b, u')) fun u b u' e =>
          ⟨u, u', e⟩).bind fun b hb => (Aud.assert fun e => .inr ⟨rfl, fun x => ?_⟩).bind fun _ _ =>
          h1.bind fun e he => aud_far_mut hk (of_tw I) J (N.maxValMut n) (by rw [he]; exact hd)
        obtain ⟨-, u, u', h2⟩ := hb
        obtain ⟨v, v', h3⟩ := hle
        rw [x _ _ _ _ _ _ _ h3 h2] at e
        cases e
      | lt =>
        refine .split hk (fun _ => te_user) fun hi lo =>
          (aud_near_mut (of_tw I) j3 fun t => N.predecessorMut n t lo).bind fun r hr => ?_
        obtain _ | ⟨l, v, put⟩ := r
        · refine (sum_predecessor te_us j1 hi).bind fun o ho => ?_
          obtain _ | ⟨h', u⟩ := o
          · exact .ret (muta_min J)
          · exact aud_far_mut hk (of_tw I) J (N.maxValMut n) (ho _ rfl)
        · refine (key_aud (hk.join _ _)).bind fun _ _ => .ret ?_
          rintro e ⟨⟩ w
          exact ta_full.2 ⟨j1.congr (hr _ rfl w).2, (hr _ rfl w).1⟩

theorem aud_successor (n : Nat) (t : Tree K V S C) (k : K) (I : tw Q t) (J : ta HS PS AC n t) :
    Aud (te K N) (t.successorA (σ := σ) k) fun _ => True := by
  obtain ⟨m, d⟩ := t
  unfold successorA
  refine (key_aud (hk.lt _ _)).bind fun b _ => .ite (fun _ => .ret trivial) fun _ => ?_
  obtain _ | ⟨x, o⟩ := d
  · exact .ret trivial
  · refine (key_aud (hk.ge _ _)).bind fun b _ => .ite (fun _ => .ret trivial) fun _ => ?_
    obtain _ | ⟨s, c⟩ := o
    · exact .ret trivial
    · obtain ⟨j1, j3⟩ := ta_full.1 J
      refine (key_aud (hk.eq _ _)).bind fun b _ => .ite (fun _ => ?_) fun _ => ?_
      · obtain ⟨h, hd, h1, -⟩ := sum_min (te_us (K := K) (N := N)) j1
        exact h1.bind fun e he => aud_far hk (of_tw I) j3 (N.minVal n) (by rw [he]; exact hd)
      · refine .split hk (fun _ => te_user) fun hi lo =>
          (aud_near (of_tw I) j3 fun t => N.successor n t lo).bind fun r _ => ?_
        obtain _ | ⟨l, v⟩ := r
        · refine (sum_successor te_us j1 hi).bind fun o ho => ?_
          obtain _ | ⟨h', u⟩ := o
          · exact .ret trivial
          · exact aud_far hk (of_tw I) j3 (N.minVal n) (ho _ rfl)
        · exact (key_aud (hk.join _ _)).bind fun _ _ => .ret trivial

theorem aud_successorMut (n : Nat) (t : Tree K V S C) (k : K) (I : tw Q t) (J : ta HS PS AC n t) :
    Aud (te K N) (t.successorMutA (σ := σ) k) (MutA (ta HS PS AC n)) := by
  obtain ⟨m, d⟩ := t
  unfold successorMutA
  refine (key_aud (hk.lt _ _)).bind fun b _ => .ite (fun _ => .ret (muta_min J)) fun _ => ?_
  obtain _ | ⟨x, o⟩ := d
  · exact .ret muta_none
  · refine (key_aud (hk.ge _ _)).bind fun b _ => .ite (fun _ => .ret muta_none) fun _ => ?_
    obtain _ | ⟨s, c⟩ := o
    · exact .ret (muta_max J)
    · obtain ⟨j1, j3⟩ := ta_full.1 J
      refine (key_aud (hk.eq _ _)).bind fun b _ => .ite (fun _ => ?_) fun _ => ?_
      · obtain ⟨h, hd, h1, -⟩ := sum_min (te_us (K := K) (N := N)) j1
        exact h1.bind fun e he => aud_far_mut hk (of_tw I) J (N.minValMut n) (by rw [he]; exact hd)
      · refine .split hk (fun _ => te_user) fun hi lo =>
          (aud_near_mut (of_tw I) j3 fun t => N.successorMut n t lo).bind fun r hr => ?_
        obtain _ | ⟨l, v, put⟩ := r
        · refine (sum_successor te_us j1 hi).bind fun o ho => ?_
          obtain _ | ⟨h', u⟩ := o
          · exact .ret (muta_max J)
          · exact aud_far_mut hk (of_tw I) J (N.minValMut n) (ho _ rfl)
        · refine (key_aud (hk.join _ _)).bind fun _ _ => .ret ?_
          rintro e ⟨⟩ w
          exact ta_full.2 ⟨j1.congr (hr _ rfl w).2, (hr _ rfl w).1⟩

theorem aud_below (hl : ¬ PS.limited) {n : Nat} {m x : K × V} {o : Option (S × C)} {k : K} {v : V} (I : cw Q o)
    (J : ca HS PS AC n o) (l : L → n < usizeMax) :
    Aud (te K N) (insertBelowA (σ := σ) m ⟨x, o⟩ k v) fun r => ta HS PS AC (n + 1) r.1 := by
  unfold insertBelowA
  refine (key_aud (hk.splitVal _)).bind fun p _ => ?_
  obtain ⟨hi, lo⟩ := p
  obtain _ | ⟨s, c⟩ := o
  · refine ((AC.create (n + 1) hi _ (by omega) (N.up _ _ _ (by omega) (N.fromMonad lo v))).more fun _ => te_child).bind
      fun c' hc => .ret (ta_full.2 ⟨(sum_new hi).congr hc.2, hc.1⟩)
  · obtain ⟨j1, j3⟩ := ca_some.1 J
    refine ((AC.insertKey n c hi (lo, v) (I _ rfl) j3 l).more fun _ => te_child).bind fun r hr => ?_
    obtain ⟨c', h' | ⟨h', _ | ⟨l, u⟩⟩⟩ := r
    · obtain ⟨h1, rfl, h2, h3⟩ := hr
      exact (sum_insert te_us hl j1 h2).bind fun s' hs => .ret (ta_full.2 ⟨hs.congr h3, h1⟩)
    · exact .ret (ta_full.2 ⟨j1.congr hr.2, hr.1⟩)
    · exact (key_aud (hk.join _ _)).bind fun _ _ => .ret (ta_full.2 ⟨j1.congr hr.2, hr.1⟩)

theorem aud_insert (hl : ¬ PS.limited) (n : Nat) (t : Tree K V S C) (k : K) (v : V) (I : tw Q t) (J : ta HS PS AC n t) (l : L → n < usizeMax) :
    Aud (te K N) (t.insertA (σ := σ) k v) fun r => ta HS PS AC (n + 1) r.1 := by
  obtain ⟨m, d⟩ := t
  unfold insertA
  refine (key_aud (hk.cmp _ _)).bind fun q _ => ?_
  obtain _ | ⟨x, o⟩ := d
  · cases q
    · exact .ret (ta_iff.2 ca_none)
    · exact .ret (ta_leaf _)
    · exact .ret (ta_iff.2 ca_none)
  · have J1 : ca HS PS AC (n + 1) o := ca_up (Nat.le_succ n) (ta_iff.1 J)
    cases q with
    | lt =>
      refine (key_aud (hk.cmp _ _)).bind fun q _ => ?_
      cases q
      · exact aud_below hk hl (I _ rfl) (ta_iff.1 J) l
      · exact .ret (ta_iff.2 J1)
      · exact aud_below hk hl (I _ rfl) (ta_iff.1 J) l
    | eq => exact .ret (ta_iff.2 J1)
    | gt =>
      refine (key_aud (hk.cmp _ _)).bind fun q _ => ?_
      cases q
      · exact aud_below hk hl (I _ rfl) (ta_iff.1 J) l
      · exact .ret (ta_iff.2 J1)
      · exact aud_below hk hl (I _ rfl) (ta_iff.1 J) l

omit hk in
/-- the summary after a removal in the collection -/
theorem after {n : Nat} {c c' : C} {h : Hi} {α : Type} {x : Act σ α} {f : α → Option S}
    {m : String} (hr : DomRem (AC.A n) AC.dom (AC.dom c) h (some (c', true)))
    (hx : Aud (te K N) x fun r => SumRest HS PS (AC.dom c) h (f r)) :
    Aud (te K N) (do
      let summary ← expect m (f (← x))
      pure (some (summary, c')) : Act σ (Option (S × C))) (ca HS PS AC n) := by
  obtain ⟨h1, h2, h3, y, hy⟩ := hr
  refine hx.bind fun r hs => (Aud.exp fun e => ?_).bind fun s' e => .ret (ca_some.2 ⟨?_, h1⟩)
  · rw [e] at hs
    exact absurd (hs y ((h3 y).1 hy).1) ((h3 y).1 hy).2
  · rw [e] at hs
    exact SumOk.congr hs h3

theorem aud_removeMin (n : Nat) (t : Tree K V S C) (I : tw Q t) (J : ta HS PS AC n t) :
    Aud (te K N) (t.removeMinA (σ := σ)) fun r => OptOk (ta HS PS AC n) r.1 := by
  obtain ⟨m, _ | ⟨x, _ | ⟨s, c⟩⟩⟩ := t
  · exact .ret optOk_none
  · exact .ret (optOk_some.2 (ta_leaf _))
  · unfold removeMinA
    obtain ⟨j1, j3⟩ := ta_full.1 J
    obtain ⟨h, hd, h1, h2⟩ := sum_min (te_us (K := K) (N := N)) j1
    refine h1.bind fun e he => ?_
    obtain ⟨hi, u⟩ := e
    obtain rfl : hi = h := he
    refine ((AC.removeKey n c hi _ (of_tw I) j3 hd fun t h1 h2 => N.removeMin n t h1 h2).more
      fun _ => te_child).bind fun r hr => ?_
    obtain ⟨o, lo, v⟩ := r
    refine (key_aud (hk.join _ _)).bind fun k _ => Aud.bind (Q := ca HS PS AC n) ?_ fun o ho =>
      .ret (optOk_some.2 (ta_iff.2 ho))
    obtain _ | ⟨c', _ | _⟩ := o
    · exact .ret ca_none
    · exact .ret (ca_some.2 ⟨j1.congr hr.2, hr.1⟩)
    · exact after hr h2

theorem aud_takeMax {n : Nat} {s : S} {c : C} (I : Q.W c) (J : ca HS PS AC n (some (s, c))) {α : Type}
    {g : K → V → Option (S × C) → α} {R : α → Prop} (hg : ∀ k v o, ca HS PS AC n o → R (g k v o)) :
    Aud (te K N) (do
      let (hi, ()) ← ActTree.maxVal (σ := σ) s
      let (children, (lo, val)) ← ActColl.removeKey c hi ActTree.removeMax
      let newMax := (← ActKey.join (K := K) hi lo, val)
      let children ← (match children with
        | none => pure none
        | some (children, false) => pure (some (s, children))
        | some (children, true) => do
          let summary ← expect "summary should have remaining elements after removal"
            (← ActTree.removeMax s).1
          pure (some (summary, children)) : Act σ (Option (S × C)))
      pure (g newMax.1 newMax.2 children)) R := by
  obtain ⟨j1, j3⟩ := ca_some.1 J
  obtain ⟨h, hd, h1, h2⟩ := sum_max (te_us (K := K) (N := N)) j1
  refine h1.bind fun e he => ?_
  obtain ⟨hi, u⟩ := e
  obtain rfl : hi = h := he
  refine ((AC.removeKey n c hi _ I j3 hd fun t h1 h2 => N.removeMax n t h1 h2).more
    fun _ => te_child).bind fun r hr => ?_
  obtain ⟨o, lo, v⟩ := r
  refine (key_aud (hk.join _ _)).bind fun k _ => Aud.bind (Q := ca HS PS AC n) ?_ fun o ho => .ret (hg _ _ _ ho)
  obtain _ | ⟨c', _ | _⟩ := o
  · exact .ret ca_none
  · exact .ret (ca_some.2 ⟨j1.congr hr.2, hr.1⟩)
  · exact after hr h2

theorem aud_removeMax (n : Nat) (t : Tree K V S C) (I : tw Q t) (J : ta HS PS AC n t) :
    Aud (te K N) (t.removeMaxA (σ := σ)) fun r => OptOk (ta HS PS AC n) r.1 := by
  obtain ⟨m, _ | ⟨x, _ | ⟨s, c⟩⟩⟩ := t
  · exact .ret optOk_none
  · exact .ret (optOk_some.2 (ta_leaf _))
  · unfold removeMaxA
    exact aud_takeMax hk (of_tw I) (ta_iff.1 J) (g := fun k v o => (some (⟨m, some ⟨(k, v), o⟩⟩ : Tree K V S C), x))
      fun k v o ho => optOk_some.2 (ta_iff.2 ho)

theorem aud_remove (n : Nat) (t : Tree K V S C) (k : K) (I : tw Q t) (J : ta HS PS AC n t) :
    Aud (te K N) (t.removeA (σ := σ) k) (MaybeA (ta HS PS AC n)) := by
  unfold removeA
  refine (key_aud (hk.eq _ _)).bind fun b _ => .ite (fun _ => (aud_removeMin hk n t I J).bind fun r hr => .ret hr) fun _ => ?_
  obtain ⟨m, _ | ⟨x, _ | ⟨s, c⟩⟩⟩ := t
  · exact .ret J
  · exact (key_aud (hk.eq _ _)).bind fun b _ => .ite (fun _ => .ret (optOk_some.2 (ta_leaf _))) fun _ => .ret J
  · refine (key_aud (hk.eq _ _)).bind fun b _ => .ite (fun _ => ?_) fun _ => ?_
    · exact aud_takeMax hk (of_tw I) (ta_iff.1 J)
        (g := fun k v o => Result.Ok (some (⟨m, some ⟨(k, v), o⟩⟩ : Tree K V S C), x))
        fun k v o ho => optOk_some.2 (ta_iff.2 ho)
    · obtain ⟨j1, j3⟩ := ta_full.1 J
      refine .split hk (fun _ => te_user) fun hi lo => ((AC.maybeRemoveKey n c hi _ (of_tw I) j3 fun t h1 h2 =>
        N.remove n t lo h1 h2).more fun _ => te_child).bind fun r hr => ?_
      obtain ⟨_ | ⟨c', _ | _⟩, l, v⟩ | c' := r
      · exact (key_aud (hk.join _ _)).bind fun k _ => .ret (optOk_some.2 (ta_iff.2 ca_none))
      · exact (key_aud (hk.join _ _)).bind fun k _ => .ret (optOk_some.2 (ta_full.2 ⟨j1.congr hr.2, hr.1⟩))
      · obtain ⟨g1, g2, g3, y, hy⟩ := hr
        refine (sum_remove te_us j1 g2).bind fun r hs => ?_
        obtain ⟨o, e, rfl, hs⟩ := hs
        refine Aud.bind (Q := fun r => r = (o, e)) (.ret rfl) ?_
        rintro _ rfl
        refine (Aud.exp fun z => ?_).bind fun s' z => (key_aud (hk.join _ _)).bind fun k _ =>
          .ret (optOk_some.2 (ta_full.2 ⟨?_, g1⟩))
        · change o = none at z
          rw [z] at hs
          exact absurd (hs y ((g3 y).1 hy).1) ((g3 y).1 hy).2
        · change o = some s' at z
          rw [z] at hs
          exact SumOk.congr hs g3
      · exact .ret (ta_full.2 ⟨j1.congr hr.2, hr.1⟩)

end

theorem tv_card (t : Tree K V S C) : 1 ≤ (tv Q t).card := by
  obtain ⟨m, _ | ⟨x, o⟩⟩ := t
  · exact le_rfl
  · show 1 ≤ (m.2 ::ₘ x.2 ::ₘ cv Q o).card
    simp

@[reducible] def audit (hl : ¬ PS.limited) (hk : KeyPanics σ K Us) : Audit Us L σ (Tree K V S C) K V where
  A := ta HS PS AC
  E := te K N
  user _ := te_user
  up n m t l h d hd := ca_up l (h d hd)
  pos t _ := tv_card t
  monadOk t _ h := by
    obtain ⟨m, _ | ⟨x, o⟩⟩ := t
    · exact tok_leaf _
    · exact absurd (card_tv.2 h) (by simp)
  fromMonad k v := ta_leaf _
  isMonad n t _ _ := .ret trivial
  lenHint n t _ _ := by
    obtain ⟨m, _ | ⟨x, o⟩⟩ := t
    · exact .ret trivial
    · exact .ret trivial
  intoMonad n t _ J := by
    obtain ⟨m, _ | ⟨x, o⟩⟩ := t
    · exact .ret (by rintro u ⟨⟩)
    · exact .ret (by rintro u ⟨⟩; exact J)
  minVal n t _ _ := .ret trivial
  minValMut n t _ J := .ret (muta_min J)
  maxVal n t _ _ := by
    obtain ⟨m, _ | ⟨x, o⟩⟩ := t
    · exact .ret trivial
    · exact .ret trivial
  maxValMut n t _ J := by
    obtain ⟨m, _ | ⟨x, o⟩⟩ := t
    · exact .ret (muta_min J)
    · exact .ret (muta_max J)
  find := aud_find hk
  findMut := aud_findMut hk
  predecessor := aud_predecessor hk
  predecessorMut := aud_predecessorMut hk
  successor := aud_successor hk
  successorMut := aud_successorMut hk
  insert := aud_insert hk hl
  remove := aud_remove hk
  removeMin := aud_removeMin hk
  removeMax := aud_removeMax hk

end Sync
end Veb
