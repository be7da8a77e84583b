import Verif.Proof.Act

/-!
# Values in a `Tree`, whatever the code of the user does

The summary is never asked for more than some high half; nothing has to be known about it.
-/

set_option autoImplicit false
set_option linter.unusedSectionVars false

namespace Veb
namespace Tree
variable {σ K V S C Hi Lo T : Type} [ActKey σ K Hi Lo] [ActTree σ S Hi Unit] [ActTree σ T Lo V] [P : Keeps σ T Lo V]
  [ActColl σ C Hi T Lo V] [Q : KeepsColl σ C Hi T Lo V]

/-- the values of the children -/
def cv (Q : KeepsColl σ C Hi T Lo V) : Option (S × C) → Multiset V
  | none => 0
  | some p => Q.vals p.2
/-- all values -/
def tv (Q : KeepsColl σ C Hi T Lo V) : Tree K V S C → Multiset V
  | ⟨m, none⟩ => {m.2}
  | ⟨m, some d⟩ => m.2 ::ₘ d.max.2 ::ₘ cv Q d.children
/-- the children are good -/
def cw (Q : KeepsColl σ C Hi T Lo V) (o : Option (S × C)) : Prop := ∀ p, o = some p → Q.W p.2
/-- the invariant -/
def tw (Q : KeepsColl σ C Hi T Lo V) (t : Tree K V S C) : Prop := ∀ d, t.data = some d → cw Q d.children

/-- nothing got lost in the children -/
def co (Q : KeepsColl σ C Hi T Lo V) (o : Option (S × C)) : Prop := ∀ p, o = some p → Q.ok p.2
/-- nothing got lost -/
def tok (Q : KeepsColl σ C Hi T Lo V) (t : Tree K V S C) : Prop := ∀ d, t.data = some d → co Q d.children

theorem tok_leaf (m : K × V) : tok Q (⟨m, none⟩ : Tree K V S C) := by rintro d ⟨⟩
theorem tok_iff {m x : K × V} {o : Option (S × C)} : tok Q (⟨m, some ⟨x, o⟩⟩ : Tree K V S C) ↔ co Q o :=
  ⟨fun h => h _ rfl, by rintro h d ⟨⟩; exact h⟩
theorem co_none : co Q (none : Option (S × C)) := by rintro p ⟨⟩
theorem co_some {s : S} {c : C} : co Q (some (s, c)) ↔ Q.ok c := ⟨fun h => h _ rfl, by rintro h p ⟨⟩; exact h⟩

theorem tw_leaf (m : K × V) : tw Q (⟨m, none⟩ : Tree K V S C) := by rintro d ⟨⟩
theorem tw_pair (m x : K × V) : tw Q (⟨m, some ⟨x, none⟩⟩ : Tree K V S C) := by rintro d ⟨⟩ p ⟨⟩
theorem tw_full {m x : K × V} {s : S} {c : C} (h : Q.W c) : tw Q (⟨m, some ⟨x, some (s, c)⟩⟩ : Tree K V S C) := by
  rintro d ⟨⟩ p ⟨⟩; exact h
theorem tw_of {m x : K × V} {o : Option (S × C)} (h : cw Q o) : tw Q (⟨m, some ⟨x, o⟩⟩ : Tree K V S C) := by
  rintro d ⟨⟩; exact h
theorem of_tw {m x : K × V} {s : S} {c : C} (h : tw Q (⟨m, some ⟨x, some (s, c)⟩⟩ : Tree K V S C)) : Q.W c :=
  h _ rfl _ rfl

/-- read a value of a child -/
theorem mem_full {m x : K × V} {s : S} {c : C} {b : Multiset V} {v : V} (h : b ≤ Q.vals c) (hv : v ∈ b) :
    v ∈ tv Q (⟨m, some ⟨x, some (s, c)⟩⟩ : Tree K V S C) :=
  Multiset.mem_cons_of_mem (Multiset.mem_cons_of_mem (Multiset.mem_of_le h hv))

theorem min_mem_tv (t : Tree K V S C) : t.min.2 ∈ tv Q t := by
  obtain ⟨m, _ | ⟨x, o⟩⟩ := t
  · exact Multiset.mem_singleton_self _
  · exact Multiset.mem_cons_self _ _
theorem max_mem_tv {m x : K × V} {o : Option (S × C)} : x.2 ∈ tv Q (⟨m, some ⟨x, o⟩⟩ : Tree K V S C) :=
  Multiset.mem_cons_of_mem (Multiset.mem_cons_self _ _)

theorem mut_min {t : Tree K V S C} (I : tw Q t) : MutV (tok Q) (tw Q) (tv Q) t (some (t.min.1, t.min.2, t.putMin)) := by
  obtain ⟨m, _ | ⟨x, o⟩⟩ := t
  · exact ⟨0, rfl, fun _ => ⟨tw_leaf _, rfl, fun _ => tok_leaf _⟩⟩
  · exact ⟨x.2 ::ₘ cv Q o, rfl, fun w => ⟨I, rfl, fun x => tok_iff.2 (tok_iff.1 x)⟩⟩
theorem mut_max {m x : K × V} {o : Option (S × C)} (I : tw Q (⟨m, some ⟨x, o⟩⟩ : Tree K V S C)) :
    MutV (tok Q) (tw Q) (tv Q) (⟨m, some ⟨x, o⟩⟩ : Tree K V S C) (some (x.1, x.2, (⟨m, some ⟨x, o⟩⟩ : Tree K V S C).putMax ⟨x, o⟩)) :=
  ⟨m.2 ::ₘ cv Q o, Multiset.cons_swap _ _ _, fun _ => ⟨tw_of (I _ rfl), Multiset.cons_swap _ _ _, fun x => tok_iff.2 (tok_iff.1 x)⟩⟩

/-- write through a child -/
theorem mut_child {m x : K × V} {s : S} {c : C} {k : K} {l : Lo} {v : V} {put : V → T} {p : T × (T → C)}
    (hp : P.W p.1 ∧ ∃ r, Q.vals c = P.vals p.1 + r ∧ ∀ u, P.W u → Q.W (p.2 u) ∧ Q.vals (p.2 u) = P.vals u + r ∧
      ((P.ok u → P.ok p.1) → Q.ok (p.2 u) → Q.ok c))
    (h : MutV P.ok P.W P.vals p.1 (some (l, v, put))) :
    MutV (tok Q) (tw Q) (tv Q) (⟨m, some ⟨x, some (s, c)⟩⟩ : Tree K V S C)
      (some (k, v, fun w => (⟨m, some ⟨x, some (s, c)⟩⟩ : Tree K V S C).putChildren ⟨x, some (s, c)⟩ s (p.2 (put w)))) := by
  obtain ⟨-, r, h1, h2⟩ := hp
  obtain ⟨q, h3, h4⟩ := h
  refine ⟨m.2 ::ₘ x.2 ::ₘ (q + r), ?_, fun w => ⟨tw_full (h2 _ (h4 w).1).1, ?_, fun x =>
    tok_iff.2 (co_some.2 ((h2 _ (h4 w).1).2.2 (h4 w).2.2 (co_some.1 (tok_iff.1 x))))⟩⟩
  · show m.2 ::ₘ x.2 ::ₘ Q.vals c = _
    rw [h1, h3]
    simp only [← Multiset.singleton_add]
    abel
  · show m.2 ::ₘ x.2 ::ₘ Q.vals (p.2 (put w)) = _
    rw [(h2 _ (h4 w).1).2.1, (h4 w).2.1]
    simp only [← Multiset.singleton_add]
    abel

/-- the value of a child found through the summary, at an end of that child -/
theorem post_far {m x : K × V} {s : S} {c : C} {f : T → Act σ (Lo × V)} (I : Q.W c)
    (hf : ∀ t, P.W t → Post (f t) fun e => e.2 ∈ P.vals t) {hi : Hi} {msg : String} {g : Lo → Act σ K} :
    Post (do
      let child ← expect msg (← ActColl.get (σ := σ) c hi)
      let (lo, val) ← f child
      pure (some (← g lo, val)) : Act σ (Option (K × V)))
      fun r => ∀ e, r = some e → e.2 ∈ tv Q (⟨m, some ⟨x, some (s, c)⟩⟩ : Tree K V S C) := by
  refine (Q.get c hi I).bind fun o ho => Post.exp.bind fun t ht => (hf t (ho t ht).1).bind fun e he => .then_ fun k =>
    .ret ?_
  rintro _ ⟨⟩
  exact mem_full (ho t ht).2 he

/-- … the same, to be written -/
theorem post_far_mut {m x : K × V} {s : S} {c : C} {f : T → Act σ (Lo × V × (V → T))} (I : Q.W c)
    (hf : ∀ t, P.W t → Post (f t) fun e => MutV P.ok P.W P.vals t (some e)) {hi : Hi} {msg : String} {g : Lo → Act σ K} :
    Post (do
      let (child, putC) ← expect msg (← ActColl.getMut (σ := σ) c hi)
      let (lo, val, put) ← f child
      pure (some (← g lo, val, fun w =>
        (⟨m, some ⟨x, some (s, c)⟩⟩ : Tree K V S C).putChildren ⟨x, some (s, c)⟩ s (putC (put w)))) :
        Act σ (Option (K × V × (V → Tree K V S C))))
      (MutV (tok Q) (tw Q) (tv Q) (⟨m, some ⟨x, some (s, c)⟩⟩ : Tree K V S C)) := by
  refine (Q.getMut c hi I).bind fun o ho => Post.exp.bind fun p hp => ?_
  obtain ⟨t, putC⟩ := p
  refine (hf t (ho _ hp).1).bind fun e he => ?_
  obtain ⟨l, v, put⟩ := e
  exact .then_ fun k => .ret (mut_child (ho _ hp) he)

/-- an entry of a child -/
theorem post_near {m x : K × V} {s : S} {c : C} {f : T → Act σ (Option (Lo × V))} (I : Q.W c)
    (hf : ∀ t, P.W t → Post (f t) fun r => ∀ e, r = some e → e.2 ∈ P.vals t) {hi : Hi} :
    Post (do
      match (← ActColl.get (σ := σ) c hi) with
      | none => pure none
      | some child => f child : Act σ (Option (Lo × V)))
      fun r => ∀ e, r = some e → e.2 ∈ tv Q (⟨m, some ⟨x, some (s, c)⟩⟩ : Tree K V S C) := by
  refine (Q.get c hi I).bind fun o ho => ?_
  obtain _ | t := o
  · exact .ret (by simp)
  · exact (hf t (ho t rfl).1).mono fun r hr e he => mem_full (ho t rfl).2 (hr e he)

/-- … to be written -/
theorem post_near_mut {m x : K × V} {s : S} {c : C} {f : T → Act σ (Option (Lo × V × (V → T)))} (I : Q.W c)
    (hf : ∀ t, P.W t → Post (f t) (MutV P.ok P.W P.vals t)) {hi : Hi} :
    Post (do
      match (← ActColl.getMut (σ := σ) c hi) with
      | none => pure none
      | some (child, putC) => pure ((← f child).map (mapPut putC)) : Act σ (Option (Lo × V × (V → C))))
      fun r => ∀ e, r = some e → ∀ k : K, MutV (tok Q) (tw Q) (tv Q) (⟨m, some ⟨x, some (s, c)⟩⟩ : Tree K V S C)
        (some (k, e.2.1, fun w =>
          (⟨m, some ⟨x, some (s, c)⟩⟩ : Tree K V S C).putChildren ⟨x, some (s, c)⟩ s (e.2.2 w))) := by
  refine (Q.getMut c hi I).bind fun o ho => ?_
  obtain _ | ⟨t, putC⟩ := o
  · exact .ret (by simp)
  · refine (hf t (ho _ rfl).1).bind fun r hr => .ret ?_
    obtain _ | ⟨l, v, put⟩ := r
    · rintro e ⟨⟩
    · rintro e ⟨⟩ k
      exact mut_child (ho _ rfl) hr

theorem post_find (t : Tree K V S C) (k : K) (I : tw Q t) :
    Post (t.findA (σ := σ) k) fun r => ∀ e, r = some e → e.2 ∈ tv Q t := by
  obtain ⟨m, d⟩ := t
  unfold findA
  refine .then_ fun o => ?_
  cases o with
  | lt => exact .ret (by simp)
  | eq => exact .ret (by rintro _ ⟨⟩; exact min_mem_tv _)
  | gt =>
    obtain _ | ⟨x, o⟩ := d
    · exact .ret (by simp)
    · refine .then_ fun b => .ite (.ret (by rintro _ ⟨⟩; exact max_mem_tv)) ?_
      obtain _ | ⟨s, c⟩ := o
      · exact .ret (by simp)
      · refine .split fun hi lo => (Q.get c hi (of_tw I)).bind fun o ho => ?_
        obtain _ | t := o
        · exact .ret (by simp)
        · refine (P.find t lo (ho t rfl).1).bind fun r hr => ?_
          obtain _ | ⟨l, v⟩ := r
          · exact .ret (by simp)
          · exact .then_ fun k => .ret (by rintro _ ⟨⟩; exact mem_full (ho t rfl).2 (hr _ rfl))

theorem post_findMut (t : Tree K V S C) (k : K) (I : tw Q t) : Post (t.findMutA (σ := σ) k) (MutV (tok Q) (tw Q) (tv Q) t) := by
  obtain ⟨m, d⟩ := t
  unfold findMutA
  refine .then_ fun o => ?_
  cases o with
  | lt => exact .ret trivial
  | eq => exact .ret (mut_min I)
  | gt =>
    obtain _ | ⟨x, o⟩ := d
    · exact .ret trivial
    · refine .then_ fun b => .ite (.ret (mut_max I)) ?_
      obtain _ | ⟨s, c⟩ := o
      · exact .ret trivial
      · refine .split fun hi lo => (Q.getMut c hi (of_tw I)).bind fun o ho => ?_
        obtain _ | ⟨t, putC⟩ := o
        · exact .ret trivial
        · refine (P.findMut t lo (ho _ rfl).1).bind fun r hr => ?_
          obtain _ | ⟨l, v, put⟩ := r
          · exact .ret trivial
          · exact .then_ fun k => .ret (mut_child (ho _ rfl) hr)

theorem post_predecessor (t : Tree K V S C) (k : K) (I : tw Q t) :
    Post (t.predecessorA (σ := σ) k) fun r => ∀ e, r = some e → e.2 ∈ tv Q t := by
  obtain ⟨m, d⟩ := t
  unfold predecessorA
  refine .then_ fun b => .ite (.ret (by simp)) ?_
  have hm : Post (pure (some m) : Act σ (Option (K × V))) fun r => ∀ e, r = some e → e.2 ∈ tv Q (⟨m, d⟩ : Tree K V S C) :=
    .ret (by rintro _ ⟨⟩; exact min_mem_tv _)
  obtain _ | ⟨x, o⟩ := d
  · exact hm
  · refine .then_ fun b => ?_
    obtain _ | ⟨s, c⟩ := o
    · cases b
      · exact hm
      · exact hm
      · exact .ret (by rintro _ ⟨⟩; exact max_mem_tv)
    · cases b with
      | gt => exact .ret (by rintro _ ⟨⟩; exact max_mem_tv)
      | eq => exact .then_ fun e => post_far (of_tw I) P.maxVal
      | lt =>
        refine .split fun hi lo => (post_near (m := m) (x := x) (s := s) (of_tw I) fun t => P.predecessor t lo).bind fun r hr => ?_
        obtain _ | ⟨l, v⟩ := r
        · refine .then_ fun o => ?_
          obtain _ | ⟨h', -⟩ := o
          · exact hm
          · exact post_far (of_tw I) P.maxVal
        · exact .then_ fun k => .ret (by rintro _ ⟨⟩; exact hr _ rfl)

theorem post_predecessorMut (t : Tree K V S C) (k : K) (I : tw Q t) :
    Post (t.predecessorMutA (σ := σ) k) (MutV (tok Q) (tw Q) (tv Q) t) := by
  obtain ⟨m, d⟩ := t
  unfold predecessorMutA
  refine .then_ fun b => .ite (.ret trivial) ?_
  obtain _ | ⟨x, o⟩ := d
  · exact .ret (mut_min I)
  · refine .then_ fun b => ?_
    obtain _ | ⟨s, c⟩ := o
    · cases b
      · exact .ret (mut_min I)
      · exact .ret (mut_min I)
      · exact .ret (mut_max I)
    · cases b with
      | gt => exact .ret (mut_max I)
      | eq => exact .then_ fun b => .then_ fun _ => .then_ fun e => post_far_mut (of_tw I) P.maxValMut
      | lt =>
        refine .split fun hi lo => (post_near_mut (m := m) (x := x) (s := s) (of_tw I) fun t => P.predecessorMut t lo).bind fun r hr => ?_
        obtain _ | ⟨l, v, put⟩ := r
        · refine .then_ fun o => ?_
          obtain _ | ⟨h', -⟩ := o
          · exact .ret (mut_min I)
          · exact post_far_mut (of_tw I) P.maxValMut
        · exact .then_ fun k => .ret (hr _ rfl k)

theorem post_successor (t : Tree K V S C) (k : K) (I : tw Q t) :
    Post (t.successorA (σ := σ) k) fun r => ∀ e, r = some e → e.2 ∈ tv Q t := by
  obtain ⟨m, d⟩ := t
  unfold successorA
  refine .then_ fun b => .ite (.ret (by rintro _ ⟨⟩; exact min_mem_tv _)) ?_
  obtain _ | ⟨x, o⟩ := d
  · exact .ret (by simp)
  · have hx : Post (pure (some x) : Act σ (Option (K × V))) fun r => ∀ e, r = some e → e.2 ∈
      tv Q (⟨m, some ⟨x, o⟩⟩ : Tree K V S C) := .ret (by rintro _ ⟨⟩; exact max_mem_tv)
    refine .then_ fun b => .ite (.ret (by simp)) ?_
    obtain _ | ⟨s, c⟩ := o
    · exact hx
    · refine .then_ fun b => .ite (.then_ fun e => post_far (of_tw I) P.minVal) ?_
      refine .split fun hi lo => (post_near (m := m) (x := x) (s := s) (of_tw I) fun t => P.successor t lo).bind fun r hr => ?_
      obtain _ | ⟨l, v⟩ := r
      · refine .then_ fun o => ?_
        obtain _ | ⟨h', -⟩ := o
        · exact hx
        · exact post_far (of_tw I) P.minVal
      · exact .then_ fun k => .ret (by rintro _ ⟨⟩; exact hr _ rfl)

theorem post_successorMut (t : Tree K V S C) (k : K) (I : tw Q t) :
    Post (t.successorMutA (σ := σ) k) (MutV (tok Q) (tw Q) (tv Q) t) := by
  obtain ⟨m, d⟩ := t
  unfold successorMutA
  refine .then_ fun b => .ite (.ret (mut_min I)) ?_
  obtain _ | ⟨x, o⟩ := d
  · exact .ret trivial
  · refine .then_ fun b => .ite (.ret trivial) ?_
    obtain _ | ⟨s, c⟩ := o
    · exact .ret (mut_max I)
    · refine .then_ fun b => .ite (.then_ fun e => post_far_mut (of_tw I) P.minValMut) ?_
      refine .split fun hi lo => (post_near_mut (m := m) (x := x) (s := s) (of_tw I) fun t => P.successorMut t lo).bind fun r hr => ?_
      obtain _ | ⟨l, v, put⟩ := r
      · refine .then_ fun o => ?_
        obtain _ | ⟨h', -⟩ := o
        · exact .ret (mut_max I)
        · exact post_far_mut (of_tw I) P.minValMut
      · exact .then_ fun k => .ret (hr _ rfl k)

/-- what an insertion has to do, when the tree had the values `b` -/
def Ins (Q : KeepsColl σ C Hi T Lo V) (g : Prop) (b : Multiset V) (v : V) (r : Tree K V S C × Option (K × V)) : Prop :=
  tw Q r.1 ∧ Flow g (tok Q r.1) (b + {v}) (tv Q r.1 + oe r.2) ∧ ∀ e, r.2 = some e → e.2 ∈ b

theorem post_below {m x : K × V} {o : Option (S × C)} {k : K} {v : V} {b : Multiset V} {w : V} (I : cw Q o)
    (hb : b + {w} = {m.2} + {x.2} + cv Q o + {v}) (hs : cv Q o ≤ b) :
    Post (insertBelowA (σ := σ) m ⟨x, o⟩ k v) (Ins Q (co Q o) b w) := by
  unfold insertBelowA
  refine .then_ fun p => ?_
  obtain ⟨hi, lo⟩ := p
  have fin : ∀ {c' : C} {s : S} {e : Multiset V}, Flow (co Q o) (Q.ok c') (cv Q o + {v}) (Q.vals c' + e) →
      Flow (co Q o) (tok Q (⟨m, some ⟨x, some (s, c')⟩⟩ : Tree K V S C)) (b + {w}) (tv Q (⟨m, some ⟨x, some (s, c')⟩⟩ : Tree K V S C) + e) := fun F => by
    refine F.part ({m.2} + {x.2}) (fun x => co_some.1 (tok_iff.1 x)) (fun _ => id) (by rw [hb]; abel) ?_
    show m.2 ::ₘ x.2 ::ₘ Q.vals _ + _ = _
    simp only [← Multiset.singleton_add]
    abel
  obtain _ | ⟨s, c⟩ := o
  · refine (Q.create hi _ (P.fromMonad lo v).1).bind fun c' hc => .ret ⟨tw_full hc.1, fin (.of_eq (fun _ => co_none) ?_), by simp⟩
    rw [hc.2, (P.fromMonad lo v).2]
    show _ + 0 = 0 + _
    abel
  · refine (Q.insertKey c hi (lo, v) (I _ rfl)).bind fun r hr => ?_
    obtain ⟨c', h' | ⟨h', _ | ⟨l, u⟩⟩⟩ := r
    · refine .then_ fun s' => .ret ⟨tw_full hr.1, fin ?_, by simp⟩
      exact hr.2.part 0 id (fun _ => co_some.2) (add_zero _).symm rfl
    · exact .ret ⟨tw_full hr.1, fin (hr.2.1.part 0 id (fun _ => co_some.2) (add_zero _).symm (add_zero _).symm), by simp⟩
    · refine .then_ fun k' => .ret ⟨tw_full hr.1,
        fin (hr.2.1.part 0 id (fun _ => co_some.2) (add_zero _).symm (add_zero _).symm), ?_⟩
      rintro _ ⟨⟩
      exact Multiset.mem_of_le hs (hr.2.2 _ rfl)

theorem post_insert (t : Tree K V S C) (k : K) (v : V) (I : tw Q t) : Post (t.insertA (σ := σ) k v) (Ins Q (tok Q t) (tv Q t) v) := by
  obtain ⟨m, d⟩ := t
  unfold insertA
  refine .then_ fun q => ?_
  obtain _ | ⟨x, o⟩ := d
  · cases q with
    | lt => exact .ret ⟨tw_pair _ _, .of_eq (fun _ => tok_leaf _) (by show v ::ₘ m.2 ::ₘ 0 + 0 = {m.2} + {v}; rw [add_zero, add_comm]; rfl), by simp⟩
    | eq => exact .ret ⟨tw_leaf _, .of_eq (fun _ => tok_leaf _) (add_comm _ _), by rintro _ ⟨⟩; exact min_mem_tv _⟩
    | gt => exact .ret ⟨tw_pair _ _, .of_eq (fun _ => tok_leaf _) rfl, by simp⟩
  · have hs : cv Q o ≤ tv Q (⟨m, some ⟨x, o⟩⟩ : Tree K V S C) :=
      (Multiset.le_cons_self _ _).trans (Multiset.le_cons_self _ _)
    have hb : tv Q (⟨m, some ⟨x, o⟩⟩ : Tree K V S C) = {m.2} + {x.2} + cv Q o := by
      show m.2 ::ₘ x.2 ::ₘ cv Q o = _
      simp only [← Multiset.singleton_add]
      abel
    have fin : ∀ {r : Tree K V S C × Option (K × V)}, Ins Q (co Q o) (tv Q (⟨m, some ⟨x, o⟩⟩ : Tree K V S C)) v r →
        Ins Q (tok Q (⟨m, some ⟨x, o⟩⟩ : Tree K V S C)) (tv Q (⟨m, some ⟨x, o⟩⟩ : Tree K V S C)) v r := fun h =>
      ⟨h.1, ⟨h.2.1.le, fun x => ⟨tok_iff.2 (h.2.1.eq x).1, (h.2.1.eq x).2⟩⟩, h.2.2⟩
    cases q with
    | lt =>
      refine .then_ fun q => ?_
      cases q with
      | lt => exact (post_below (I _ rfl) (by rw [hb]; abel) hs).mono fun _ => fin
      | eq =>
        refine .ret ⟨tw_of (I _ rfl), .of_eq (fun x => tok_iff.2 (tok_iff.1 x)) ?_, by rintro _ ⟨⟩; exact max_mem_tv⟩
        rw [hb]
        show v ::ₘ m.2 ::ₘ cv Q _ + {x.2} = _
        simp only [← Multiset.singleton_add]
        abel
      | gt => exact (post_below (I _ rfl) (by rw [hb]; abel) hs).mono fun _ => fin
    | eq =>
      refine .ret ⟨tw_of (I _ rfl), .of_eq (fun x => tok_iff.2 (tok_iff.1 x)) ?_, by rintro _ ⟨⟩; exact min_mem_tv _⟩
      rw [hb]
      show v ::ₘ x.2 ::ₘ cv Q _ + {m.2} = _
      simp only [← Multiset.singleton_add]
      abel
    | gt =>
      refine .then_ fun q => ?_
      cases q with
      | lt => exact (post_below (I _ rfl) (by rw [hb]) hs).mono fun _ => fin
      | eq =>
        refine .ret ⟨tw_of (I _ rfl), .of_eq (fun x => tok_iff.2 (tok_iff.1 x)) ?_, by rintro _ ⟨⟩; exact max_mem_tv⟩
        rw [hb]
        show m.2 ::ₘ v ::ₘ cv Q _ + {x.2} = _
        simp only [← Multiset.singleton_add]
        abel
      | gt => exact (post_below (I _ rfl) (by rw [hb]; abel) hs).mono fun _ => fin

/-- what the children are after a value was taken from them -/
def Took (Q : KeepsColl σ C Hi T Lo V) (c : C) (v : V) (o : Option (S × C)) : Prop :=
  cw Q o ∧ Flow (Q.ok c) (co Q o) (Q.vals c) (cv Q o + {v})

theorem took_none {c : C} {v : V} (h : Rest (Q.ok c) Q.ok Q.W Q.vals (Q.vals c) none v) : Took Q c v (none : Option (S × C)) :=
  ⟨by rintro p ⟨⟩, h.2.le, fun _ => h.2.eq optOk_none⟩
theorem took_some {c c' : C} {v : V} {s : S} (h : Rest (Q.ok c) Q.ok Q.W Q.vals (Q.vals c) (some c') v) : Took Q c v (some (s, c')) :=
  ⟨by rintro p ⟨⟩; exact h.1 _ rfl, h.2.le, fun x => h.2.eq (optOk_some.2 (co_some.1 x))⟩

theorem rest_min {m x e : K × V} {s : S} {c : C} {o : Option (S × C)} (h : cw Q o)
    (F : Flow (Q.ok c) (co Q o) (Q.vals c) (cv Q o + {e.2})) :
    Rest (tok Q (⟨m, some ⟨x, some (s, c)⟩⟩ : Tree K V S C)) (tok Q) (tw Q) (tv Q)
      (tv Q (⟨m, some ⟨x, some (s, c)⟩⟩ : Tree K V S C))
      (some (⟨e, some ⟨x, o⟩⟩ : Tree K V S C)) m.2 := by
  refine ⟨optOk_some.2 (tw_of h), F.part ({m.2} + {x.2}) (fun x => tok_iff.1 (x _ rfl))
    (fun _ x => tok_iff.2 (co_some.2 x)) ?_ ?_⟩
  · show m.2 ::ₘ x.2 ::ₘ Q.vals c = _
    simp only [← Multiset.singleton_add]
    abel
  · show e.2 ::ₘ x.2 ::ₘ cv Q o + {m.2} = _
    simp only [← Multiset.singleton_add]
    abel

theorem rest_max {m x e : K × V} {s : S} {c : C} {o : Option (S × C)} (h : cw Q o)
    (F : Flow (Q.ok c) (co Q o) (Q.vals c) (cv Q o + {e.2})) :
    Rest (tok Q (⟨m, some ⟨x, some (s, c)⟩⟩ : Tree K V S C)) (tok Q) (tw Q) (tv Q)
      (tv Q (⟨m, some ⟨x, some (s, c)⟩⟩ : Tree K V S C))
      (some (⟨m, some ⟨e, o⟩⟩ : Tree K V S C)) x.2 := by
  refine ⟨optOk_some.2 (tw_of h), F.part ({m.2} + {x.2}) (fun x => tok_iff.1 (x _ rfl))
    (fun _ x => tok_iff.2 (co_some.2 x)) ?_ ?_⟩
  · show m.2 ::ₘ x.2 ::ₘ Q.vals c = _
    simp only [← Multiset.singleton_add]
    abel
  · show m.2 ::ₘ e.2 ::ₘ cv Q o + {x.2} = _
    simp only [← Multiset.singleton_add]
    abel

theorem rest_child {m x : K × V} {v : V} {s : S} {c : C} {o : Option (S × C)} (h : cw Q o)
    (F : Flow (Q.ok c) (co Q o) (Q.vals c) (cv Q o + {v})) :
    Rest (tok Q (⟨m, some ⟨x, some (s, c)⟩⟩ : Tree K V S C)) (tok Q) (tw Q) (tv Q)
      (tv Q (⟨m, some ⟨x, some (s, c)⟩⟩ : Tree K V S C))
      (some (⟨m, some ⟨x, o⟩⟩ : Tree K V S C)) v := by
  refine ⟨optOk_some.2 (tw_of h), F.part ({m.2} + {x.2}) (fun x => tok_iff.1 (x _ rfl))
    (fun _ x => tok_iff.2 (co_some.2 x)) ?_ ?_⟩
  · show m.2 ::ₘ x.2 ::ₘ Q.vals c = _
    simp only [← Multiset.singleton_add]
    abel
  · show m.2 ::ₘ x.2 ::ₘ cv Q o + {v} = _
    simp only [← Multiset.singleton_add]
    abel

theorem rest_pair_min {m x : K × V} :
    Rest (tok Q (⟨m, some ⟨x, none⟩⟩ : Tree K V S C)) (tok Q) (tw Q) (tv Q) (tv Q (⟨m, some ⟨x, none⟩⟩ : Tree K V S C)) (some (⟨x, none⟩ : Tree K V S C)) m.2 :=
  ⟨optOk_some.2 (tw_leaf _), .of_eq (fun _ => tok_iff.2 co_none) (add_comm _ _)⟩
theorem rest_pair_max {m x : K × V} :
    Rest (tok Q (⟨m, some ⟨x, none⟩⟩ : Tree K V S C)) (tok Q) (tw Q) (tv Q) (tv Q (⟨m, some ⟨x, none⟩⟩ : Tree K V S C)) (some (⟨m, none⟩ : Tree K V S C)) x.2 :=
  ⟨optOk_some.2 (tw_leaf _), .of_eq (fun _ => tok_iff.2 co_none) rfl⟩

theorem post_removeMin (t : Tree K V S C) (I : tw Q t) :
    Post (t.removeMinA (σ := σ)) fun r => Rest (tok Q t) (tok Q) (tw Q) (tv Q) (tv Q t) r.1 r.2.2 := by
  obtain ⟨m, _ | ⟨x, _ | ⟨s, c⟩⟩⟩ := t
  · exact .ret ⟨optOk_none, .of_eq (fun _ => tok_leaf _) (zero_add _)⟩
  · exact .ret rest_pair_min
  · unfold removeMinA
    refine .then_ fun e => ?_
    obtain ⟨hi, -⟩ := e
    refine (Q.removeKey c hi _ (of_tw I) P.removeMin).bind fun r hr => ?_
    obtain ⟨o, lo, v⟩ := r
    refine .then_ fun k => Post.bind (Q := Took Q c v) ?_ fun o ho => .ret (by exact rest_min (e := (k, v)) ho.1 ho.2)
    obtain _ | ⟨c', _ | _⟩ := o
    · exact .ret (took_none hr)
    · exact .ret (took_some hr)
    · exact .then_ fun s' => .then_ fun s' => .ret (took_some hr)

theorem post_removeMax (t : Tree K V S C) (I : tw Q t) :
    Post (t.removeMaxA (σ := σ)) fun r => Rest (tok Q t) (tok Q) (tw Q) (tv Q) (tv Q t) r.1 r.2.2 := by
  obtain ⟨m, _ | ⟨x, _ | ⟨s, c⟩⟩⟩ := t
  · exact .ret ⟨optOk_none, .of_eq (fun _ => tok_leaf _) (zero_add _)⟩
  · exact .ret rest_pair_max
  · unfold removeMaxA
    refine .then_ fun e => ?_
    obtain ⟨hi, -⟩ := e
    refine (Q.removeKey c hi _ (of_tw I) P.removeMax).bind fun r hr => ?_
    obtain ⟨o, lo, v⟩ := r
    refine .then_ fun k => Post.bind (Q := Took Q c v) ?_ fun o ho => .ret (by exact rest_max (e := (k, v)) ho.1 ho.2)
    obtain _ | ⟨c', _ | _⟩ := o
    · exact .ret (took_none hr)
    · exact .ret (took_some hr)
    · exact .then_ fun s' => .then_ fun s' => .ret (took_some hr)

theorem post_remove (t : Tree K V S C) (k : K) (I : tw Q t) :
    Post (t.removeA (σ := σ) k) (MaybeRest (tok Q t) (tok Q) (tw Q) (tv Q) (tv Q t)) := by
  unfold removeA
  refine .then_ fun b => .ite ((post_removeMin t I).bind fun r hr => .ret hr) ?_
  have same : ∀ t : Tree K V S C, tw Q t → MaybeRest (K := K) (tok Q t) (tok Q) (tw Q) (tv Q) (tv Q t) (.Err t) :=
    fun t I => ⟨I, .of_eq id rfl⟩
  obtain ⟨m, _ | ⟨x, _ | ⟨s, c⟩⟩⟩ := t
  · exact .ret (same _ I)
  · exact .then_ fun b => .ite (.ret rest_pair_max) (.ret (same _ I))
  · refine .then_ fun b => .ite ?_ ?_
    · refine .then_ fun e => ?_
      obtain ⟨hi, -⟩ := e
      refine (Q.removeKey c hi _ (of_tw I) P.removeMax).bind fun r hr => ?_
      obtain ⟨o, lo, v⟩ := r
      refine .then_ fun k => Post.bind (Q := Took Q c v) ?_ fun o ho => .ret (by exact rest_max (e := (k, v)) ho.1 ho.2)
      obtain _ | ⟨c', _ | _⟩ := o
      · exact .ret (took_none hr)
      · exact .ret (took_some hr)
      · exact .then_ fun s' => .then_ fun s' => .ret (took_some hr)
    · refine .split fun hi lo => (Q.maybeRemoveKey c hi _ (of_tw I) fun t ht => P.remove t lo ht).bind fun r hr => ?_
      obtain ⟨_ | ⟨c', _ | _⟩, l, v⟩ | c' := r
      · exact .then_ fun k => .ret (rest_child (o := none) (took_none hr).1 (took_none hr).2)
      · exact .then_ fun k => .ret (rest_child (o := some (s, c')) (took_some hr).1 (took_some hr).2)
      · refine .then_ fun r => ?_
        refine .then_ fun r => .then_ fun s' => .then_ fun k => .ret
          (rest_child (o := some (s', c')) (took_some hr).1 (took_some hr).2)
      · refine .ret ⟨tw_full hr.1, hr.2.part ({m.2} + {x.2}) (fun x => co_some.1 (tok_iff.1 x))
        (fun _ x => tok_iff.2 (co_some.2 x)) ?_ ?_⟩
        · show m.2 ::ₘ x.2 ::ₘ Q.vals c = _
          simp only [← Multiset.singleton_add]
          abel
        · show m.2 ::ₘ x.2 ::ₘ Q.vals c' = _
          simp only [← Multiset.singleton_add]
          abel

theorem card_tv {m : K × V} {d : Option (TreeData K V S C)} :
    d.isNone = true ↔ (tv Q (⟨m, d⟩ : Tree K V S C)).card = 1 := by
  obtain _ | ⟨x, o⟩ := d
  · simp [tv]
  · simp [tv]

instance instKeeps : Keeps σ (Tree K V S C) K V where
  W := tw Q
  vals := tv Q
  ok := tok Q
  fixed := Q.fixed
  okOf f t I d hd p hp := Q.okOf f _ (I d hd p hp)
  fromMonad k v := ⟨tw_leaf _, rfl⟩
  isMonad t I := .lift fun b hb => by
    cases hb
    exact card_tv
  lenHint t I := .lift fun r hr => by
    obtain ⟨m, _ | ⟨x, o⟩⟩ := t
    · cases hr
      refine fun _ => ⟨le_refl 1, ?_⟩
      rintro n ⟨⟩
    · cases hr
      refine fun _ => ⟨?_, ?_⟩
      · show 2 ≤ (m.2 ::ₘ x.2 ::ₘ cv Q o).card
        simp
      · rintro n ⟨⟩
  intoMonad t I := .lift fun r hr => by
    obtain ⟨m, _ | ⟨x, o⟩⟩ := t
    · cases hr
      exact ⟨tok_leaf _, rfl⟩
    · cases hr
      refine ⟨I, rfl, id, ?_⟩
      rw [Ne, ← card_tv]
      simp
  minVal t I := .ret (min_mem_tv t)
  minValMut t I := .ret (mut_min I)
  maxVal t I := by
    obtain ⟨m, _ | ⟨x, o⟩⟩ := t
    · exact .ret (min_mem_tv _)
    · exact .ret max_mem_tv
  maxValMut t I := by
    obtain ⟨m, _ | ⟨x, o⟩⟩ := t
    · exact .ret (mut_min I)
    · exact .ret (mut_max I)
  find := post_find
  findMut := post_findMut
  predecessor := post_predecessor
  predecessorMut := post_predecessorMut
  successor := post_successor
  successorMut := post_successorMut
  insert t k v I := post_insert t k v I
  remove := post_remove
  removeMin := post_removeMin
  removeMax := post_removeMax

end Tree
end Veb
