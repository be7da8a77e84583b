import Verif.Proof.Open

/-!
Collections that answer as partial maps of trees simulate each other.
-/

set_option autoImplicit false
set_option linter.unusedSectionVars false
namespace Veb

section
variable {C D Hi T Lo V : Type} [TreeCollection C Hi T Lo V] [TreeCollection D Hi T Lo V]

/-- collections left by the same history -/
def CTogether (c : C) (d : D) : Prop :=
  ∃ (ops : List (COp Hi T Lo V)) (os os' : List (COut Hi T Lo V)),
    CollExec.run none ops = .ok (some c, os) ∧ CollExec.run none ops = .ok (some d, os')

theorem crun_snoc {c c' : Option C} {ops : List (COp Hi T Lo V)} {os : List (COut Hi T Lo V)}
    (h : CollExec.run c ops = .ok (c', os)) (op : COp Hi T Lo V) :
    CollExec.run c (ops ++ [op]) = (CollExec.step c' op).map fun p => (p.1, os ++ [p.2]) := by
  induction ops generalizing c os with
  | nil =>
    cases h
    show (CollExec.step c' op >>= _) = _
    cases CollExec.step c' op <;> rfl
  | cons op' ops ih =>
    simp only [List.cons_append, CollExec.run] at h ⊢
    cases hs : CollExec.step c op' with
    | error e => rw [hs] at h; cases h
    | ok p =>
      rw [hs] at h
      simp only [R.ok_bind] at h ⊢
      cases hr : CollExec.run p.1 ops with
      | error e => rw [hr] at h; cases h
      | ok q =>
        rw [hr] at h
        cases h
        rw [ih hr]
        cases CollExec.step q.1 op <;> rfl

theorem crun_noTree [IsEmpty T] (ops : List (COp Hi T Lo V)) :
    ∃ os, CollExec.run (none : Option C) ops = .ok (none, os) := by
  induction ops with
  | nil => exact ⟨[], rfl⟩
  | cons op ops ih =>
    obtain ⟨os, h⟩ := ih
    cases op with
    | create h t => exact isEmptyElim t
    | _ =>
      refine ⟨.gone :: os, ?_⟩
      show (CollExec.run none ops >>= _) = _
      rw [h]; rfl

theorem CTogether.tree {c : C} {d : D} (h : CTogether c d) : Nonempty T := by
  by_contra hT
  rw [not_nonempty_iff] at hT
  obtain ⟨ops, os, os', h, -⟩ := h
  obtain ⟨_, h'⟩ := crun_noTree (C := C) ops
  rw [h'] at h
  cases h

/-- two collection types over the same trees whose outputs are the same on every history -/
def CAlike (C D : Type) {Hi T Lo V : Type} [TreeCollection C Hi T Lo V] [TreeCollection D Hi T Lo V] : Prop :=
  ∀ ops : List (COp Hi T Lo V), Agree (fun os os' => os' = os) (collOutputs C ops) (collOutputs D ops)

theorem CAlike.rx (H : CAlike C D) {ops : List (COp Hi T Lo V)} {c : Option C} {d : Option D}
    {os os' : List (COut Hi T Lo V)} (h : CollExec.run none ops = .ok (c, os)) (h' : CollExec.run none ops = .ok (d, os'))
    (op : COp Hi T Lo V) : Rx (fun a b => b.2 = a.2) (CollExec.step c op) (CollExec.step d op) := by
  have h0 := Rx.of_agree (H ops)
  have h1 := Rx.of_agree (H (ops ++ [op]))
  simp only [collOutputs, crun_snoc h, crun_snoc h', h, h'] at h0 h1
  cases h0 with
  | ok h0 =>
  dsimp only at h0
  subst h0
  cases hx : CollExec.step c op <;> cases hy : CollExec.step d op <;> simp only [hx, hy] at h1
  · exact .err _ _
  · cases h1
  · cases h1
  · cases h1 with
    | ok h1 =>
    refine .ok ?_
    simpa using h1

theorem CAlike.none_iff (H : CAlike C D) {ops : List (COp Hi T Lo V)} {c : Option C} {d : Option D}
    {os os' : List (COut Hi T Lo V)} (h : CollExec.run none ops = .ok (c, os)) (h' : CollExec.run none ops = .ok (d, os'))
    (k : Hi) : c = none ↔ d = none := by
  have := H.rx h h' (.get k)
  rcases c with _ | c <;> rcases d with _ | d
  · simp
  · simp only [CollExec.step, CollExec.stepColl] at this
    cases hx : TreeCollection.get d k <;> simp only [hx] at this <;> cases this <;> rename_i h <;> cases h
  · simp only [CollExec.step, CollExec.stepColl] at this
    cases hx : TreeCollection.get c k <;> simp only [hx] at this <;> cases this <;> rename_i h <;> cases h
  · simp

/-- every call names a key -/
def COp.key : COp Hi T Lo V → Hi
  | .create h _ => h
  | .get h => h
  | .set h _ => h
  | .insert h _ _ => h
  | .remove h _ => h
  | .maybeRemove h _ => h

theorem CAlike.step (H : CAlike C D) {ops : List (COp Hi T Lo V)} {c : Option C} {d : Option D}
    {os os' : List (COut Hi T Lo V)} (h : CollExec.run none ops = .ok (c, os)) (h' : CollExec.run none ops = .ok (d, os'))
    (op : COp Hi T Lo V) :
    Rx (fun a b => Option.Rel CTogether a.1 b.1 ∧ b.2 = a.2) (CollExec.step c op) (CollExec.step d op) := by
  have h1 := H.rx h h' op
  have e := crun_snoc h op
  have e' := crun_snoc h' op
  cases hx : CollExec.step c op <;> cases hy : CollExec.step d op <;> simp only [hx, hy] at h1 e e'
  · exact .err _ _
  · cases h1
  · cases h1
  · rename_i a b
    cases h1 with
    | ok h1 =>
    refine .ok ⟨?_, h1⟩
    obtain ⟨x, o⟩ := a
    obtain ⟨y, o'⟩ := b
    have h2 : x = none ↔ y = none := H.none_iff e e' op.key
    rcases x with _ | x <;> rcases y with _ | y
    · exact .none
    · exact absurd (h2.1 rfl) (by simp)
    · exact absurd (h2.2 rfl) (by simp)
    · exact .some ⟨_, _, _, e, e'⟩

theorem CAlike.stepColl (H : CAlike C D) {c : C} {d : D} (h : CTogether c d) (op : COp Hi T Lo V) :
    Rx (fun a b => Option.Rel CTogether a.1 b.1 ∧ b.2 = a.2) (CollExec.stepColl c op) (CollExec.stepColl d op) := by
  obtain ⟨ops, os, os', h, h'⟩ := h
  exact H.step h h' op

/-- two collection types over the same trees that simulate each other, given equal closures -/
structure ExactColl (E : C → D → Prop) : Prop where
  create (h : Hi) (t : T) : Rx E (TreeCollection.create h t) (TreeCollection.create h t)
  get {c : C} {d : D} (hc : E c d) (h : Hi) : Rx (fun a b => b = a) (TreeCollection.get c h) (TreeCollection.get d h)
  getMut {c : C} {d : D} (hc : E c d) (h : Hi) :
    Rx (Option.Rel fun a b => b.1 = a.1 ∧ ∀ u, E (a.2 u) (b.2 u)) (TreeCollection.getMut c h) (TreeCollection.getMut d h)
  insertKey {c : C} {d : D} (hc : E c d) (h : Hi) (l : Lo) (v : V) :
    Rx (fun a b => E a.1 b.1 ∧ b.2 = a.2) (TreeCollection.insertKey c h (l, v)) (TreeCollection.insertKey d h (l, v))
  removeKey {c : C} {d : D} (hc : E c d) (h : Hi) (r : T → R (Option T × (Lo × V))) :
    Rx (fun a b => Option.Rel (fun x y => E x.1 y.1 ∧ y.2 = x.2) a.1 b.1 ∧ b.2 = a.2) (TreeCollection.removeKey c h r)
      (TreeCollection.removeKey d h r)
  maybeRemoveKey {c : C} {d : D} (hc : E c d) (h : Hi) (r : T → R (Result (Option T × (Lo × V)) T)) :
    Rx (ResR (fun a b => Option.Rel (fun x y => E x.1 y.1 ∧ y.2 = x.2) a.1 b.1 ∧ b.2 = a.2) E)
      (TreeCollection.maybeRemoveKey c h r) (TreeCollection.maybeRemoveKey d h r)

private def endSet (c : C) (u : T) : Option (T × (T → C)) → Option C × COut Hi T Lo V
  | none => (some c, .tree none)
  | some (t, put) => (some (put u), .tree (some t))
private def endMaybe : Result (Option (C × Bool) × (Lo × V)) C → Option C × COut Hi T Lo V
  | .Ok r => CollExec.removed r
  | .Err c => (some c, .kept)

private theorem step_set (c : C) (h : Hi) (u : T) :
    CollExec.stepColl c (.set h u : COp Hi T Lo V) = TreeCollection.getMut c h >>= fun a => pure (endSet c u a) := by
  simp only [CollExec.stepColl]
  cases TreeCollection.getMut c h with
  | error e => rfl
  | ok a => rcases a with _ | ⟨t, put⟩ <;> rfl
private theorem step_maybe (c : C) (h : Hi) (r : T → R (Result (Option T × (Lo × V)) T)) :
    CollExec.stepColl c (.maybeRemove h r) = TreeCollection.maybeRemoveKey c h r >>= fun a => pure (endMaybe a) := by
  simp only [CollExec.stepColl]
  cases TreeCollection.maybeRemoveKey c h r with
  | error e => rfl
  | ok a => cases a <;> rfl

theorem cremoved {x : Option (C × Bool) × (Lo × V)} {y : Option (D × Bool) × (Lo × V)}
    (h : Option.Rel CTogether (CollExec.removed x : Option C × COut Hi T Lo V).1 (CollExec.removed y : Option D × COut Hi T Lo V).1 ∧
      (CollExec.removed y : Option D × COut Hi T Lo V).2 = (CollExec.removed x : Option C × COut Hi T Lo V).2) :
    Option.Rel (fun x y => CTogether x.1 y.1 ∧ y.2 = x.2) x.1 y.1 ∧ y.2 = x.2 := by
  obtain ⟨h1, h2⟩ := h
  rcases x with ⟨_ | ⟨c, b⟩, p⟩ <;> rcases y with ⟨_ | ⟨d, b'⟩, q⟩ <;>
    simp only [CollExec.removed, COut.removed.injEq] at h1 h2
  · exact ⟨.none, h2.1⟩
  · cases h2.2
  · cases h2.2
  · cases h1 with
    | some h1 => exact ⟨.some ⟨h1, by simpa using h2.2⟩, h2.1⟩

theorem CAlike.exact (H : CAlike C D) : ExactColl (C := C) (D := D) CTogether := by
  constructor
  case create =>
    intro h t
    have := H.step (ops := []) (c := none) (d := none) rfl rfl (.create h t)
    simp only [CollExec.step] at this
    refine rx_of_step this ?_
    rintro a b ⟨h1, -⟩
    cases h1 with | some h1 => exact h1
  case get =>
    intro c d hc h
    exact rx_of_step (H.stepColl hc (.get h)) fun a b hab => by simpa using hab.2
  case getMut =>
    intro c d hc h
    obtain ⟨u0⟩ := hc.tree
    have key : ∀ u, Rx (fun a b => Option.Rel CTogether (endSet c u a : Option C × COut Hi T Lo V).1
        (endSet d u b : Option D × COut Hi T Lo V).1 ∧
        (endSet d u b : Option D × COut Hi T Lo V).2 = (endSet c u a : Option C × COut Hi T Lo V).2) (TreeCollection.getMut c h)
        (TreeCollection.getMut d h) := fun u => by
      have h0 := H.stepColl hc (.set h u)
      rw [step_set, step_set] at h0
      exact rx_of_step h0 fun a b hab => hab
    cases hx : TreeCollection.getMut c h with
    | error e =>
      have := key u0
      rw [hx] at this
      cases hy : TreeCollection.getMut d h with
      | error e' => exact .err _ _
      | ok y => rw [hy] at this; cases this
    | ok x =>
      cases hy : TreeCollection.getMut d h with
      | error e' => have := key u0; rw [hx, hy] at this; cases this
      | ok y =>
        have key' : ∀ u, _ := fun u => by
          have := key u
          rw [hx, hy] at this
          cases this with | ok h => exact h
        refine .ok ?_
        rcases x with _ | ⟨t, put⟩ <;> rcases y with _ | ⟨t', put'⟩
        · exact .none
        · cases (key' u0).2
        · cases (key' u0).2
        · have e := (key' u0).2
          simp only [endSet, COut.tree.injEq, Option.some.injEq] at e
          refine .some ⟨e, fun u => ?_⟩
          have := (key' u).1
          simp only [endSet] at this
          cases this with | some h => exact h
  case insertKey =>
    intro c d hc h l v
    refine rx_of_step (H.stepColl hc (.insert h l v)) ?_
    rintro ⟨c', o⟩ ⟨d', o'⟩ ⟨h1, h2⟩
    simp only [COut.inserted.injEq] at h2
    cases h1 with | some h1 => exact ⟨h1, h2⟩
  case removeKey =>
    intro c d hc h r
    exact rx_of_step (H.stepColl hc (.remove h r)) fun a b hab => cremoved hab
  case maybeRemoveKey =>
    intro c d hc h r
    have h0 := H.stepColl hc (.maybeRemove h r)
    rw [step_maybe, step_maybe] at h0
    refine rx_of_step h0 ?_
    rintro (a | a) (b | b) h
    · exact .ok (cremoved h)
    · rcases a with ⟨_ | ⟨c, b⟩, p⟩ <;> cases h.2
    · rcases b with ⟨_ | ⟨c, b⟩, p⟩ <;> cases h.2
    · obtain ⟨h1, h2⟩ := h
      cases h1 with | some h1 => exact .err h1
end

/-! ## Composition -/

section
variable {C D D' C' Hi T T' Lo V : Type} [TreeCollection C Hi T Lo V] [TreeCollection D Hi T Lo V]
  [TreeCollection D' Hi T' Lo V] [TreeCollection C' Hi T' Lo V]

/-- three steps: within the trees `T`, from `T` to `T'`, within the trees `T'` -/
def Comp3 {A B B' A' : Type} (E : A → B → Prop) (M : B → B' → Prop) (E' : B' → A' → Prop) (a : A) (a' : A') : Prop :=
  ∃ b b', E a b ∧ M b b' ∧ E' b' a'

theorem Rx.trans3 {A B B' A' : Type} {E : A → B → Prop} {M : B → B' → Prop} {E' : B' → A' → Prop} {x : R A} {y : R B}
    {y' : R B'} {x' : R A'} {Q : A → A' → Prop} (h1 : Rx E x y) (h2 : Rx M y y') (h3 : Rx E' y' x')
    (hQ : ∀ a b b' a', E a b → M b b' → E' b' a' → Q a a') : Rx Q x x' := by
  cases h1 with
  | ok h1 => cases h2 with | ok h2 => cases h3 with | ok h3 => exact .ok (hQ _ _ _ _ h1 h2 h3)
  | err e e' => cases h2 with | err => cases h3 with | err => exact .err _ _

theorem remKeyX_comp3 {E : C → D → Prop} {M : D → D' → Prop} {E' : D' → C' → Prop} {a : Option (C × Bool) × (Lo × V)}
    {b : Option (D × Bool) × (Lo × V)} {b' : Option (D' × Bool) × (Lo × V)} {a' : Option (C' × Bool) × (Lo × V)}
    (h1 : Option.Rel (fun x y => E x.1 y.1 ∧ y.2 = x.2) a.1 b.1 ∧ b.2 = a.2) (h2 : RemKeyX id id M b b')
    (h3 : Option.Rel (fun x y => E' x.1 y.1 ∧ y.2 = x.2) b'.1 a'.1 ∧ a'.2 = b'.2) :
    RemKeyX id id (Comp3 E M E') a a' := by
  obtain ⟨a1, a2⟩ := a
  obtain ⟨b1, b2⟩ := b
  obtain ⟨b1', b2'⟩ := b'
  obtain ⟨a1', a2'⟩ := a'
  obtain ⟨h1, e1⟩ := h1
  obtain ⟨h2, e2⟩ := h2
  obtain ⟨h3, e3⟩ := h3
  dsimp only at h1 e1 h2 e2 h3 e3
  subst e1 e2 e3
  refine ⟨?_, rfl⟩
  cases h1 with
  | none => cases h2 with | none => cases h3 with | none => exact .none
  | some h1 =>
    cases h2 with
    | some h2 =>
      cases h3 with
      | some h3 => exact .some ⟨⟨_, _, h1.1, h2.1, h3.1⟩, h3.2.trans (h2.2.trans h1.2)⟩

theorem SameColl.comp {E : C → D → Prop} {ST : T → T' → Prop} {M : D → D' → Prop} {E' : D' → C' → Prop}
    (h1 : ExactColl E) (h2 : SameColl id id id ST M) (h3 : ExactColl E') : SameColl id id id ST (Comp3 E M E') := by
  constructor
  case create =>
    intro h t t' ht
    exact (h1.create h t).trans3 (h2.create h ht) (h3.create h t') fun a b b' a' x y z => ⟨b, b', x, y, z⟩
  case get =>
    rintro c c' ⟨d, d', x, y, z⟩ h
    refine (h1.get x h).trans3 (h2.get y h) (h3.get z h) ?_
    rintro a _ b' _ rfl h rfl
    exact h
  case getMut =>
    rintro c c' ⟨d, d', x, y, z⟩ h
    refine (h1.getMut x h).trans3 (h2.getMut y h) (h3.getMut z h) ?_
    intro a b b' a' p q r
    cases p with
    | none => cases q with | none => cases r with | none => exact .none
    | some p =>
      cases q with
      | some q =>
        cases r with
        | some r =>
          refine .some ⟨?_, fun u u' hu => ⟨_, _, p.2 u, q.2 u u' hu, r.2 u'⟩⟩
          rw [r.1, ← p.1]
          exact q.1
  case insertKey =>
    rintro c c' ⟨d, d', x, y, z⟩ h l v
    refine (h1.insertKey x h l v).trans3 (h2.insertKey y h l v) (h3.insertKey z h l v) ?_
    rintro ⟨a, i⟩ ⟨b, _⟩ ⟨b', _⟩ ⟨a', _⟩ ⟨p, rfl⟩ ⟨q, rfl⟩ ⟨r, rfl⟩
    exact ⟨⟨_, _, p, q, r⟩, rfl⟩
  case removeKey =>
    rintro c c' ⟨d, d', x, y, z⟩ h r r' hr
    exact (h1.removeKey x h r).trans3 (h2.removeKey y h hr) (h3.removeKey z h r') fun a b b' a' => remKeyX_comp3
  case maybeRemoveKey =>
    rintro c c' ⟨d, d', x, y, z⟩ h r r' hr
    refine (h1.maybeRemoveKey x h r).trans3 (h2.maybeRemoveKey y h hr) (h3.maybeRemoveKey z h r') ?_
    rintro a b b' a' (p | p) (q | q) (r | r)
    · exact .ok (remKeyX_comp3 p q r)
    · exact .err ⟨_, _, p, q, r⟩
end

/-! ## From the specification -/

section
variable {C Hi T Lo V : Type} [VebTree T Lo V] [TreeCollection C Hi T Lo V]

theorem cspec_step (p q : Panic) (M : Map Hi T) (op : COp Hi T Lo V) :
    Rx (fun a b => b = a) (CollSpec.step p M op) (CollSpec.step q M op) := by
  classical
  unfold CollSpec.step
  split
  · exact Rx.refl _
  · cases op with
    | remove h r =>
      simp only [CollSpec.stepMap]
      cases M h with
      | none => exact .err _ _
      | some t => exact Rx.refl _
    | _ => exact Rx.refl _

theorem cspec_run (p q : Panic) (ops : List (COp Hi T Lo V)) (M : Map Hi T) :
    Rx (fun a b => b = a) (CollSpec.run p M ops) (CollSpec.run q M ops) := by
  induction ops generalizing M with
  | nil => exact .ok rfl
  | cons op ops ih =>
    have h := cspec_step p q M op
    simp only [CollSpec.run]
    cases hx : CollSpec.step p M op <;> cases hy : CollSpec.step q M op <;> simp only [hx, hy] at h <;> cases h
    · exact .err _ _
    · rename_i a b h
      subst h
      obtain ⟨M', o⟩ := b
      have := ih M'
      dsimp only
      cases hx : CollSpec.run p M' ops <;> cases hy : CollSpec.run q M' ops <;> simp only [hx, hy] at this <;> cases this
      · exact .err _ _
      · rename_i h; subst h; exact .ok rfl

/-- a lawful collection answers as specified -/
theorem LawfulColl.answers [LinearOrder Hi] (L : LawfulColl C Hi T Lo V) : AnswersAsColl C (T := T) := by
  intro ops
  have h := coll_run (L := L) ops (c := none) (M := Map.empty) rfl
  have h' := cspec_run L.absent .debugAssert ops (Map.empty : Map Hi T)
  unfold collOutputs
  cases hx : CollSpec.run L.absent (Map.empty : Map Hi T) ops with
  | error e =>
    rw [hx] at h h'
    have h : CollExec.run (none : Option C) ops = .error e := h
    cases hy : CollSpec.run .debugAssert (Map.empty : Map Hi T) ops with
    | error e' => rw [h]; exact .inr ⟨_, _, rfl, rfl⟩
    | ok b => rw [hy] at h'; cases h'
  | ok a =>
    rw [hx] at h h'
    obtain ⟨M, os⟩ := a
    obtain ⟨c, h, -⟩ := h
    cases hy : CollSpec.run .debugAssert (Map.empty : Map Hi T) ops with
    | error e' => rw [hy] at h'; cases h'
    | ok b =>
      rw [hy] at h'
      cases h' with
      | ok h' =>
      subst h'
      rw [h]
      exact .inl ⟨_, _, rfl, rfl, rfl⟩

theorem AnswersAsColl.alike {D : Type} [TreeCollection D Hi T Lo V] (h : AnswersAsColl C (T := T)) (h' : AnswersAsColl D (T := T)) :
    CAlike C D := fun ops =>
  ((Rx.of_agree (h ops)).trans (Rx.of_agree (h' ops)).symm |>.mono
    (by rintro a b ⟨c, e1, e2⟩; exact e2.symm.trans e1)).agree

end
end Veb
