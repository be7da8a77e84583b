import Verif.SpecOpen
import Verif.Proof.Same
import Verif.Proof.CollHist
import Verif.Proof.Black

/-!
Types that answer alike simulate each other.
-/

set_option autoImplicit false
set_option linter.unusedSectionVars false
namespace Veb

theorem Rx.of_agree {α β : Type} {P : α → β → Prop} {x : R α} {y : R β} (h : Agree P x y) : Rx P x y := by
  rcases h with ⟨a, b, rfl, rfl, h⟩ | ⟨e, e', rfl, rfl⟩
  · exact .ok h
  · exact .err _ _

theorem Rx.trans {α β γ : Type} {P : α → β → Prop} {Q : β → γ → Prop} {x : R α} {y : R β} {z : R γ} (h : Rx P x y)
    (h' : Rx Q y z) : Rx (fun a c => ∃ b, P a b ∧ Q b c) x z := by
  cases h with
  | ok h => cases h' with | ok h' => exact .ok ⟨_, h, h'⟩
  | err e e' => cases h' with | err e e' => exact .err _ _

theorem Rx.symm {α β : Type} {P : α → β → Prop} {x : R α} {y : R β} (h : Rx P x y) : Rx (fun b a => P a b) y x := by
  cases h with
  | ok h => exact .ok h
  | err e e' => exact .err _ _

/-! ## Trees -/

section
variable {T T' K V : Type} [VebTree T K V] [VebTree T' K V]

/-- trees left by the same history -/
def Together (t : T) (t' : T') : Prop :=
  ∃ (ops : List (Op K V)) (os os' : List (Out K V)), Exec.run none ops = .ok (some t, os) ∧ Exec.run none ops = .ok (some t', os')

theorem run_snoc {t : Option T} {t' : Option T} {ops : List (Op K V)} {os : List (Out K V)} (h : Exec.run t ops = .ok (t', os))
    (op : Op K V) : Exec.run t (ops ++ [op]) = (Exec.step t' op).map fun p => (p.1, os ++ [p.2]) := by
  induction ops generalizing t os with
  | nil =>
    cases h
    show (Exec.step t' op >>= _) = _
    cases Exec.step t' op <;> rfl
  | cons op' ops ih =>
    simp only [List.cons_append, Exec.run] at h ⊢
    cases hs : Exec.step t op' with
    | error e => rw [hs] at h; cases h
    | ok p =>
      rw [hs] at h
      simp only [R.ok_bind] at h ⊢
      cases hr : Exec.run p.1 ops with
      | error e => rw [hr] at h; cases h
      | ok q =>
        rw [hr] at h
        cases h
        rw [ih hr]
        cases Exec.step q.1 op <;> rfl

theorem run_noValue [IsEmpty V] (ops : List (Op K V)) : ∃ os, Exec.run (none : Option T) ops = .ok (none, os) := by
  induction ops with
  | nil => exact ⟨[], rfl⟩
  | cons op ops ih =>
    obtain ⟨os, h⟩ := ih
    cases op with
    | insert k v => exact isEmptyElim v
    | _ => exact ⟨_, by simp only [Exec.run, Exec.step]; rw [show ∀ x, (pure x : R (Option T × Out K V)) = .ok x from fun _ => rfl, R.ok_bind]; show (Exec.run none ops >>= _) = _; rw [h]; rfl⟩

theorem Together.value {t : T} {t' : T'} (h : Together t t') : Nonempty V := by
  by_contra hV
  rw [not_nonempty_iff] at hV
  obtain ⟨ops, os, os', h, -⟩ := h
  obtain ⟨_, h'⟩ := run_noValue (T := T) ops
  rw [h'] at h
  cases h

theorem AnswerAlike.rx (H : AnswerAlike T T') {ops : List (Op K V)} {t : Option T} {t' : Option T'} {os os' : List (Out K V)}
    (h : Exec.run none ops = .ok (t, os)) (h' : Exec.run none ops = .ok (t', os')) (op : Op K V) :
    Rx (fun a b => b.2 = a.2) (Exec.step t op) (Exec.step t' op) := by
  have h0 := Rx.of_agree (H ops)
  have h1 := Rx.of_agree (H (ops ++ [op]))
  simp only [outputs, run_snoc h, run_snoc h', h, h'] at h0 h1
  cases h0 with
  | ok h0 =>
  dsimp only at h0
  subst h0
  cases hx : Exec.step t op <;> cases hy : Exec.step t' op <;> simp only [hx, hy] at h1
  · exact .err _ _
  · cases h1
  · cases h1
  · cases h1 with
    | ok h1 =>
    refine .ok ?_
    simpa using h1

theorem AnswerAlike.minVal (H : AnswerAlike T T') {ops : List (Op K V)} {t : Option T} {t' : Option T'} {os os' : List (Out K V)}
    (h : Exec.run none ops = .ok (t, os)) (h' : Exec.run none ops = .ok (t', os')) : t = none ↔ t' = none := by
  have := H.rx h h' .minVal
  rcases t with _ | t <;> rcases t' with _ | t'
  · simp
  · simp only [Exec.step, Exec.stepTree] at this
    cases hx : VebTree.minVal t' <;> simp only [hx] at this <;> cases this <;> rename_i h <;> cases h
  · simp only [Exec.step, Exec.stepTree] at this
    cases hx : VebTree.minVal t <;> simp only [hx] at this <;> cases this <;> rename_i h <;> cases h
  · simp

theorem rename_ident (op : Op K V) : op.rename id id = op := by cases op <;> rfl
theorem out_rename_ident (o : Out K V) : o.rename id id = o := by
  cases o with
  | bool b => rfl
  | kv e => cases e <;> rfl

theorem AnswerAlike.stepTree (H : AnswerAlike T T') {t : T} {t' : T'} (h : Together t t') (op : Op K V) :
    Rx (fun a b => Option.Rel Together a.1 b.1 ∧ b.2 = a.2) (Exec.stepTree t op) (Exec.stepTree t' op) := by
  obtain ⟨ops, os, os', h, h'⟩ := h
  have h1 := H.rx h h' op
  have e := run_snoc h op
  have e' := run_snoc h' op
  simp only [Exec.step] at h1 e e'
  cases hx : Exec.stepTree t op <;> cases hy : Exec.stepTree t' op <;> simp only [hx, hy] at h1 e e'
  · exact .err _ _
  · cases h1
  · cases h1
  · rename_i a b
    cases h1 with
    | ok h1 =>
    refine .ok ⟨?_, h1⟩
    obtain ⟨x, o⟩ := a
    obtain ⟨y, o'⟩ := b
    have h2 : x = none ↔ y = none := H.minVal e e'
    rcases x with _ | x <;> rcases y with _ | y
    · exact .none
    · exact absurd (h2.1 rfl) (by simp)
    · exact absurd (h2.2 rfl) (by simp)
    · exact .some ⟨_, _, _, e, e'⟩

/-- what a step tells about the call it makes -/
theorem rx_of_step {A A' O O' : Type} {x : R A} {y : R A'} {f : A → O} {g : A' → O'} {P : O → O' → Prop} {Q : A → A' → Prop}
    (h : Rx P (x >>= fun a => pure (f a)) (y >>= fun a => pure (g a))) (hq : ∀ a a', P (f a) (g a') → Q a a') : Rx Q x y := by
  cases x <;> cases y
  · exact .err _ _
  · cases h
  · cases h
  · cases h with | ok h => exact .ok (hq _ _ h)

private def endMonad : Result (K × V) T → Option T × Out K V
  | .Ok kv => (none, .kv (some kv))
  | .Err t => (some t, .kv none)
private def endRemove : Result (Option T × (K × V)) T → Option T × Out K V
  | .Ok r => Exec.removed r
  | .Err t => (some t, .kv none)

private theorem step_intoMonad (t : T) : Exec.stepTree t (Op.intoMonad : Op K V) = VebTree.intoMonad t >>= fun a => pure (endMonad a) := by
  simp only [Exec.stepTree]
  cases VebTree.intoMonad t with
  | error e => rfl
  | ok a => cases a <;> rfl
private theorem step_remove (t : T) (k : K) : Exec.stepTree t (Op.remove k : Op K V) = VebTree.remove t k >>= fun a => pure (endRemove a) := by
  simp only [Exec.stepTree]
  cases VebTree.remove t k with
  | error e => rfl
  | ok a => cases a <;> rfl

theorem mutX_of_write {t : T} {t' : T'} {x : Option (K × V × (V → T))} {y : Option (K × V × (V → T'))} [Nonempty V]
    (h : ∀ w, Option.Rel Together (Exec.writeOpt t w x).1 (Exec.writeOpt t' w y).1 ∧
      (Exec.writeOpt t' w y).2 = (Exec.writeOpt t w x).2) : Option.Rel (MutX id id Together) x y := by
  rcases x with _ | ⟨k, v, put⟩ <;> rcases y with _ | ⟨k', v', put'⟩
  · exact .none
  · obtain ⟨w⟩ := ‹Nonempty V›
    cases (h w).2
  · obtain ⟨w⟩ := ‹Nonempty V›
    cases (h w).2
  · have hw := (h v).2
    simp only [Exec.writeOpt, Out.kv.injEq, Option.some.injEq, Prod.mk.injEq] at hw
    refine .some ⟨hw.1, hw.2, fun w => ?_⟩
    have := (h w).1
    simp only [Exec.writeOpt] at this
    cases this with
    | some h => exact h

theorem rx_writes {t : T} {t' : T'} {x : R (Option (K × V × (V → T)))} {y : R (Option (K × V × (V → T')))} [hV : Nonempty V]
    (h : ∀ w, Rx (fun a b => Option.Rel Together a.1 b.1 ∧ b.2 = a.2) (x >>= fun a => pure (Exec.writeOpt t w a))
      (y >>= fun a => pure (Exec.writeOpt t' w a))) : Rx (Option.Rel (MutX id id Together)) x y := by
  cases x <;> cases y
  · exact .err _ _
  · obtain ⟨w⟩ := hV; cases h w
  · obtain ⟨w⟩ := hV; cases h w
  · refine .ok (mutX_of_write (t := t) (t' := t') fun w => ?_)
    cases h w with | ok h => exact h

theorem rx_removed {x : Option T × (K × V)} {y : Option T' × (K × V)}
    (h : Option.Rel Together (Exec.removed x).1 (Exec.removed y).1 ∧ (Exec.removed y).2 = (Exec.removed x).2) :
    RemX id id Together x y := by
  obtain ⟨o, p⟩ := x
  obtain ⟨o', q⟩ := y
  simp only [Exec.removed, Out.kv.injEq, Option.some.injEq] at h
  exact ⟨h.1, h.2⟩

theorem optX_ident (x y : Option (K × V)) (h : y = x) : OptX id id x y := by
  subst h; cases y <;> rfl

/-- Tree types that answer alike simulate each other. -/
theorem AnswerAlike.same (H : AnswerAlike T T') : SameTree (T := T) (T' := T') id id Together := by
  constructor
  case fromMonad => intro k v; exact ⟨[.insert k v], _, _, rfl, rfl⟩
  case isMonad =>
    intro t t' h
    exact rx_of_step (H.stepTree h .isMonad) fun a b hab => by simpa using hab.2
  case intoMonad =>
    intro t t' h
    have h0 := H.stepTree h .intoMonad
    rw [step_intoMonad, step_intoMonad] at h0
    refine rx_of_step h0 ?_
    rintro (a | a) (b | b) ⟨h1, h2⟩
    · exact .ok (by simpa [endMonad, EntX, kvf] using h2)
    · cases h2
    · cases h2
    · cases h1 with | some h1 => exact .err h1
  case minVal =>
    intro t t' h
    exact rx_of_step (H.stepTree h .minVal) fun a b hab => by simpa [EntX, kvf] using hab.2
  case maxVal =>
    intro t t' h
    exact rx_of_step (H.stepTree h .maxVal) fun a b hab => by simpa [EntX, kvf] using hab.2
  case minValMut =>
    intro t t' h
    have := h.value
    have h1 : Rx (Option.Rel (MutX id id Together)) ((VebTree.minValMut t).map some) ((VebTree.minValMut t').map some) :=
      rx_writes (t := t) (t' := t') fun w => by
        have := H.stepTree h (.minSet w)
        simp only [Exec.stepTree] at this
        cases hx : VebTree.minValMut t <;> cases hy : VebTree.minValMut t' <;> simp only [hx, hy] at this <;> exact this
    cases hx : VebTree.minValMut t <;> cases hy : VebTree.minValMut t' <;> simp only [hx, hy] at h1 <;> cases h1
    · exact .err _ _
    · rename_i h; cases h with | some h => exact .ok h
  case maxValMut =>
    intro t t' h
    have := h.value
    have h1 : Rx (Option.Rel (MutX id id Together)) ((VebTree.maxValMut t).map some) ((VebTree.maxValMut t').map some) :=
      rx_writes (t := t) (t' := t') fun w => by
        have := H.stepTree h (.maxSet w)
        simp only [Exec.stepTree] at this
        cases hx : VebTree.maxValMut t <;> cases hy : VebTree.maxValMut t' <;> simp only [hx, hy] at this <;> exact this
    cases hx : VebTree.maxValMut t <;> cases hy : VebTree.maxValMut t' <;> simp only [hx, hy] at h1 <;> cases h1
    · exact .err _ _
    · rename_i h; cases h with | some h => exact .ok h
  case find =>
    intro t t' h k
    exact rx_of_step (H.stepTree h (.find k)) fun a b hab => optX_ident _ _ (by simpa using hab.2)
  case predecessor =>
    intro t t' h k
    exact rx_of_step (H.stepTree h (.predecessor k)) fun a b hab => optX_ident _ _ (by simpa using hab.2)
  case successor =>
    intro t t' h k
    exact rx_of_step (H.stepTree h (.successor k)) fun a b hab => optX_ident _ _ (by simpa using hab.2)
  case findMut =>
    intro t t' h k
    have := h.value
    exact rx_writes (t := t) (t' := t') fun w => H.stepTree h (.findSet k w)
  case predecessorMut =>
    intro t t' h k
    have := h.value
    exact rx_writes (t := t) (t' := t') fun w => H.stepTree h (.predecessorSet k w)
  case successorMut =>
    intro t t' h k
    have := h.value
    exact rx_writes (t := t) (t' := t') fun w => H.stepTree h (.successorSet k w)
  case insert =>
    intro t t' h k v
    refine rx_of_step (H.stepTree h (.insert k v)) ?_
    rintro ⟨u, o⟩ ⟨u', o'⟩ ⟨h1, h2⟩
    simp only [Out.kv.injEq] at h2
    cases h1 with | some h1 => exact ⟨h1, optX_ident _ _ h2⟩
  case remove =>
    intro t t' h k
    have h0 := H.stepTree h (.remove k)
    rw [step_remove, step_remove] at h0
    refine rx_of_step h0 ?_
    rintro (a | a) (b | b) h
    · exact .ok (rx_removed h)
    · cases h.2
    · cases h.2
    · obtain ⟨h1, h2⟩ := h
      cases h1 with | some h1 => exact .err h1
  case removeMin =>
    intro t t' h
    exact rx_of_step (H.stepTree h .removeMin) fun a b hab => rx_removed hab
  case removeMax =>
    intro t t' h
    exact rx_of_step (H.stepTree h .removeMax) fun a b hab => rx_removed hab

/-- Tree types that simulate each other answer alike. -/
theorem SameTree.alike {S : T → T' → Prop} (h : SameTree id id S) : AnswerAlike T T' := by
  intro ops
  have := h.run ops (t := none) (t' := none) .none
  rw [show ops.map (Op.rename id id) = ops from List.map_id'' rename_ident ops] at this
  refine (this.map (Q := fun os os' => os' = os) fun a b hab => ?_).agree
  rw [hab.2, List.map_id'' out_rename_ident]

end
end Veb
