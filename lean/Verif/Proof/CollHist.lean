import Verif.SpecColl
import Verif.Model.CollExec
import Verif.Proof.Crate

/-!
A lawful collection follows the specification of collections over every history.
-/

set_option autoImplicit false
set_option linter.unusedSectionVars false

namespace Veb
variable {C Hi T Lo V : Type} [LinearOrder Hi] [VebTree T Lo V] [TreeCollection C Hi T Lo V]

theorem CollSpec.put_eq (M : Map Hi T) (h : Hi) (o : Option T) : CollSpec.put M h o = M.upd h o := by
  funext j; simp [CollSpec.put, Map.upd]

/-- An optional collection represents a map. -/
def CollRep [L : LawfulColl C Hi T Lo V] (c : Option C) (M : Map Hi T) : Prop :=
  match c with
  | none => M = Map.empty
  | some c => L.Inv c ∧ L.abs c = M

theorem CollRep.none_iff [L : LawfulColl C Hi T Lo V] {c : Option C} {M : Map Hi T} (h : CollRep c M) :
    c = none ↔ M = Map.empty := by
  cases c with
  | none => exact ⟨fun _ => h, fun _ => rfl⟩
  | some c =>
    refine ⟨fun h => (by cases h), fun hM => ?_⟩
    obtain ⟨I, rfl⟩ := h
    obtain ⟨k, hk⟩ := L.nonempty c I
    exact absurd (congrFun hM k) hk

/-- How an outcome of the model and one of the specification correspond. -/
def CollSim {O : Type} [LawfulColl C Hi T Lo V] (a : R (Option C × O)) (b : R (Map Hi T × O)) : Prop :=
  match b with
  | .error e => a = .error e
  | .ok (M, o) => ∃ c, a = .ok (c, o) ∧ CollRep c M

theorem coll_removed [L : LawfulColl C Hi T Lo V] {c : C} {h : Hi} {o : Option T}
    {res : Option (C × Bool)} (val : Lo × V) (hr : CollRemOk L.Inv L.abs c h o res) :
    ∃ c', (CollExec.removed (res, val) : Option C × COut Hi T Lo V) =
        (c', .removed val (CollSpec.left ((L.abs c).upd h o) o)) ∧ CollRep c' ((L.abs c).upd h o) := by
  cases res with
  | none =>
    obtain ⟨rfl, he⟩ := hr
    exact ⟨none, by simp [CollExec.removed, CollSpec.left, he], he⟩
  | some p =>
    obtain ⟨c', b⟩ := p
    obtain ⟨rfl, I, ha⟩ := hr
    have R : CollRep (some c') ((L.abs c).upd h o) := ⟨I, ha⟩
    have : (L.abs c).upd h o ≠ Map.empty := fun hM => by cases R.none_iff.2 hM
    exact ⟨some c', by simp [CollExec.removed, CollSpec.left, this], R⟩

theorem coll_step [L : LawfulColl C Hi T Lo V] {c : Option C} {M : Map Hi T} (R : CollRep c M)
    (op : COp Hi T Lo V) : CollSim (CollExec.step c op) (CollSpec.step L.absent M op) := by
  cases c with
  | none =>
    have hM : M = Map.empty := R
    subst hM
    cases op with
    | create h t =>
      obtain ⟨c, h1, I, ha⟩ := L.create h t
      simp only [CollSpec.step, if_true, CollSim, CollExec.step, h1, CollSpec.put_eq]
      exact ⟨some c, rfl, I, ha⟩
    | _ =>
      simp only [CollSpec.step, if_true, CollSim, CollExec.step]
      exact ⟨none, rfl, rfl⟩
  | some c =>
    have hM : M ≠ Map.empty := fun h => by cases R.none_iff.2 h
    obtain ⟨I, rfl⟩ := R
    simp only [CollSpec.step, if_neg hM, CollExec.step]
    cases op with
    | create h t =>
      obtain ⟨c, h1, I, ha⟩ := L.create h t
      simp only [CollSpec.stepMap, CollSim, CollExec.stepColl, h1, CollSpec.put_eq]
      exact ⟨some c, rfl, I, ha⟩
    | get h =>
      simp only [CollSpec.stepMap, CollSim, CollExec.stepColl, L.get c h I]
      exact ⟨some c, rfl, I, rfl⟩
    | set h u =>
      cases e : L.abs c h with
      | none =>
        simp only [CollSpec.stepMap, CollSim, CollExec.stepColl, e, L.getMut_none c h I e]
        exact ⟨some c, rfl, I, rfl⟩
      | some t =>
        obtain ⟨put, h1, h2⟩ := L.getMut_some c h t I e
        simp only [CollSpec.stepMap, CollSim, CollExec.stepColl, e, h1, CollSpec.put_eq]
        exact ⟨some (put u), rfl, h2 u⟩
    | insert h l v =>
      cases e : L.abs c h with
      | none =>
        obtain ⟨c', h1, h2⟩ := L.insert_none c h l v I e
        simp only [CollSpec.stepMap, CollSim, CollExec.stepColl, e, h1, CollSpec.put_eq]
        exact ⟨some c', rfl, h2⟩
      | some t =>
        cases hi : VebTree.insert t l v with
        | error x =>
          simp only [CollSpec.stepMap, CollSim, CollExec.stepColl, e, hi, L.insert_panic c h l v t x I e hi]
          rfl
        | ok p =>
          obtain ⟨t', o⟩ := p
          obtain ⟨c', h1, h2⟩ := L.insert_some c h l v t t' o I e hi
          simp only [CollSpec.stepMap, CollSim, CollExec.stepColl, e, hi, h1, CollSpec.put_eq]
          exact ⟨some c', rfl, h2⟩
    | remove h r =>
      cases e : L.abs c h with
      | none =>
        simp only [CollSpec.stepMap, CollSim, CollExec.stepColl, e, L.removeKey_absent c h r I e]
        rfl
      | some t =>
        cases hi : r t with
        | error x =>
          simp only [CollSpec.stepMap, CollSim, CollExec.stepColl, e, hi, L.removeKey_panic c h t r x I e hi]
          rfl
        | ok p =>
          obtain ⟨o, val⟩ := p
          obtain ⟨res, h1, h2⟩ := L.removeKey c h t r o val I e hi
          obtain ⟨c', h3, h4⟩ := coll_removed val h2
          simp only [CollSpec.stepMap, CollSim, CollExec.stepColl, e, hi, h1, CollSpec.put_eq]
          refine ⟨c', ?_, h4⟩
          rw [_root_.Veb.R.ok_bind, h3]; rfl
    | maybeRemove h r =>
      cases e : L.abs c h with
      | none =>
        simp only [CollSpec.stepMap, CollSim, CollExec.stepColl, e, L.maybe_absent c h r I e]
        exact ⟨some c, rfl, I, rfl⟩
      | some t =>
        cases hi : r t with
        | error x =>
          simp only [CollSpec.stepMap, CollSim, CollExec.stepColl, e, hi, L.maybe_panic c h t r x I e hi]
          rfl
        | ok p =>
          cases p with
          | Err t' =>
            obtain ⟨c', h1, h2⟩ := L.maybe_err' c h t r t' I e hi
            simp only [CollSpec.stepMap, CollSim, CollExec.stepColl, e, hi, h1, CollSpec.put_eq]
            exact ⟨some c', rfl, h2⟩
          | Ok q =>
            obtain ⟨o, val⟩ := q
            obtain ⟨res, h1, h2⟩ := L.maybe_ok c h t r o val I e hi
            obtain ⟨c', h3, h4⟩ := coll_removed val h2
            simp only [CollSpec.stepMap, CollSim, CollExec.stepColl, e, hi, h1, CollSpec.put_eq]
            refine ⟨c', ?_, h4⟩
            rw [_root_.Veb.R.ok_bind]
            show _ = _
            simp only [h3]; rfl

theorem coll_run [L : LawfulColl C Hi T Lo V] (ops : List (COp Hi T Lo V)) :
    ∀ {c : Option C} {M : Map Hi T}, CollRep c M →
      CollSim (CollExec.run c ops) (CollSpec.run L.absent M ops) := by
  induction ops with
  | nil => intro c M R; exact ⟨c, rfl, R⟩
  | cons op ops ih =>
    intro c M R
    have h := coll_step R op
    simp only [CollSpec.run, CollExec.run]
    cases e : CollSpec.step L.absent M op with
    | error x =>
      simp only [e, CollSim] at h ⊢
      rw [h]; rfl
    | ok p =>
      obtain ⟨M', o⟩ := p
      simp only [e, CollSim] at h
      obtain ⟨c', h1, R'⟩ := h
      have h2 := ih R'
      rw [h1]
      simp only [_root_.Veb.R.ok_bind]
      cases e2 : CollSpec.run L.absent M' ops with
      | error x =>
        simp only [e2, CollSim] at h2 ⊢
        rw [h2]; rfl
      | ok q =>
        obtain ⟨M'', os⟩ := q
        simp only [e2, CollSim] at h2 ⊢
        obtain ⟨c'', h3, R''⟩ := h2
        exact ⟨c'', by rw [h3]; rfl, R''⟩

/-- Whatever a history builds satisfies the invariant. -/
theorem coll_reach [L : LawfulColl C Hi T Lo V] {ops : List (COp Hi T Lo V)} {c : C}
    {os : List (COut Hi T Lo V)} (h : CollExec.run (none : Option C) ops = .ok (some c, os)) : L.Inv c := by
  have := coll_run (L := L) ops (c := none) (M := Map.empty) rfl
  rw [h] at this
  cases e : CollSpec.run L.absent Map.empty ops with
  | error x => rw [e] at this; cases this
  | ok p =>
    rw [e] at this
    obtain ⟨c', h1, R⟩ := this
    cases h1
    exact R.1

end Veb
