import Verif.SpecCollLeft
import Verif.Proof.CollHist
import Verif.Proof.HonestColl
import Verif.Proof.Crate

/-!
What caught panics leave of the collections of the crate.
-/

set_option autoImplicit false
set_option linter.unusedSectionVars false

namespace Veb
namespace CollLeft

theorem put_upd {Hi T : Type} [DecidableEq Hi] (M : Map Hi T) (h : Hi) (o : Option T) : put M h o = M.upd h o := by
  funext j; simp [put, Map.upd]

/-- what is held represents a map -/
def Rep {C Hi T : Type} (Inv : C → Prop) (abs : C → Map Hi T) : Option C → Option (Map Hi T) → Prop
  | none, M => M = none
  | some c, M => Inv c ∧ M = some (abs c)

theorem Rep.mono {C Hi T : Type} {Inv Inv' : C → Prop} {abs : C → Map Hi T} (hi : ∀ c, Inv c → Inv' c) {c : Option C}
    {M : Option (Map Hi T)} (h : Rep Inv abs c M) : Rep Inv' abs c M := by
  cases c with
  | none => exact h
  | some c => exact ⟨hi c h.1, h.2⟩

/-- a tree type of which nothing is known except how it is made -/
@[reducible] def stub {T Lo V : Type} (mk : Lo → V → T) : VebTree T Lo V where
  fromMonad := mk
  isMonad _ := .error .unreachable
  lenHint _ := .error .unreachable
  intoMonad _ := .error .unreachable
  minVal _ := .error .unreachable
  minValMut _ := .error .unreachable
  maxVal _ := .error .unreachable
  maxValMut _ := .error .unreachable
  find _ _ := .error .unreachable
  findMut _ _ := .error .unreachable
  predecessor _ _ := .error .unreachable
  predecessorMut _ _ := .error .unreachable
  successor _ _ := .error .unreachable
  successorMut _ _ := .error .unreachable
  insert _ _ _ := .error .unreachable
  remove _ _ := .error .unreachable
  removeMin _ := .error .unreachable
  removeMax _ := .error .unreachable

section
variable {σ C Hi T Lo V : Type}

/-- all but `insert_key` do what they do without a state -/
structure Follow (own : Panic → Prop) (W : C → Prop) (A : ActColl σ C Hi T Lo V) (B : TreeCollection C Hi T Lo V) : Prop where
  create : ∀ h t, Follows own W (A.create h t) (B.create h t)
  get : ∀ c h, W c → Follows own (fun _ => True) (A.get c h) (B.get c h)
  getMut : ∀ c h, W c → Follows own (fun o => ∀ p, o = some p → ∀ u, W (p.2 u)) (A.getMut c h) (B.getMut c h)
  removeKey : ∀ c h f g, W c → (∀ t, Follows own (fun _ => True) (f t) (g t)) →
    Follows own (fun r => AllO (fun p : C × Bool => W p.1) r.1) (A.removeKey c h f) (B.removeKey c h g)
  maybeRemoveKey : ∀ c h f g, W c → (∀ t, Follows own (fun _ => True) (f t) (g t)) →
    Follows own (fun r => match r with
      | .Ok r => AllO (fun p : C × Bool => W p.1) r.1
      | .Err c => W c) (A.maybeRemoveKey c h f) (B.maybeRemoveKey c h g)
  /-- the closure is called at most once -/
  removeOnce : ∀ c h f s, W c → (∃ e, own e ∧ A.removeKey c h f s = .error e) ∨
    ∃ s1, A.removeKey c h f s = A.removeKey c h (fun t _ => f t s1) s
  maybeOnce : ∀ c h f s, W c → (∃ e, own e ∧ A.maybeRemoveKey c h f s = .error e) ∨
    ∃ s1, A.maybeRemoveKey c h f s = A.maybeRemoveKey c h (fun t _ => f t s1) s

/-- a closure that no longer looks at the state -/
theorem follows_const {α : Type} (own : Panic → Prop) (y : R (α × σ)) :
    Follows own (fun _ => True) (fun _ : σ => y : Act σ α) (y.map Prod.fst) := by
  intro s
  rcases y with e | ⟨a, s'⟩
  · exact .inr ⟨e, rfl, .inl rfl⟩
  · exact .inl ⟨a, s', rfl, rfl, trivial⟩

variable [DecidableEq Hi] [ActTree σ T Lo V] [ActUnwinds σ T Lo V] [A : ActColl σ C Hi T Lo V]
  [CollUnwinds σ C Hi Lo V]
variable {own : Panic → Prop} {absent : Panic} {table : Prop} {W : C → Prop}

/-- not an insertion -/
def NoInsert : ACOp σ Hi T Lo V → Prop
  | .insert _ _ _ => False
  | _ => True

theorem create_follow [VebTree T Lo V] [B : TreeCollection C Hi T Lo V] [L : LawfulColl C Hi T Lo V]
    (F : Follow own W A B) (h : Hi) (t : T) (s : σ) :
    (∃ c s', A.create h t s = .ok (c, s') ∧ (L.Inv c ∧ W c) ∧ L.abs c = put Map.empty h (some t)) ∨
      ∃ e, own e ∧ A.create h t s = .error e := by
  obtain ⟨c, h1, h2, h3⟩ := L.create h t
  rcases F.create h t s with ⟨a, s', h4, h5, h6⟩ | ⟨p, h4, h5⟩
  · rw [h1] at h4; cases h4
    refine .inl ⟨c, s', h5, ⟨h2, h6⟩, ?_⟩
    rw [h3, put_upd]; rfl
  · rw [h1] at h5
    exact .inr ⟨p, h5.resolve_left (by simp), h4⟩

theorem removed_follow [VebTree T Lo V] [B : TreeCollection C Hi T Lo V] [L : LawfulColl C Hi T Lo V] {c : C} {h : Hi}
    {o : Option T} {res : Option (C × Bool)} {val : Lo × V} (h1 : CollRemOk L.Inv L.abs c h o res)
    (h2 : AllO (fun p : C × Bool => W p.1) res) :
    ∃ M', Removed (put (L.abs c) h o) o val (ActCollExec.removed (Hi := Hi) (T := T) (res, val)).2 M' ∧
      Rep (fun c => L.Inv c ∧ W c) L.abs (ActCollExec.removed (Hi := Hi) (T := T) (res, val)).1 M' := by
  obtain _ | ⟨c', b⟩ := res
  · obtain ⟨rfl, h3⟩ := h1
    refine ⟨none, ?_, rfl⟩
    rw [Removed, put_upd, if_pos h3]
    exact ⟨rfl, rfl⟩
  · obtain ⟨rfl, h3, h4⟩ := h1
    have hne : put (L.abs c) h o ≠ Map.empty := by
      obtain ⟨k, hk⟩ := L.nonempty c' h3
      rw [put_upd, ← h4]
      intro e
      exact hk (congrFun e k)
    refine ⟨some (L.abs c'), ?_, ⟨h3, h2 _ rfl⟩, rfl⟩
    rw [Removed, if_neg hne, put_upd, h4]
    exact ⟨rfl, rfl⟩

/-- everything but insertions, on a lawful collection -/
theorem call_follow [VebTree T Lo V] [B : TreeCollection C Hi T Lo V] [L : LawfulColl C Hi T Lo V]
    (F : Follow own W A B) (c : C) (s : σ) (op : ACOp σ Hi T Lo V) (I : L.Inv c) (w : W c) (hn : NoInsert op) :
    ∃ M', Call own L.absent table (some (L.abs c)) op (ActCollExec.stepCollU c s op).2 M' ∧
      Rep (fun c => L.Inv c ∧ W c) L.abs (ActCollExec.stepCollU c s op).1 M' := by
  cases op with
  | insert h l v => exact hn.elim
  | create h t =>
    rcases create_follow F h t s with ⟨c', s', h1, h2, h3⟩ | ⟨e, h1, h2⟩
    · refine ⟨some (L.abs c'), ?_⟩
      simp only [ActCollExec.stepCollU, h1, ActCollExec.leave]
      exact ⟨⟨rfl, by rw [h3]⟩, h2, rfl⟩
    · refine ⟨some (L.abs c), ?_⟩
      simp only [ActCollExec.stepCollU, h2, ActCollExec.leave]
      exact ⟨⟨h1, rfl⟩, ⟨I, w⟩, rfl⟩
  | get h =>
    refine ⟨some (L.abs c), ?_⟩
    rcases F.get c h w s with ⟨a, s', h4, h5, -⟩ | ⟨p, h4, h5⟩
    · rw [L.get c h I] at h4; cases h4
      simp only [ActCollExec.stepCollU, h5, ActCollExec.leave]
      exact ⟨⟨rfl, rfl⟩, ⟨I, w⟩, rfl⟩
    · rw [L.get c h I] at h5
      simp only [ActCollExec.stepCollU, h4, ActCollExec.leave]
      exact ⟨⟨h5.resolve_left (by simp), rfl⟩, ⟨I, w⟩, rfl⟩
  | set h u =>
    cases e : L.abs c h with
    | none =>
      refine ⟨some (L.abs c), ?_⟩
      rcases F.getMut c h w s with ⟨a, s', h4, h5, -⟩ | ⟨p, h4, h5⟩
      · rw [L.getMut_none c h I e] at h4; cases h4
        simp only [ActCollExec.stepCollU, h5, ActCollExec.leave]
        exact ⟨⟨by rw [e], by simp [e]⟩, ⟨I, w⟩, rfl⟩
      · rw [L.getMut_none c h I e] at h5
        simp only [ActCollExec.stepCollU, h4, ActCollExec.leave]
        exact ⟨⟨h5.resolve_left (by simp), rfl⟩, ⟨I, w⟩, rfl⟩
    | some t =>
      obtain ⟨put', h1, h2⟩ := L.getMut_some c h t I e
      rcases F.getMut c h w s with ⟨a, s', h4, h5, h6⟩ | ⟨p, h4, h5⟩
      · rw [h1] at h4; cases h4
        simp only [ActCollExec.stepCollU, h5, ActCollExec.leave]
        refine ⟨some (L.abs (put' u)), ⟨by rw [e], ?_⟩, ⟨(h2 u).1, h6 _ rfl u⟩, rfl⟩
        rw [e, (h2 u).2, put_upd]; rfl
      · rw [h1] at h5
        simp only [ActCollExec.stepCollU, h4, ActCollExec.leave]
        exact ⟨some (L.abs c), ⟨h5.resolve_left (by simp), rfl⟩, ⟨I, w⟩, rfl⟩
  | remove h r =>
    rcases F.removeOnce c h r s w with ⟨e, h1, h2⟩ | ⟨s1, h1⟩
    · refine ⟨none, ?_⟩
      simp only [ActCollExec.stepCollU, h2, ActCollExec.leave]
      exact ⟨⟨rfl, .inl h1⟩, rfl⟩
    have h3 := F.removeKey c h (fun t _ => r t s1) (fun t => (r t s1).map Prod.fst) w (fun t => follows_const own _) s
    simp only [ActCollExec.stepCollU, h1]
    cases e : L.abs c h with
    | none =>
      rw [L.removeKey_absent c h _ I e] at h3
      rcases h3 with ⟨_, _, h4, _⟩ | ⟨p, h4, h5⟩
      · cases h4
      · simp only [h4, ActCollExec.leave]
        refine ⟨none, ⟨rfl, ?_⟩, rfl⟩
        rcases h5 with h5 | h5
        · cases h5; rw [e]; exact .inr rfl
        · exact .inl h5
    | some t =>
      rcases er : r t s1 with p | ⟨⟨o, val⟩, s2⟩
      · rw [L.removeKey_panic c h t (fun t => (r t s1).map Prod.fst) p I e (by rw [er]; rfl)] at h3
        rcases h3 with ⟨_, _, h4, _⟩ | ⟨q, h4, h5⟩
        · cases h4
        · simp only [h4, ActCollExec.leave]
          refine ⟨none, ⟨rfl, ?_⟩, rfl⟩
          rcases h5 with h5 | h5
          · cases h5; rw [e]; exact .inr ⟨s1, er⟩
          · exact .inl h5
      · obtain ⟨res, h5, h6⟩ := L.removeKey c h t (fun t => (r t s1).map Prod.fst) o val I e (by rw [er]; rfl)
        rw [h5] at h3
        rcases h3 with ⟨_, s3, h4, h7, h8⟩ | ⟨q, h4, h7⟩
        · cases h4
          simp only [h7, ActCollExec.leave]
          obtain ⟨M', h9, h10⟩ := removed_follow (val := val) h6 h8
          exact ⟨M', ⟨t, s1, o, val, s2, e, er, h9⟩, h10⟩
        · simp only [h4, ActCollExec.leave]
          exact ⟨none, ⟨rfl, .inl (h7.resolve_left (by simp))⟩, rfl⟩
  | maybeRemove h r =>
    rcases F.maybeOnce c h r s w with ⟨e, h1, h2⟩ | ⟨s1, h1⟩
    · refine ⟨none, ?_⟩
      simp only [ActCollExec.stepCollU, h2, ActCollExec.leave]
      exact ⟨⟨rfl, .inl h1⟩, rfl⟩
    have h3 := F.maybeRemoveKey c h (fun t _ => r t s1) (fun t => (r t s1).map Prod.fst) w (fun t => follows_const own _) s
    simp only [ActCollExec.stepCollU, h1]
    cases e : L.abs c h with
    | none =>
      rw [L.maybe_absent c h _ I e] at h3
      rcases h3 with ⟨_, s3, h4, h7, h8⟩ | ⟨p, h4, h5⟩
      · cases h4
        simp only [h7, ActCollExec.leave]
        refine ⟨some (L.abs c), ?_, ⟨I, w⟩, rfl⟩
        simp only [Call, Returns, e, and_self]
      · simp only [h4, ActCollExec.leave]
        exact ⟨none, ⟨rfl, .inl (h5.resolve_left (by simp))⟩, rfl⟩
    | some t =>
      rcases er : r t s1 with p | ⟨⟨o, val⟩ | t', s2⟩
      · rw [L.maybe_panic c h t (fun t => (r t s1).map Prod.fst) p I e (by rw [er]; rfl)] at h3
        rcases h3 with ⟨_, _, h4, _⟩ | ⟨q, h4, h5⟩
        · cases h4
        · simp only [h4, ActCollExec.leave]
          refine ⟨none, ⟨rfl, ?_⟩, rfl⟩
          rcases h5 with h5 | h5
          · cases h5; exact .inr ⟨t, s1, e, er⟩
          · exact .inl h5
      · obtain ⟨res, h5, h6⟩ := L.maybe_ok c h t (fun t => (r t s1).map Prod.fst) o val I e (by rw [er]; rfl)
        rw [h5] at h3
        rcases h3 with ⟨_, s3, h4, h7, h8⟩ | ⟨q, h4, h7⟩
        · cases h4
          simp only [h7, ActCollExec.leave]
          obtain ⟨M', h9, h10⟩ := removed_follow (val := val) h6 h8
          refine ⟨M', ?_, h10⟩
          simp only [Call, Returns, e]
          exact .inr ⟨s1, o, val, s2, er, h9⟩
        · simp only [h4, ActCollExec.leave]
          exact ⟨none, ⟨rfl, .inl (h7.resolve_left (by simp))⟩, rfl⟩
      · obtain ⟨c', h5, h6⟩ := L.maybe_err' c h t (fun t => (r t s1).map Prod.fst) t' I e (by rw [er]; rfl)
        rw [h5] at h3
        rcases h3 with ⟨_, s3, h4, h7, h8⟩ | ⟨q, h4, h7⟩
        · cases h4
          simp only [h7, ActCollExec.leave]
          refine ⟨some (L.abs c'), ?_, ⟨h6.1, h8⟩, rfl⟩
          simp only [Call, Returns, e]
          exact .inl ⟨s1, t', s2, er, trivial, by rw [h6.2, put_upd]⟩
        · simp only [h4, ActCollExec.leave]
          exact ⟨none, ⟨rfl, .inl (h7.resolve_left (by simp))⟩, rfl⟩

end

/-- what is needed of a collection -/
structure Laws (σ : Type) {C Hi T Lo V : Type} [ActTree σ T Lo V] [ActUnwinds σ T Lo V] [A : ActColl σ C Hi T Lo V]
    [CollUnwinds σ C Hi Lo V] (own : Panic → Prop) (absent : Panic) (table : Prop) (Inv : C → Prop) (abs : C → Map Hi T) :
    Prop where
  create : ∀ h t (s : σ), (∃ c s', A.create h t s = .ok (c, s') ∧ Inv c ∧ abs c = put Map.empty h (some t)) ∨
    ∃ e, own e ∧ A.create h t s = .error e
  call : ∀ c (s : σ) (op : ACOp σ Hi T Lo V), Inv c →
    ∃ M', Call own absent table (some (abs c)) op (ActCollExec.stepCollU c s op).2 M' ∧
      Rep Inv abs (ActCollExec.stepCollU c s op).1 M'

section
variable {σ C Hi T Lo V : Type} [ActTree σ T Lo V] [ActUnwinds σ T Lo V] [A : ActColl σ C Hi T Lo V]
  [CollUnwinds σ C Hi Lo V] {own : Panic → Prop} {absent : Panic} {table : Prop} {Inv : C → Prop} {abs : C → Map Hi T}

theorem Laws.step (L : Laws σ own absent table Inv abs) {c : Option C} {M : Option (Map Hi T)} (R : Rep Inv abs c M) (s : σ)
    (op : ACOp σ Hi T Lo V) :
    ∃ M', Call own absent table M op (ActCollExec.stepU c s op).2 M' ∧ Rep Inv abs (ActCollExec.stepU c s op).1 M' := by
  cases c with
  | none =>
    cases (show M = none from R)
    cases op with
    | create h t =>
      rcases L.create h t s with ⟨c, s', h1, h2, h3⟩ | ⟨e, h1, h2⟩
      · simp only [ActCollExec.stepU, h1, ActCollExec.leave]
        exact ⟨some (abs c), ⟨rfl, by rw [h3]⟩, h2, rfl⟩
      · simp only [ActCollExec.stepU, h2, ActCollExec.leave]
        exact ⟨none, ⟨h1, rfl⟩, rfl⟩
    | _ => exact ⟨none, ⟨rfl, rfl⟩, rfl⟩
  | some c =>
    obtain ⟨I, rfl⟩ := R
    exact L.call c s op I

theorem Laws.run (L : Laws σ own absent table Inv abs) {c : Option C} {M : Option (Map Hi T)} (R : Rep Inv abs c M)
    (es : List (σ × ACOp σ Hi T Lo V)) :
    ∃ M', Calls own absent table M (es.map Prod.snd) (ActCollExec.runU c es).2 M' ∧
      Rep Inv abs (ActCollExec.runU c es).1 M' := by
  induction es generalizing c M with
  | nil => exact ⟨M, ⟨rfl, rfl⟩, R⟩
  | cons e es ih =>
    obtain ⟨s, op⟩ := e
    obtain ⟨M1, h1, R1⟩ := L.step R s op
    obtain ⟨M', h2, R2⟩ := ih R1
    exact ⟨M', ⟨_, _, M1, rfl, h1, h2⟩, R2⟩

/-- a box -/
theorem Laws.box (L : Laws σ own absent table Inv abs) :
    Laws (C := Box C) σ own absent table (fun c => Inv c.val) (fun c => abs c.val) where
  create h t s := by
    have e : ActColl.create (C := Box C) h t s = (A.create h t s).map fun p => (⟨p.1⟩, p.2) := by
      show (A.create h t s >>= _) = _
      rcases A.create h t s with p | ⟨c, s'⟩ <;> rfl
    rcases L.create h t s with ⟨c, s', h1, h2, h3⟩ | ⟨p, h1, h2⟩
    · exact .inl ⟨⟨c⟩, s', by rw [e, h1]; rfl, h2, h3⟩
    · exact .inr ⟨p, h1, by rw [e, h2]; rfl⟩
  call c s op I := by
    have e : ActCollExec.stepCollU c s op =
        ((ActCollExec.stepCollU c.val s op).1.map Box.mk, (ActCollExec.stepCollU c.val s op).2) := by
      cases op with
      | create h t =>
        simp only [ActCollExec.stepCollU]
        have e : ActColl.create (C := Box C) h t s = (A.create h t s).map fun p => (⟨p.1⟩, p.2) := by
          show (A.create h t s >>= _) = _
          rcases A.create h t s with p | ⟨c, s'⟩ <;> rfl
        rw [e]
        rcases A.create h t s with p | ⟨c, s'⟩ <;> rfl
      | get h =>
        show ActCollExec.leave _ _ (A.get c.val h s) = _
        simp only [ActCollExec.stepCollU]
        rcases A.get c.val h s with p | ⟨c, s'⟩ <;> rfl
      | set h u =>
        show ActCollExec.leave _ _ (A.getMut c.val h s >>= _) = _
        simp only [ActCollExec.stepCollU]
        rcases A.getMut c.val h s with p | ⟨_ | ⟨t, put⟩, s'⟩ <;> rfl
      | insert h l v =>
        simp only [ActCollExec.stepCollU, CollUnwinds.insertKeyU]
        rfl
      | remove h r =>
        show ActCollExec.leave _ _ (A.removeKey c.val h r s >>= _) = _
        simp only [ActCollExec.stepCollU]
        rcases A.removeKey c.val h r s with p | ⟨⟨_ | ⟨t, b⟩, v⟩, s'⟩ <;> rfl
      | maybeRemove h r =>
        show ActCollExec.leave _ _ (A.maybeRemoveKey c.val h r s >>= _) = _
        simp only [ActCollExec.stepCollU]
        rcases A.maybeRemoveKey c.val h r s with p | ⟨⟨_ | ⟨t, b⟩, v⟩ | c', s'⟩ <;> rfl
    obtain ⟨M', h1, h2⟩ := L.call c.val s op I
    rw [e]
    refine ⟨M', h1, ?_⟩
    cases hc : (ActCollExec.stepCollU c.val s op).1 with
    | none => rw [hc] at h2; exact h2
    | some c' => rw [hc] at h2; exact h2

end

/-! ## Arrays -/

section
variable {σ Hi T Lo V : Type} {Us : Panic → Prop}

theorem act_ok {α β : Type} {x : Act σ α} {s s' : σ} {a : α} (h : x s = .ok (a, s')) (f : α → Act σ β) :
    (x >>= f) s = f a s' := by
  show (x s >>= _) = _
  rw [h]; rfl
theorem act_error {α β : Type} {x : Act σ α} {s : σ} {p : Panic} (h : x s = .error p) (f : α → Act σ β) :
    (x >>= f) s = .error p := by
  show (x s >>= _) = _
  rw [h]; rfl

theorem lift_ok {α : Type} {x : R α} {a : α} (h : x = .ok a) (s : σ) : (liftM x : Act σ α) s = .ok (a, s) := by
  rw [h]; rfl
theorem lift_error {α : Type} {x : R α} {p : Panic} (h : x = .error p) (s : σ) : (liftM x : Act σ α) s = .error p := by
  rw [h]; rfl

theorem array_follow [SizedVebKey Hi] [ActIndex σ Hi] [ActTree σ T Lo V] (H : SoundIndex σ Us Hi) (mk : Lo → V → T) :
    letI := stub mk
    Follow (σ := σ) (C := ArrayColl Hi T) Us (fun _ => True) inferInstance inferInstance := by
  let _ := stub mk
  let Q := @ArrayColl.agreeColl Us σ Hi T Lo V _ _ (ActTree.plain σ) (stub mk) (HTree.plain σ) H
  have w : ∀ c : ArrayColl Hi T, Q.W c := fun c i t _ => trivial
  refine ⟨fun h t => (Q.create h t trivial).mono fun _ _ => trivial, fun c h _ => (Q.get c h (w c)).mono fun _ _ => trivial,
    fun c h _ => (Q.getMut c h (w c)).mono fun _ _ _ _ _ => trivial,
    fun c h f g _ hf => (Q.removeKey c h f g (w c) fun t _ => (hf t).mono fun _ _ _ _ => trivial).mono fun _ _ _ _ => trivial,
    fun c h f g _ hf => (Q.maybeRemoveKey c h f g (w c) fun t _ => (hf t).mono fun r _ => ?_).mono fun r _ => ?_, ?_, ?_⟩
  · cases r with
    | Ok r => exact fun _ _ => trivial
    | Err r => trivial
  · cases r with
    | Ok r => exact fun _ _ => trivial
    | Err r => trivial
  · intro c h f s _
    show (∃ e, Us e ∧ ArrayColl.removeKeyA c h f s = _) ∨ ∃ s1, ArrayColl.removeKeyA c h f s = ArrayColl.removeKeyA c h _ s
    rcases H.index h s with ⟨s1, h1⟩ | ⟨p, h1, h2⟩
    · refine .inr ⟨s1, ?_⟩
      unfold ArrayColl.removeKeyA
      rw [act_ok h1, act_ok h1]
      rcases c.array.get (SizedVebKey.index h) with p | _ | t
      · rfl
      · rfl
      · rcases hp : c.array.put (SizedVebKey.index h) none with p | a <;> rfl
    · exact .inl ⟨p, h2, act_error h1 _⟩
  · intro c h f s _
    show (∃ e, Us e ∧ ArrayColl.maybeRemoveKeyA c h f s = _) ∨
      ∃ s1, ArrayColl.maybeRemoveKeyA c h f s = ArrayColl.maybeRemoveKeyA c h _ s
    rcases H.index h s with ⟨s1, h1⟩ | ⟨p, h1, h2⟩
    · refine .inr ⟨s1, ?_⟩
      unfold ArrayColl.maybeRemoveKeyA
      rw [act_ok h1, act_ok h1]
      rcases c.array.get (SizedVebKey.index h) with p | _ | t
      · rfl
      · rfl
      · rcases hp : c.array.put (SizedVebKey.index h) none with p | a <;> rfl
    · exact .inl ⟨p, h2, act_error h1 _⟩

theorem call_ret [ActTree σ T Lo V] [ActUnwinds σ T Lo V] {own : Panic → Prop} {absent : Panic} {table : Prop} {M : Map Hi T}
    {op : ACOp σ Hi T Lo V} {out : COut Hi T Lo V} {M' : Option (Map Hi T)} (h : Returns M op out M') :
    Call own absent table (some M) op (.ok out) M' := h
theorem call_pan [ActTree σ T Lo V] [ActUnwinds σ T Lo V] {own : Panic → Prop} {absent : Panic} {table : Prop} {M : Map Hi T}
    {op : ACOp σ Hi T Lo V} {e : Panic} {M' : Option (Map Hi T)} (h : Panics own absent table M op e M') :
    Call own absent table (some M) op (.error e) M' := h

/-- how an insertion in a tree that is there ends -/
theorem call_some [ActTree σ T Lo V] [ActUnwinds σ T Lo V] {own : Panic → Prop} {absent : Panic} {table : Prop} {M : Map Hi T}
    {h : Hi} {l : Lo} {v : V} {t t' : T} {s : σ} {r : R (Option (Lo × V) × σ)} (ht : M h = some t)
    (hr : ActUnwinds.insertUA t l v s = (t', r)) :
    Call own absent table (some M) (.insert h l v : ACOp σ Hi T Lo V) ((endInsert h r).map fun p => .inserted p.1)
      (some (put M h (some t'))) := by
  rcases r with e | ⟨o, s'⟩
  · refine call_pan ?_
    simp only [Panics, ht]
    exact .inr ⟨s, t', hr, rfl⟩
  · refine call_ret ?_
    simp only [Returns, ht]
    exact ⟨s, t', o, s', hr, rfl, rfl⟩

theorem array_laws [SizedVebKey Hi] [ActIndex σ Hi] [ActTree σ T Lo V] [ActUnwinds σ T Lo V] (H : SoundIndex σ Us Hi)
    (hg : GoodIndex Hi) :
    Laws (C := ArrayColl Hi T) σ Us (.expect "array should contain tree at key index") False ArrayColl.Inv ArrayColl.abs := by
  have := hg.lawful
  have := Classical.decEq Hi
  let _ := stub (ActTree.fromMonad σ (T := T))
  have F := array_follow H (ActTree.fromMonad σ (T := T))
  let L : LawfulColl (ArrayColl Hi T) Hi T Lo V := inferInstance
  refine ⟨fun h t s => ?_, fun c s op I => ?_⟩
  · rcases create_follow F h t s with ⟨c, s', h1, h2, h3⟩ | h1
    · exact .inl ⟨c, s', h1, h2.1, h3⟩
    · exact .inr h1
  by_cases hn : NoInsert op
  · obtain ⟨M', h1, h2⟩ := call_follow (L := L) (table := False) F c s op I trivial hn
    exact ⟨M', h1, h2.mono fun _ h => h.1⟩
  · cases op with
    | insert h l v =>
      show ∃ M', Call _ _ _ _ _ _ M' ∧ _
      simp only [ActCollExec.stepCollU, CollUnwinds.insertKeyU, orLeaveA]
      rcases H.index h s with ⟨s1, h1⟩ | ⟨p, h1, hp⟩
      · simp only [h1, ArrayColl.get_eq I]
        cases e : c.abs h with
        | none =>
          rcases H.index h s1 with ⟨s2, h2⟩ | ⟨p, h2, hp⟩
          · obtain ⟨c', h3, h4, h5⟩ := L.insert_none c h l v I e
            have h3 : ArrayColl.insertKey c h (l, v) = _ := h3
            simp only [ArrayColl.insertKey, ArrayColl.get_eq I, e, R.ok_bind, ArrayColl.put_eq I.1] at h3
            simp only [h2, ArrayColl.put_eq I.1]
            rcases ha : addUsize c.count 1 with q | n
            · rw [ha] at h3; cases h3
            · rw [ha] at h3
              cases h3
              refine ⟨_, ?_, h4, rfl⟩
              refine call_ret ?_
              simp only [Returns, e]
              exact ⟨trivial, by rw [put_upd]; exact congrArg some h5⟩
          · simp only [h2]
            refine ⟨_, ?_, I, rfl⟩
            refine call_pan ?_
            simp only [Panics, e]
            exact ⟨hp, .inl trivial⟩
        | some t =>
          rcases hr : ActUnwinds.insertUA t l v s1 with ⟨t', r⟩
          simp only [hr]
          obtain ⟨put', h2, h3⟩ := L.getMut_some c h t I e
          have h2 : ArrayColl.getMut c h = _ := h2
          simp only [ArrayColl.getMut, ArrayColl.get_eq I, e, R.ok_bind] at h2
          cases h2
          refine ⟨_, call_some e hr, (h3 t').1, ?_⟩
          rw [put_upd]
          exact congrArg some (h3 t').2.symm
      · simp only [h1]
        refine ⟨_, ?_, I, rfl⟩
        refine call_pan ?_
        simp only [Panics]
        cases e : c.abs h with
        | none => exact ⟨hp, .inl trivial⟩
        | some t => exact .inl ⟨hp, trivial⟩
    | _ => exact (hn trivial).elim

/-! ## Hash tables -/

theorem hash_follow [DecidableEq Hi] [ActHash σ Hi] [ActTree σ T Lo V] (H : SoundHash σ Us Hi) (mk : Lo → V → T) :
    letI := stub mk
    Follow (σ := σ) (C := HashMap Hi T) Us (fun c => HashMap.NodupKeys c.entries) inferInstance inferInstance := by
  let _ := stub mk
  let Q := @HashMap.agreeColl Us σ Hi T Lo V _ _ (ActTree.plain σ) (stub mk) (HTree.plain σ) H
  have w : ∀ c : HashMap Hi T, HashMap.NodupKeys c.entries → Q.W c := fun c h => ⟨h, fun _ _ => trivial⟩
  have w' : ∀ c : HashMap Hi T, Q.W c → HashMap.NodupKeys c.entries := fun c h => h.1
  refine ⟨fun h t => (Q.create h t trivial).mono w', fun c h I => (Q.get c h (w c I)).mono fun _ _ => trivial,
    fun c h I => (Q.getMut c h (w c I)).mono fun o ho p hp u => w' _ ((ho p hp).2 u trivial),
    fun c h f g I hf => (Q.removeKey c h f g (w c I) fun t _ => (hf t).mono fun _ _ _ _ => trivial).mono
      fun r hr p hp => w' _ (hr p hp),
    fun c h f g I hf => (Q.maybeRemoveKey c h f g (w c I) fun t _ => (hf t).mono fun r _ => ?_).mono fun r hr => ?_, ?_, ?_⟩
  · cases r with
    | Ok r => exact fun _ _ => trivial
    | Err r => trivial
  · cases r with
    | Ok r => exact fun p hp => w' _ (hr p hp)
    | Err r => exact w' _ hr
  · intro c h f s I
    show (∃ e, Us e ∧ HashMap.removeKeyA c h f s = _) ∨ ∃ s1, HashMap.removeKeyA c h f s = HashMap.removeKeyA c h _ s
    rcases HashMap.probe_good H (w c I) h with ⟨h1, -⟩ | ⟨i, t, h1, -⟩
    · rcases h1 s with ⟨s1, h1⟩ | ⟨p, h1, h2⟩
      · exact .inr ⟨s1, by unfold HashMap.removeKeyA; rw [act_ok h1, act_ok h1]⟩
      · exact .inl ⟨p, h2, act_error h1 _⟩
    · rcases h1 s with ⟨s1, h1⟩ | ⟨p, h1, h2⟩
      · exact .inr ⟨s1, by unfold HashMap.removeKeyA; rw [act_ok h1, act_ok h1]; rfl⟩
      · exact .inl ⟨p, h2, act_error h1 _⟩
  · intro c h f s I
    show (∃ e, Us e ∧ HashMap.maybeRemoveKeyA c h f s = _) ∨
      ∃ s1, HashMap.maybeRemoveKeyA c h f s = HashMap.maybeRemoveKeyA c h _ s
    rcases HashMap.probe_good H (w c I) h with ⟨h1, -⟩ | ⟨i, t, h1, -⟩
    · rcases h1 s with ⟨s1, h1⟩ | ⟨p, h1, h2⟩
      · exact .inr ⟨s1, by unfold HashMap.maybeRemoveKeyA; rw [act_ok h1, act_ok h1]⟩
      · exact .inl ⟨p, h2, act_error h1 _⟩
    · rcases h1 s with ⟨s1, h1⟩ | ⟨p, h1, h2⟩
      · exact .inr ⟨s1, by unfold HashMap.maybeRemoveKeyA; rw [act_ok h1, act_ok h1]; rfl⟩
      · exact .inl ⟨p, h2, act_error h1 _⟩

theorem lookup_filter [DecidableEq Hi] (c : HashMap Hi T) (p : Hi → Bool) (h : Hi) :
    (⟨c.entries.filter fun e => p e.1⟩ : HashMap Hi T).lookup h = if p h = true then c.lookup h else none := by
  obtain ⟨l⟩ := c
  induction l with
  | nil => simp [HashMap.lookup]
  | cons e l ih =>
    by_cases he : p e.1 = true
    · rw [List.filter_cons_of_pos (by simpa using he), HashMap.lookup_cons, ih, HashMap.lookup_cons]
      by_cases hh : e.1 = h
      · subst hh; simp [he]
      · simp [hh]
    · rw [List.filter_cons_of_neg (by simpa using he), ih, HashMap.lookup_cons]
      by_cases hh : e.1 = h
      · subst hh; simp [he]
      · simp [hh]

theorem hash_laws [DecidableEq Hi] [ActHash σ Hi] [ActRehash σ Hi] [ActTree σ T Lo V] [ActUnwinds σ T Lo V]
    (H : SoundHash σ Us Hi) :
    Laws (C := HashMap Hi T) σ Us .unreachable True (fun c => HashMap.NodupKeys c.entries) HashMap.lookup := by
  let _ := stub (ActTree.fromMonad σ (T := T))
  have F := hash_follow H (ActTree.fromMonad σ (T := T))
  let L : LawfulColl (HashMap Hi T) Hi T Lo V := inferInstance
  refine ⟨fun h t s => ?_, fun c s op I => ?_⟩
  · rcases create_follow F h t s with ⟨c, s', h1, h2, h3⟩ | h1
    · exact .inl ⟨c, s', h1, h2.2, h3⟩
    · exact .inr h1
  by_cases hn : NoInsert op
  · by_cases he : c.entries = []
    · -- no entry is left: the table answers that there is none
      obtain ⟨l⟩ := c
      cases he
      have hw : HashMap.HW (fun _ => True) (⟨[]⟩ : HashMap Hi T) := ⟨I, fun _ _ => trivial⟩
      have hp : ∀ h, AnswersOr Us ((⟨[]⟩ : HashMap Hi T).probeA (σ := σ) h) none := by
        intro h
        rcases HashMap.probe_good H hw h with h1 | ⟨i, t, -, h2, -⟩
        · exact h1.1
        · cases h2
      cases op with
      | insert h l v => exact hn.elim
      | create h t =>
        rcases create_follow F h t s with ⟨c', s', h1, h2, h3⟩ | ⟨e, h1, h2⟩
        · simp only [ActCollExec.stepCollU, h1, ActCollExec.leave]
          exact ⟨some (L.abs c'), ⟨rfl, by rw [h3]⟩, h2.2, rfl⟩
        · simp only [ActCollExec.stepCollU, h2, ActCollExec.leave]
          exact ⟨_, ⟨h1, rfl⟩, I, rfl⟩
      | get h =>
        rcases hp h s with ⟨s1, h1⟩ | ⟨p, h1, h2⟩
        · have : ActColl.get (⟨[]⟩ : HashMap Hi T) h s = .ok (none, s1) := by
            show HashMap.getA _ _ _ = _; unfold HashMap.getA; rw [act_ok h1]; rfl
          simp only [ActCollExec.stepCollU, this, ActCollExec.leave]
          exact ⟨_, ⟨rfl, rfl⟩, I, rfl⟩
        · have : ActColl.get (⟨[]⟩ : HashMap Hi T) h s = .error p := by
            show HashMap.getA _ _ _ = _; unfold HashMap.getA; rw [act_error h1]
          simp only [ActCollExec.stepCollU, this, ActCollExec.leave]
          exact ⟨_, ⟨h2, rfl⟩, I, rfl⟩
      | set h u =>
        rcases hp h s with ⟨s1, h1⟩ | ⟨p, h1, h2⟩
        · have : ActColl.getMut (⟨[]⟩ : HashMap Hi T) h s = .ok (none, s1) := by
            show HashMap.getMutA _ _ _ = _; unfold HashMap.getMutA; rw [act_ok h1]; rfl
          simp only [ActCollExec.stepCollU, this, ActCollExec.leave]
          exact ⟨_, ⟨rfl, rfl⟩, I, rfl⟩
        · have : ActColl.getMut (⟨[]⟩ : HashMap Hi T) h s = .error p := by
            show HashMap.getMutA _ _ _ = _; unfold HashMap.getMutA; rw [act_error h1]
          simp only [ActCollExec.stepCollU, this, ActCollExec.leave]
          exact ⟨_, ⟨h2, rfl⟩, I, rfl⟩
      | remove h r =>
        rcases hp h s with ⟨s1, h1⟩ | ⟨p, h1, h2⟩
        · have : ActColl.removeKey (⟨[]⟩ : HashMap Hi T) h r s = .error .unreachable := by
            show HashMap.removeKeyA _ _ _ _ = _; unfold HashMap.removeKeyA; rw [act_ok h1]; rfl
          simp only [ActCollExec.stepCollU, this, ActCollExec.leave]
          exact ⟨none, ⟨rfl, .inr rfl⟩, rfl⟩
        · have : ActColl.removeKey (⟨[]⟩ : HashMap Hi T) h r s = .error p := by
            show HashMap.removeKeyA _ _ _ _ = _; unfold HashMap.removeKeyA; rw [act_error h1]
          simp only [ActCollExec.stepCollU, this, ActCollExec.leave]
          exact ⟨none, ⟨rfl, .inl h2⟩, rfl⟩
      | maybeRemove h r =>
        rcases hp h s with ⟨s1, h1⟩ | ⟨p, h1, h2⟩
        · have : ActColl.maybeRemoveKey (⟨[]⟩ : HashMap Hi T) h r s = .ok (.Err ⟨[]⟩, s1) := by
            show HashMap.maybeRemoveKeyA _ _ _ _ = _; unfold HashMap.maybeRemoveKeyA; rw [act_ok h1]; rfl
          simp only [ActCollExec.stepCollU, this, ActCollExec.leave]
          exact ⟨_, ⟨rfl, rfl⟩, I, rfl⟩
        · have : ActColl.maybeRemoveKey (⟨[]⟩ : HashMap Hi T) h r s = .error p := by
            show HashMap.maybeRemoveKeyA _ _ _ _ = _; unfold HashMap.maybeRemoveKeyA; rw [act_error h1]
          simp only [ActCollExec.stepCollU, this, ActCollExec.leave]
          exact ⟨none, ⟨rfl, .inl h2⟩, rfl⟩
    · obtain ⟨M', h1, h2⟩ := call_follow (L := L) (table := True) F c s op ⟨I, he⟩ I hn
      exact ⟨M', h1, h2.mono fun _ h => h.2⟩
  · cases op with
    | insert h l v =>
      simp only [ActCollExec.stepCollU, CollUnwinds.insertKeyU, orLeaveA]
      have hw : HashMap.HW (fun _ => True) c := ⟨I, fun _ _ => trivial⟩
      rcases HashMap.probe_good H hw h with ⟨h1, e⟩ | ⟨i, t, h1, e, hi, -⟩
      · rcases h1 s with ⟨s1, h1⟩ | ⟨p, h1, hp⟩
        · simp only [h1]
          have hnew : HashMap.NodupKeys ((h, ActTree.fromMonad σ (T := T) l v) :: c.entries) := by
            simp only [HashMap.NodupKeys, List.map_cons, List.nodup_cons]
            exact ⟨HashMap.lookup_none.1 e, I⟩
          have habs : HashMap.lookup (⟨(h, ActTree.fromMonad σ (T := T) l v) :: c.entries⟩ : HashMap Hi T) =
              put c.lookup h (some (ActTree.fromMonad σ l v)) := by
            rw [put_upd]; exact HashMap.lookup_add c h _
          rcases H.hashing h s1 with ⟨s2, h2⟩ | ⟨p, h2, hp⟩
          · simp only [h2]
            rcases H.clone h s2 with ⟨s3, h3⟩ | ⟨p, h3, hp⟩
            · simp only [h3]
              refine ⟨_, ?_, hnew, rfl⟩
              refine call_ret ?_
              simp only [Returns, e]
              exact ⟨trivial, congrArg some habs⟩
            · simp only [h3]
              refine ⟨_, ?_, hnew, rfl⟩
              refine call_pan ?_
              simp only [Panics, e]
              exact ⟨hp, .inr ⟨trivial, .inl (congrArg some habs)⟩⟩
          · simp only [h2]
            refine ⟨_, ?_, ?_, rfl⟩
            · refine call_pan ?_
              simp only [Panics, e]
              refine ⟨hp, .inr ⟨trivial, .inr ⟨{j | ActRehash.kept (c.entries.map Prod.fst) h s1 j = true}, ?_⟩⟩⟩
              refine congrArg some (funext fun j => ?_)
              rw [lookup_filter]
              by_cases hk : ActRehash.kept (c.entries.map Prod.fst) h s1 j = true
              · rw [if_pos hk, if_pos (show j ∈ {j | ActRehash.kept (c.entries.map Prod.fst) h s1 j = true} from hk)]
              · rw [if_neg hk, if_neg (show j ∉ {j | ActRehash.kept (c.entries.map Prod.fst) h s1 j = true} from hk)]
            · exact List.Nodup.sublist (List.filter_sublist.map _) I
        · simp only [h1]
          refine ⟨_, ?_, I, rfl⟩
          refine call_pan ?_
          simp only [Panics, e]
          exact ⟨hp, .inl trivial⟩
      · rcases h1 s with ⟨s1, h1⟩ | ⟨p, h1, hp⟩
        · simp only [h1]
          rcases hr : ActUnwinds.insertUA t l v s1 with ⟨t', r⟩
          have ha : c.assignAt i h t' = c.assign h t' := HashMap.replaceAt_eq hw hi (some t')
          refine ⟨_, call_some e hr, ?_, ?_⟩
          · rw [ha]; exact (HashMap.assign_good (W := fun _ => True) hw h trivial).1
          · rw [ha, put_upd]
            exact congrArg some (HashMap.lookup_assign c h t t' e).symm
        · simp only [h1]
          refine ⟨_, ?_, I, rfl⟩
          refine call_pan ?_
          simp only [Panics, e]
          exact .inl ⟨hp, trivial⟩
    | _ => exact (hn trivial).elim

/-! ## `ByteMap` -/

theorem list_remove (l : List T) (i : Nat) (f : T → Act σ (Option T × (Lo × V))) (s : σ) :
    VecDeque.removeKeyA l i f s = VecDeque.removeKeyA l i (fun t _ => f t s) s := by
  unfold VecDeque.removeKeyA
  cases l[i]? <;> rfl
theorem list_maybe (l : List T) (i : Nat) (f : T → Act σ (Result (Option T × (Lo × V)) T)) (s : σ) :
    VecDeque.maybeRemoveKeyA l i f s = VecDeque.maybeRemoveKeyA l i (fun t _ => f t s) s := by
  unfold VecDeque.maybeRemoveKeyA
  cases l[i]? <;> rfl

theorem byte_follow [ActTree σ T Lo V] (mk : Lo → V → T) :
    letI := stub mk
    Follow (σ := σ) (C := ByteMap T) NoPanics (fun _ => True) inferInstance inferInstance := by
  let _ := stub mk
  let Q := @ByteMap.Coll.agreeColl NoPanics σ T Lo V (ActTree.plain σ) (stub mk) (HTree.plain σ)
  have w : ∀ c : ByteMap T, Q.W c := fun c t _ => trivial
  refine ⟨fun h t => (Q.create h t trivial).mono fun _ _ => trivial, fun c h _ => (Q.get c h (w c)).mono fun _ _ => trivial,
    fun c h _ => (Q.getMut c h (w c)).mono fun _ _ _ _ _ => trivial,
    fun c h f g _ hf => (Q.removeKey c h f g (w c) fun t _ => (hf t).mono fun _ _ _ _ => trivial).mono fun _ _ _ _ => trivial,
    fun c h f g _ hf => (Q.maybeRemoveKey c h f g (w c) fun t _ => (hf t).mono fun r _ => ?_).mono fun r _ => ?_, ?_, ?_⟩
  · cases r with
    | Ok r => exact fun _ _ => trivial
    | Err r => trivial
  · cases r with
    | Ok r => exact fun _ _ => trivial
    | Err r => trivial
  · intro c h f s _
    refine .inr ⟨s, ?_⟩
    show ByteMap.Coll.removeKeyA c h f s = ByteMap.Coll.removeKeyA c h _ s
    unfold ByteMap.Coll.removeKeyA
    rcases c.set.find h with p | _ | o
    · rfl
    · rfl
    · show (VecDeque.removeKeyA c.list _ f s >>= _) = (VecDeque.removeKeyA c.list _ _ s >>= _)
      rw [list_remove]
  · intro c h f s _
    refine .inr ⟨s, ?_⟩
    show ByteMap.Coll.maybeRemoveKeyA c h f s = ByteMap.Coll.maybeRemoveKeyA c h _ s
    unfold ByteMap.Coll.maybeRemoveKeyA
    rcases c.set.find h with p | _ | o
    · rfl
    · rfl
    · show (VecDeque.maybeRemoveKeyA c.list _ f s >>= _) = (VecDeque.maybeRemoveKeyA c.list _ _ s >>= _)
      rw [list_maybe]

theorem byte_laws [ActTree σ T Lo V] [ActUnwinds σ T Lo V] :
    Laws (C := ByteMap T) σ NoPanics .debugAssert False ByteMap.Inv ByteMap.abs := by
  let _ := stub (ActTree.fromMonad σ (T := T))
  have F := byte_follow (σ := σ) (ActTree.fromMonad σ (T := T))
  let L : LawfulColl (ByteMap T) (U 8) T Lo V := inferInstance
  refine ⟨fun h t s => ?_, fun c s op I => ?_⟩
  · rcases create_follow F h t s with ⟨c, s', h1, h2, h3⟩ | h1
    · exact .inl ⟨c, s', h1, h2.1, h3⟩
    · exact .inr h1
  by_cases hn : NoInsert op
  · obtain ⟨M', h1, h2⟩ := call_follow (L := L) (table := False) F c s op I trivial hn
    exact ⟨M', h1, h2.mono fun _ h => h.1⟩
  · cases op with
    | insert h l v =>
      simp only [ActCollExec.stepCollU, CollUnwinds.insertKeyU, ByteSet.insert, ByteSet.isPresent_eq]
      cases e : c.abs h with
      | none =>
        have hb := ByteMap.abs_none I e
        obtain ⟨h1, h2, h3⟩ := ByteMap.add_ok I hb (ActTree.fromMonad σ (T := T) l v)
        simp only [hb, Bool.false_eq_true, if_false, R.pure_eq, Option.isSome_none, ByteMap.countBelow', VecDeque.insertAt, h1,
          if_true]
        refine ⟨_, call_ret ?_, h2, rfl⟩
        simp only [Returns, e]
        exact ⟨trivial, by rw [put_upd]; exact congrArg some h3⟩
      | some t =>
        have hb := (ByteMap.mem_abs I).1 (Map.mem_of e)
        obtain ⟨a, h3, h4, h5⟩ := ByteMap.getMut_ok I hb
        obtain rfl : a = t := by rw [e] at h4; exact (Option.some.inj h4).symm
        have h6 := ByteMap.put_ok I hb
        simp only [hb, if_true, R.pure_eq, Option.isSome_some, h5]
        rcases hr : ActUnwinds.insertUA a l v s with ⟨t', r⟩
        simp only
        refine ⟨_, call_some e hr, (h6 t').1, ?_⟩
        rw [put_upd]
        exact congrArg some (h6 t').2.symm
    | _ => exact (hn trivial).elim

end

/-- the collections of the crate -/
theorem CatchColl.laws {σ C Hi T Lo V : Type} {Us : Panic → Prop} [ActTree σ T Lo V] [ActUnwinds σ T Lo V] [ActColl σ C Hi T Lo V]
    [CollUnwinds σ C Hi Lo V] {own : Panic → Prop} {absent : Panic} {table : Prop}
    (h : CatchColl σ Us C Hi T Lo V own absent table) :
    ∃ (Inv : C → Prop) (abs : C → Map Hi T), Laws σ own absent table Inv abs := by
  induction h with
  | array h hg => exact ⟨_, _, array_laws h hg⟩
  | hash h => exact ⟨_, _, hash_laws h⟩
  | byte => exact ⟨_, _, byte_laws⟩
  | box h ih =>
    obtain ⟨Inv, abs, L⟩ := ih
    exact ⟨_, _, L.box⟩

/-- they do what `insertKeyU` says -/
theorem LeftColl.faithful {σ C Hi T Lo V : Type} [ActTree σ T Lo V] [ActUnwinds σ T Lo V] [ActColl σ C Hi T Lo V]
    [CollUnwinds σ C Hi Lo V] (hT : ActFaithful σ T (K := Lo) (V := V)) (h : LeftColl σ C Hi T Lo V) :
    CollFaithful σ C (Hi := Hi) (T := T) (Lo := Lo) (V := V) := by
  induction h with
  | array =>
    rintro c h ⟨l, v⟩ s
    show (∃ c' o s', ArrayColl.insertKeyA c h (l, v) s = _ ∧ _) ∨ ∃ p, ArrayColl.insertKeyA c h (l, v) s = _ ∧ _
    simp only [CollUnwinds.insertKeyU, orLeaveA]
    unfold ArrayColl.insertKeyA
    rcases h1 : ActIndex.index h s with p | ⟨i, s1⟩
    · exact .inr ⟨p, act_error h1 _, rfl⟩
    rw [act_ok h1]
    simp only
    rcases hg : c.array.get i with p | _ | t
    · rw [act_error (lift_error rfl s1)]
      exact .inr ⟨p, rfl, rfl⟩
    · rw [act_ok (lift_ok rfl s1)]
      simp only
      rcases h2 : ActIndex.index h s1 with p | ⟨j, s2⟩
      · exact .inr ⟨p, act_error h2 _, rfl⟩
      rw [act_ok h2]
      simp only
      rcases hp : c.array.put j (some (ActTree.fromMonad σ l v)) with p | a
      · rw [act_error (lift_error rfl s2)]
        exact .inr ⟨p, rfl, rfl⟩
      · rw [act_ok (lift_ok rfl s2)]
        rcases ha : addUsize c.count 1 with p | n
        · rw [act_error (lift_error rfl s2)]
          exact .inr ⟨p, rfl, rfl⟩
        · rw [act_ok (lift_ok rfl s2)]
          exact .inl ⟨_, _, _, rfl, rfl⟩
    · rw [act_ok (lift_ok rfl s1)]
      simp only
      rcases hT t l v s1 with ⟨t', o, s', h2, h3⟩ | ⟨p, h2, h3⟩
      · rw [act_ok h2, h3]
        have hp : c.array.put i (some t') =
            .ok { c.array with slot := fun j => if j = i then some t' else c.array.slot j } := by
          simp only [OptionArray.get] at hg
          simp only [OptionArray.put]
          split at hg
          · rename_i hi; rw [if_pos hi]
          · cases hg
        simp only
        rw [act_ok (lift_ok hp s')]
        exact .inl ⟨_, _, _, rfl, rfl⟩
      · rw [act_error h2]
        refine .inr ⟨p, rfl, ?_⟩
        show endInsert h (ActUnwinds.insertUA t l v s1).2 = _
        rw [h3]; rfl
  | hash =>
    rintro c h ⟨l, v⟩ s
    show (∃ c' o s', HashMap.insertKeyA c h (l, v) s = _ ∧ _) ∨ ∃ p, HashMap.insertKeyA c h (l, v) s = _ ∧ _
    simp only [CollUnwinds.insertKeyU, orLeaveA]
    unfold HashMap.insertKeyA
    rcases h1 : c.probeA h s with p | ⟨_ | ⟨i, h', t⟩, s1⟩
    · exact .inr ⟨p, act_error h1 _, rfl⟩
    · rw [act_ok h1]
      simp only
      rcases h2 : ActHash.hashing h s1 with p | ⟨_, s2⟩
      · rw [act_error h2]; exact .inr ⟨p, rfl, rfl⟩
      rw [act_ok h2]
      simp only
      rcases h3 : ActHash.clone h s2 with p | ⟨h', s3⟩
      · rw [act_error h3]; exact .inr ⟨p, rfl, rfl⟩
      · rw [act_ok h3]; exact .inl ⟨_, _, _, rfl, rfl⟩
    · rw [act_ok h1]
      simp only
      rcases hT t l v s1 with ⟨t', o, s', h2, h3⟩ | ⟨p, h2, h3⟩
      · rw [act_ok h2, h3]
        exact .inl ⟨_, _, _, rfl, rfl⟩
      · rw [act_error h2]
        refine .inr ⟨p, rfl, ?_⟩
        show endInsert h (ActUnwinds.insertUA t l v s1).2 = _
        rw [h3]; rfl
  | byte =>
    rintro c h ⟨l, v⟩ s
    show (∃ c' o s', ByteMap.Coll.insertKeyA c h (l, v) s = _ ∧ _) ∨ ∃ p, ByteMap.Coll.insertKeyA c h (l, v) s = _ ∧ _
    simp only [CollUnwinds.insertKeyU]
    unfold ByteMap.Coll.insertKeyA
    rcases h1 : c.set.insert h () with p | ⟨set, r⟩
    · rw [act_error (lift_error rfl s)]
      exact .inr ⟨p, rfl, rfl⟩
    rw [act_ok (lift_ok rfl s)]
    simp only
    split
    · rcases h2 : VecDeque.getMut c.list (c.set.countBelow h) with p | ⟨t, put⟩
      · rw [act_error (lift_error rfl s)]
        exact .inr ⟨p, rfl, rfl⟩
      rw [act_ok (lift_ok rfl s)]
      simp only
      rcases hT t l v s with ⟨t', o, s', h2, h3⟩ | ⟨p, h2, h3⟩
      · rw [act_ok h2, h3]
        exact .inl ⟨_, _, _, rfl, rfl⟩
      · rw [act_error h2]
        refine .inr ⟨p, rfl, ?_⟩
        show endInsert h (ActUnwinds.insertUA t l v s).2 = _
        rw [h3]; rfl
    · rcases h2 : VecDeque.insertAt c.list (c.set.countBelow h) (ActTree.fromMonad σ l v) with p | l
      · rw [act_error (lift_error rfl s)]
        exact .inr ⟨p, rfl, rfl⟩
      · rw [act_ok (lift_ok rfl s)]
        exact .inl ⟨_, _, _, rfl, rfl⟩
  | box h ih =>
    rintro ⟨c⟩ h ⟨l, v⟩ s
    rcases ih hT c h (l, v) s with ⟨c', o, s', h1, h2⟩ | ⟨p, h1, h2⟩
    · refine .inl ⟨⟨c'⟩, o, s', ?_, ?_⟩
      · show (ActColl.insertKey c h (l, v) s >>= _) = _
        rw [h1]; rfl
      · show ((⟨(CollUnwinds.insertKeyU c h (l, v) s).1⟩ : Box _), (CollUnwinds.insertKeyU c h (l, v) s).2) = _
        rw [h2]
    · refine .inr ⟨p, ?_, h2⟩
      show (ActColl.insertKey c h (l, v) s >>= _) = _
      rw [h1]; rfl

end CollLeft
end Veb
