import Verif.SpecActUnwind
import Verif.Proof.Unwind
import Verif.Proof.AuditRun

/-!
Lemmas about caught panics over code of the user with a state.
-/

set_option autoImplicit false
set_option linter.unusedSectionVars false

namespace Veb

/-- `u` tells how `x` ends, and `Q` holds for what it leaves when that is a panic. -/
def Tells {σ T β : Type} (Q : T → Prop) (u : σ → T × R (β × σ)) (x : Act σ (T × β)) : Prop :=
  ∀ s, (∃ t b s', u s = (t, .ok (b, s')) ∧ x s = .ok ((t, b), s')) ∨ ∃ t e, u s = (t, .error e) ∧ x s = .error e ∧ Q t

namespace Tells
variable {σ T α β : Type} {Q Q' : T → Prop} {u : σ → T × R (β × σ)} {x : Act σ (T × β)}

theorem ret (t : T) (b : β) : Tells Q (fun s : σ => (t, .ok (b, s))) (pure (t, b)) := fun s => .inl ⟨t, b, s, rfl, rfl⟩
theorem bind {t : T} {y : Act σ α} {f : α → σ → T × R (β × σ)} {g : α → Act σ (T × β)} (h : Q t)
    (h' : ∀ a, Tells Q (f a) (g a)) : Tells Q (orLeaveA t y f) (y >>= g) := by
  intro s
  have e : (y >>= g) s = (y s >>= fun p => g p.1 p.2) := rfl
  rw [e]
  unfold orLeaveA
  cases hy : y s with
  | error p => exact .inr ⟨t, p, rfl, rfl, h⟩
  | ok p => exact h' p.1 p.2
theorem mono (h : Tells Q u x) (i : ∀ t, Q t → Q' t) : Tells Q' u x := fun s => (h s).imp_right fun ⟨t, e, h1, h2, h3⟩ =>
  ⟨t, e, h1, h2, i t h3⟩
end Tells

namespace Tree
variable {σ K V S C Hi Lo T : Type} [ActKey σ K Hi Lo] [ActTree σ S Hi Unit] [ActTree σ T Lo V] [ActColl σ C Hi T Lo V]

theorem insertBelowUA_tells (min : K × V) (data : TreeData K V S C) (k : K) (v : V) :
    Tells (σ := σ) (LeftBelow min data) (insertBelowUA min data k v) (insertBelowA min data k v) := by
  refine .bind (.inl rfl) fun p => ?_
  obtain ⟨hi, lo⟩ := p
  obtain ⟨mx, _ | ⟨s, c⟩⟩ := data
  · exact .bind (.inl rfl) fun c => .ret _ _
  · refine .bind (.inr rfl) fun p => ?_
    obtain ⟨c', hi' | ⟨hi', _ | ⟨lo', v'⟩⟩⟩ := p
    · exact .bind (.inr rfl) fun p => .ret _ _
    · exact .ret _ _
    · exact .bind (.inr rfl) fun k => .ret _ _

/-- What a panic in `insert` leaves, whatever the comparisons answer. -/
inductive LeftA (t : Tree K V S C) (k : K) (v : V) : Tree K V S C → Prop
  | same : LeftA t k v t
  | newMin {d : TreeData K V S C} (hd : t.data = some d) : LeftA t k v ⟨(k, v), some d⟩
  | below {d : TreeData K V S C} (hd : t.data = some d) {t' : Tree K V S C} (h : LeftBelow t.min d t') : LeftA t k v t'
  | newMax {d : TreeData K V S C} (hd : t.data = some d) {t' : Tree K V S C}
      (h : LeftBelow t.min { d with max := (k, v) } t') : LeftA t k v t'
  | swapped {d : TreeData K V S C} (hd : t.data = some d) {t' : Tree K V S C}
      (h : LeftBelow (k, v) { d with max := t.min } t') : LeftA t k v t'
  | wrong {d : TreeData K V S C} (hd : t.data = some d) {t' : Tree K V S C} (h : LeftBelow (k, v) d t') : LeftA t k v t'

theorem insertUA_tells (t : Tree K V S C) (k : K) (v : V) :
    Tells (σ := σ) (LeftA t k v) (insertUA t k v) (insertA t k v) := by
  refine .bind .same fun c => ?_
  obtain ⟨mn, _ | d⟩ := t
  · cases c <;> exact .ret _ _
  · cases c with
    | eq => exact .ret _ _
    | lt =>
      refine .bind (.newMin rfl) fun c => ?_
      cases c with
      | eq => exact .ret _ _
      | lt => exact (insertBelowUA_tells _ _ _ _).mono fun t h => .wrong rfl h
      | gt => exact (insertBelowUA_tells _ _ _ _).mono fun t h => .swapped rfl h
    | gt =>
      refine .bind .same fun c => ?_
      cases c with
      | eq => exact .ret _ _
      | lt => exact (insertBelowUA_tells _ _ _ _).mono fun t h => .below rfl h
      | gt => exact (insertBelowUA_tells _ _ _ _).mono fun t h => .newMax rfl h

end Tree

theorem BTreeMap.insertUA_tells {σ K V : Type} [ActOrd σ K] (t : BTreeMap K V) (k : K) (v : V) :
    Tells (σ := σ) (· = t) (ActUnwinds.insertUA t k v) (ActTree.insert t k v) := by
  show Tells (σ := σ) (· = t) _ (t.insertA k v)
  unfold insertA
  refine Tells.bind (Q := (· = t)) rfl fun r => ?_
  cases r.entry t.entries with
  | some p => exact .ret _ _
  | none =>
    refine Tells.bind (Q := (· = t)) rfl fun r => ?_
    intro s
    dsimp only
    cases r.entry t.entries with
    | some p => exact .inl ⟨_, _, _, rfl, rfl⟩
    | none => exact .inl ⟨_, _, _, rfl, rfl⟩

theorem Box.insertUA_tells {σ T K V : Type} [ActTree σ T K V] [ActUnwinds σ T K V] {Q : T → Prop} (t : Box T) (k : K) (v : V)
    (h : Tells (σ := σ) Q (ActUnwinds.insertUA t.val k v) (ActTree.insert t.val k v)) :
    Tells (σ := σ) (fun t => Q t.val) (ActUnwinds.insertUA t k v) (ActTree.insert t k v) := by
  intro s
  have e1 : ActTree.insert t k v s = (ActTree.insert t.val k v s >>= fun p => .ok ((⟨p.1.1⟩, p.1.2), p.2)) := rfl
  have e2 : ActUnwinds.insertUA t k v s =
    (⟨(ActUnwinds.insertUA t.val k v s).1⟩, (ActUnwinds.insertUA t.val k v s).2) := rfl
  rw [e1, e2]
  rcases h s with ⟨t', b, s', h1, h2⟩ | ⟨t', e, h1, h2, h3⟩
  · rw [h1, h2]; exact .inl ⟨_, _, _, rfl, rfl⟩
  · rw [h1, h2]; exact .inr ⟨_, _, rfl, rfl, h3⟩

theorem SizedVebTree.insertUA_tells {σ T K V : Type} [ActTree σ T K V] [ActUnwinds σ T K V] (t : SizedVebTree T) (k : K) (v : V)
    (h : Tells (σ := σ) (fun _ => True) (ActUnwinds.insertUA t.tree k v) (ActTree.insert t.tree k v)) :
    Tells (σ := σ) (fun _ => True) (ActUnwinds.insertUA t k v) (ActTree.insert t k v) := by
  intro s
  have e1 : ActTree.insert t k v s = (ActTree.insert t.tree k v s >>= fun p => (match p.1 with
    | (tree, o) => do
      if o.isNone then
        let size ← expect "size overflowed" (if t.size + 1 ≤ usizeMax then some (t.size + 1) else none)
        pure (⟨tree, size⟩, o)
      else pure (⟨tree, t.size⟩, o) : Act σ (SizedVebTree T × Option (K × V))) p.2) := rfl
  have e2 : ActUnwinds.insertUA t k v s = (match ActUnwinds.insertUA t.tree k v s with
    | (u, .error e) => (⟨u, t.size⟩, .error e)
    | (u, .ok (o, s)) =>
      if o.isNone then
        if t.size + 1 ≤ usizeMax then (⟨u, t.size + 1⟩, .ok (o, s))
        else (⟨u, t.size⟩, .error (.expect "size overflowed"))
      else (⟨u, t.size⟩, .ok (o, s))) := rfl
  rw [e1, e2]
  rcases h s with ⟨t', o, s', h1, h2⟩ | ⟨t', e, h1, h2, -⟩
  · rw [h1, h2]
    obtain _ | o := o
    · by_cases hn : t.size + 1 ≤ usizeMax
      · simp only [if_pos hn, Option.isNone_none, if_true]
        exact .inl ⟨_, _, _, rfl, rfl⟩
      · simp only [if_neg hn, Option.isNone_none, if_true]
        exact .inr ⟨_, _, rfl, rfl, trivial⟩
    · exact .inl ⟨_, _, _, rfl, rfl⟩
  · rw [h1, h2]; exact .inr ⟨_, _, rfl, rfl, trivial⟩

theorem ActUnwinds.plain_tells {σ T K V : Type} [VebTree T K V] (t : T) (k : K) (v : V) :
    Tells (σ := σ) (fun t' => t' = t) ((ActUnwinds.plain σ).insertUA t k v) ((ActTree.plain σ).insert t k v) := by
  intro s
  have e1 : (ActTree.plain σ).insert t k v s = (VebTree.insert t k v >>= fun p => .ok (p, s)) := rfl
  have e2 : (ActUnwinds.plain σ).insertUA t k v s = (match VebTree.insert t k v with
    | .error e => (t, .error e)
    | .ok (t, o) => (t, .ok (o, s))) := rfl
  rw [e1, e2]
  cases VebTree.insert t k v with
  | error e => exact .inr ⟨_, _, rfl, rfl, rfl⟩
  | ok p => exact .inl ⟨_, _, _, rfl, rfl⟩

section
variable {σ T K V : Type} [ActTree σ T K V] [ActUnwinds σ T K V]

theorem bind_map {α β γ : Type} {x : Act σ α} {F : α → Act σ β} {G : α → Act σ γ} {m : β × σ → γ × σ} {s : σ}
    (h : ∀ a s, G a s = (F a s).map m) : (x >>= G) s = ((x >>= F) s).map m := by
  have e1 : (x >>= F) s = (x s >>= fun p => F p.1 p.2) := rfl
  have e2 : (x >>= G) s = (x s >>= fun p => G p.1 p.2) := rfl
  rw [e1, e2]
  cases x s with
  | error p => rfl
  | ok p => exact h p.1 p.2
theorem bind_map2 {α α' β γ : Type} {x : Act σ α} {y : α → Act σ α'} {F : α → Act σ β} {G : α' → Act σ γ} {m : β × σ → γ × σ} {s : σ}
    (h : ∀ a s, (y a >>= G) s = (F a s).map m) : ((x >>= y) >>= G) s = ((x >>= F) s).map m := by
  rw [bind_assoc]
  exact bind_map h

/-- One call on a boxed tree. -/
theorem boxA_stepTree (t : T) (op : Op K V) (s : σ) :
    ActExec.stepTree (⟨t⟩ : Box T) op s = (ActExec.stepTree t op s).map fun r => ((r.1.1.map Box.mk, r.1.2), r.2) := by
  cases op with
  | insert k v => exact bind_map2 fun a s => rfl
  | remove k => exact bind_map2 fun a s => by rcases a with ⟨_ | t, e⟩ | t <;> rfl
  | removeMin => exact bind_map2 fun a s => by rcases a with ⟨_ | t, e⟩ <;> rfl
  | removeMax => exact bind_map2 fun a s => by rcases a with ⟨_ | t, e⟩ <;> rfl
  | find k => exact bind_map fun a s => rfl
  | predecessor k => exact bind_map fun a s => rfl
  | successor k => exact bind_map fun a s => rfl
  | minVal => exact bind_map fun a s => rfl
  | maxVal => exact bind_map fun a s => rfl
  | isMonad => exact bind_map fun a s => rfl
  | intoMonad => exact bind_map2 fun a s => by rcases a with e | t <;> rfl
  | findSet k w => exact bind_map2 fun a s => by rcases a with _ | a <;> rfl
  | predecessorSet k w => exact bind_map2 fun a s => by rcases a with _ | a <;> rfl
  | successorSet k w => exact bind_map2 fun a s => by rcases a with _ | a <;> rfl
  | minSet w => exact bind_map2 fun a s => rfl
  | maxSet w => exact bind_map2 fun a s => rfl

theorem boxA_step (t : T) (s : σ) (op : Op K V) :
    ActExec.stepUA (some (⟨t⟩ : Box T)) s op =
      ((ActExec.stepUA (some t) s op).1.map Box.mk, (ActExec.stepUA (some t) s op).2) := by
  have h := boxA_stepTree t op s
  cases op
  case insert k v => rfl
  all_goals
    simp only [ActExec.stepUA, Exec.consumes, if_true, Bool.false_eq_true, if_false, h]
    generalize ActExec.stepTree t _ s = r
    cases r <;> rfl
end

theorem Tells.faithful {σ T K V : Type} [ActTree σ T K V] [ActUnwinds σ T K V]
    (h : ∀ (t : T) (k : K) (v : V), Tells (σ := σ) (fun _ => True) (ActUnwinds.insertUA t k v) (ActTree.insert t k v)) :
    ActFaithful σ T := by
  intro t k v s
  rcases h t k v s with ⟨t', o, s', h1, h2⟩ | ⟨t', e, h1, h2, -⟩
  · exact .inl ⟨t', o, s', h2, h1⟩
  · exact .inr ⟨e, h2, by rw [h1]⟩

theorem CaughtTree.tells {σ T K V : Type} [ActTree σ T K V] [ActUnwinds σ T K V] {held : T → Multiset V}
    (h : CaughtTree σ T K V held) (t : T) (k : K) (v : V) :
    Tells (σ := σ) (fun _ => True) (ActUnwinds.insertUA t k v) (ActTree.insert t k v) := by
  induction h with
  | plain h => exact (ActUnwinds.plain_tells t k v).mono fun _ _ => trivial
  | btree => exact (BTreeMap.insertUA_tells t k v).mono fun _ _ => trivial
  | box h ih => exact Box.insertUA_tells t k v (ih t.val k v)
  | sized h ih => exact SizedVebTree.insertUA_tells t k v (ih t.tree k v)
  | tree h hC => exact (Tree.insertUA_tells t k v).mono fun _ _ => trivial

/-! ## What exactly an insertion in a `Tree` leaves -/

namespace Tree
variable {σ K V S C Hi Lo T : Type} [ActKey σ K Hi Lo] [ActTree σ S Hi Unit] [ActTree σ T Lo V] [ActColl σ C Hi T Lo V]

theorem below_left {min : K × V} {data : TreeData K V S C} {k : K} {v : V} {s : σ} {t' : Tree K V S C} {e : Panic}
    (h : insertBelowUA (T := T) min data k v s = (t', .error e)) :
    t' = ⟨min, some ⟨data.max, if (answer? (ActKey.splitVal (σ := σ) k) s).isSome then none else data.children⟩⟩ := by
  unfold insertBelowUA at h
  unfold answer?
  unfold orLeaveA at h
  cases hs : ActKey.splitVal (σ := σ) k s with
  | error p =>
    rw [hs] at h
    cases h
    rfl
  | ok p =>
    rw [hs] at h
    obtain ⟨⟨hi, lo⟩, s⟩ := p
    obtain ⟨mx, _ | ⟨sm, c⟩⟩ := data
    · rcases hc : ActColl.create (σ := σ) (C := C) hi (ActTree.fromMonad σ lo v : T) s with p | ⟨c, s⟩
      · simp only [hc] at h
        cases h
        rfl
      · simp only [hc] at h
        cases h
    · rcases hc : ActColl.insertKey c hi (lo, v) s with p | ⟨⟨c', hi' | ⟨hi', _ | ⟨lo', v'⟩⟩⟩, s⟩
      · simp only [hc] at h
        cases h
        rfl
      · simp only [hc] at h
        rcases hi2 : ActTree.insert sm hi' () s with p | ⟨⟨sm', o⟩, s⟩
        · simp only [hi2] at h
          cases h
          rfl
        · simp only [hi2] at h
          cases h
      · simp only [hc] at h
        cases h
      · simp only [hc] at h
        rcases hi2 : ActKey.join (σ := σ) (K := K) hi' lo' s with p | ⟨k', s⟩
        · simp only [hi2] at h
          cases h
          rfl
        · simp only [hi2] at h
          cases h

theorem insert_left {t : Tree K V S C} {d : TreeData K V S C} (hd : t.data = some d) {k : K} {v : V} {s : σ} {t' : Tree K V S C}
    {e : Panic} (h : insertUA (T := T) t k v s = (t', .error e)) :
    ∃ d', t'.data = some d' ∧
      t'.min = (if (firstCmp t k s).map Prod.fst = some .lt then (k, v) else t.min) ∧
      d'.max = (if (secondCmp t d k s).map Prod.fst = some .gt then
          if (firstCmp t k s).map Prod.fst = some .lt then t.min else (k, v)
        else d.max) ∧
      (splits t d k s → d'.children = none) ∧ (¬ splits t d k s → d'.children = d.children) := by
  obtain ⟨mn, dt⟩ := t
  cases hd
  have key : ∀ {mn : K × V} {data : TreeData K V S C} {k : K} {v : V} {s : σ},
      insertBelowUA (T := T) mn data k v s = (t', .error e) →
      ∃ d', t'.data = some d' ∧ t'.min = mn ∧ d'.max = data.max ∧
        ((answer? (ActKey.splitVal (σ := σ) k) s).isSome → d'.children = none) ∧
        (¬ (answer? (ActKey.splitVal (σ := σ) k) s).isSome → d'.children = data.children) := by
    intro mn data k v s h
    rw [below_left h]
    exact ⟨_, rfl, rfl, rfl, fun x => if_pos x, fun x => if_neg x⟩
  unfold insertUA orLeaveA at h
  unfold splits secondCmp firstCmp answer?
  rcases h1 : ActKey.cmp (σ := σ) k mn.1 s with p | ⟨_ | _ | _, s1⟩
  · simp only [h1] at h
    cases h
    exact ⟨d, rfl, rfl, rfl, False.elim, fun _ => rfl⟩
  · simp only [h1] at h
    rcases h2 : ActKey.cmp (σ := σ) d.max.1 mn.1 s1 with p | ⟨_ | _ | _, s2⟩
    · simp only [h2] at h
      cases h
      simp [h2]
    · simp only [h2] at h
      obtain ⟨d', g1, g2, g3, g4, g5⟩ := key h
      exact ⟨d', g1, by simpa [h2] using g2, by simpa [h2] using g3, by simpa [h2, answer?] using g4, by simpa [h2, answer?] using g5⟩
    · simp only [h2] at h
      cases h
    · simp only [h2] at h
      obtain ⟨d', g1, g2, g3, g4, g5⟩ := key h
      exact ⟨d', g1, by simpa [h2] using g2, by simpa [h2] using g3, by simpa [h2, answer?] using g4, by simpa [h2, answer?] using g5⟩
  · simp only [h1] at h
    cases h
  · simp only [h1] at h
    rcases h2 : ActKey.cmp (σ := σ) k d.max.1 s1 with p | ⟨_ | _ | _, s2⟩
    · simp only [h2] at h
      cases h
      simp [h2]
    · simp only [h2] at h
      obtain ⟨d', g1, g2, g3, g4, g5⟩ := key h
      exact ⟨d', g1, by simpa [h2] using g2, by simpa [h2] using g3, by simpa [h2, answer?] using g4, by simpa [h2, answer?] using g5⟩
    · simp only [h2] at h
      cases h
    · simp only [h2] at h
      obtain ⟨d', g1, g2, g3, g4, g5⟩ := key h
      exact ⟨d', g1, by simpa [h2] using g2, by simpa [h2] using g3, by simpa [h2, answer?] using g4, by simpa [h2, answer?] using g5⟩
end Tree

end Veb
