import Verif.Proof.ActUnwind
import Verif.Proof.ActBTreeAny
import Verif.SpecActUnwind

/-!
What caught panics do with values, and which panics there are, over code of the user with a state.
-/

set_option autoImplicit false
set_option linter.unusedSectionVars false

namespace Veb

/-- what a call that returns does with values -/
def Even {T K V : Type} (I : T → Prop) (vals : T → Multiset V) (t : T) (op : Op K V) (r : Option T × Out K V) : Prop :=
  OptOk I r.1 ∧ ov vals r.1 + (takenStep op r.2).map Prod.snd ≤ vals t + (givenStep op r.2).map Prod.snd

/-- what an insertion does, whether it panics or not -/
def Put (L : Prop) {σ T K V : Type} (I : T → Prop) (vals : T → Multiset V) (E : Panic → Prop) (t : T) (v : V) :
    T × R (Option (K × V) × σ) → Prop
  | (t', .ok (o, _)) => I t' ∧ vals t' + oe o ≤ vals t + {v}
  | (t', .error p) => E p ∧ I t' ∧ vals t' ≤ vals t + {v} ∧ (L → (vals t').card ≤ (vals t).card)

/-- What a tree type does in a history with caught panics; `L`: it is short. -/
structure Catch (L : Prop) (σ T : Type) {K V : Type} [ActTree σ T K V] [ActUnwinds σ T K V] where
  /-- the invariant after so many calls -/
  I : Nat → T → Prop
  vals : T → Multiset V
  E : Panic → Prop
  up : ∀ n m t, n ≤ m → I n t → I m t
  pos : ∀ n t, I n t → 1 ≤ (vals t).card
  fromMonad : ∀ k v, I 1 (ActTree.fromMonad σ k v) ∧ vals (ActTree.fromMonad σ k v) = {v}
  call : ∀ n t op, (∀ k v, op ≠ .insert k v) → I n t → (L → n < usizeMax) → Aud E (ActExec.stepTree (σ := σ) t op) (Even (I (n + 1)) vals t op)
  insert : ∀ n t k v s, I n t → (L → n < usizeMax) → Put L (σ := σ) (I (n + 1)) vals E t v (ActUnwinds.insertUA t k v s)

namespace Catch

/-! ## One call, and a history -/

section
variable {L : Prop} {σ T K V : Type} [ActTree σ T K V] [ActUnwinds σ T K V] (C : Catch L σ T (K := K) (V := V))

theorem step {n : Nat} {t : Option T} (I : OptOk (C.I n) t) (l : L → n < usizeMax) (s : σ) (op : Op K V) :
    OptOk (C.I (n + 1)) (ActExec.stepUA t s op).1 ∧
      ov C.vals (ActExec.stepUA t s op).1 + takenR op (ActExec.stepUA t s op).2 ≤
        ov C.vals t + givenR op (ActExec.stepUA t s op).2 ∧
      ∀ p, (ActExec.stepUA t s op).2 = .error p → C.E p := by
  obtain _ | t := t
  · cases op with
    | insert k v =>
      refine ⟨optOk_some.2 (C.up _ _ _ (by omega) (C.fromMonad k v).1), ?_, by rintro p ⟨⟩⟩
      show C.vals (ActTree.fromMonad σ k v) + 0 ≤ 0 + {v}
      rw [(C.fromMonad k v).2, add_zero, zero_add]
    | _ => exact ⟨optOk_none, le_rfl, by rintro p ⟨⟩⟩
  · have I := I t rfl
    by_cases hop : ∃ k v, op = .insert k v
    · obtain ⟨k, v, rfl⟩ := hop
      have h := C.insert n t k v s I l
      have e : ActExec.stepUA (some t) s (.insert k v) = (match ActUnwinds.insertUA t k v s with
        | (t, r) => (some t, r.map fun p => .kv p.1)) := rfl
      rw [e]
      revert h
      rcases ActUnwinds.insertUA t k v s with ⟨t', p | ⟨o, s'⟩⟩
      · rintro ⟨h1, h2, h3, -⟩
        refine ⟨optOk_some.2 h2, ?_, by rintro p ⟨⟩; exact h1⟩
        show C.vals t' + 0 ≤ C.vals t + {v}
        rw [add_zero]
        exact h3
      · rintro ⟨h2, h3⟩
        refine ⟨optOk_some.2 h2, ?_, by rintro p ⟨⟩⟩
        cases o <;> exact h3
    · have hop' : ∀ k v, op ≠ .insert k v := fun k v e => hop ⟨k, v, e⟩
      have h := C.call n t op hop' I l s
      have e : ActExec.stepUA (some t) s op =
          ActExec.leave (if Exec.consumes op then none else some t) (ActExec.stepTree t op s) := by
        cases op with
        | insert k v => exact absurd rfl (hop' k v)
        | _ => rfl
      rw [e]
      revert h
      rcases ActExec.stepTree t op s with p | ⟨⟨t', o⟩, s'⟩
      · intro h
        refine ⟨?_, ?_, by rintro p ⟨⟩; exact h.2 _ rfl⟩
        · show OptOk _ (if Exec.consumes op then none else some t)
          split
          · exact optOk_none
          · exact optOk_some.2 (C.up _ _ _ (Nat.le_succ n) I)
        · have g : givenR op (.error p : R (Out K V)) = 0 := by
            cases op with
            | insert k v => exact absurd rfl (hop' k v)
            | _ => rfl
          show ov C.vals (if Exec.consumes op then none else some t) + 0 ≤ C.vals t + givenR op (.error p)
          rw [g, add_zero, add_zero]
          split
          · exact Multiset.zero_le _
          · exact le_rfl
      · intro h
        obtain ⟨h1, h2⟩ := h.1 _ _ rfl
        exact ⟨h1, h2, by rintro p ⟨⟩⟩

theorem run {n : Nat} {t : Option T} (I : OptOk (C.I n) t) (es : List (σ × Op K V)) (l : L → n + es.length ≤ usizeMax) :
    ov C.vals (ActExec.runUA t es).1 + takenAll (es.map Prod.snd) (ActExec.runUA t es).2 ≤
        ov C.vals t + givenAll (es.map Prod.snd) (ActExec.runUA t es).2 ∧
      (∀ p, .error p ∈ (ActExec.runUA t es).2 → C.E p) ∧ OptOk (C.I (n + es.length)) (ActExec.runUA t es).1 := by
  induction es generalizing t n with
  | nil => exact ⟨le_rfl, fun p hp => absurd hp (by simp [ActExec.runUA]), I⟩
  | cons e es ih =>
    obtain ⟨s, op⟩ := e
    obtain ⟨h1, h2, h3⟩ := C.step I (fun x => by have := l x; rw [List.length_cons] at this; omega) s op
    have hn : n + ((s, op) :: es).length = n + 1 + es.length := by rw [List.length_cons]; omega
    rw [hn] at l ⊢
    obtain ⟨g1, g2, g3⟩ := ih h1 l
    have e : ActExec.runUA t ((s, op) :: es) = ((ActExec.runUA (ActExec.stepUA t s op).1 es).1,
      (ActExec.stepUA t s op).2 :: (ActExec.runUA (ActExec.stepUA t s op).1 es).2) := rfl
    rw [e]
    generalize ActExec.stepUA t s op = r at *
    generalize ActExec.runUA r.1 es = q at *
    refine ⟨?_, ?_, g3⟩
    · have e1 : takenAll (((s, op) :: es).map Prod.snd) (r.2 :: q.2) = takenR op r.2 + takenAll (es.map Prod.snd) q.2 := by
        simp [takenAll]
      have e2 : givenAll (((s, op) :: es).map Prod.snd) (r.2 :: q.2) = givenR op r.2 + givenAll (es.map Prod.snd) q.2 := by
        simp [givenAll]
      rw [e1, e2]
      calc ov C.vals q.1 + (takenR op r.2 + takenAll (es.map Prod.snd) q.2)
          = ov C.vals q.1 + takenAll (es.map Prod.snd) q.2 + takenR op r.2 := by abel
        _ ≤ ov C.vals r.1 + givenAll (es.map Prod.snd) q.2 + takenR op r.2 := add_le_add_left g1 _
        _ = ov C.vals r.1 + takenR op r.2 + givenAll (es.map Prod.snd) q.2 := by abel
        _ ≤ ov C.vals t + givenR op r.2 + givenAll (es.map Prod.snd) q.2 := add_le_add_left h2 _
        _ = _ := by abel
    · intro p hp
      rcases List.mem_cons.1 hp with hp | hp
      · exact h3 p hp.symm
      · exact g2 p hp
end

/-! ## From an insertion that leaves something good -/

theorem put_of {L : Prop} {σ T K V : Type} [ActTree σ T K V] [ActUnwinds σ T K V] {I : T → Prop} {vals : T → Multiset V}
    {E : Panic → Prop} {t : T} {k : K} {v : V} {Q : T → Prop}
    (h : Tells (σ := σ) Q (ActUnwinds.insertUA t k v) (ActTree.insert t k v))
    (h' : Aud E (ActExec.stepTree (σ := σ) t (.insert k v)) (Even I vals t (.insert k v)))
    (left : ∀ t', Q t' → I t' ∧ vals t' ≤ vals t + {v} ∧ (L → (vals t').card ≤ (vals t).card)) (s : σ) :
    Put L (σ := σ) I vals E t v (ActUnwinds.insertUA t k v s) := by
  have e : ActExec.stepTree t (.insert k v) s = (ActTree.insert t k v s >>= fun p => .ok ((some p.1.1, Out.kv p.1.2), p.2)) := rfl
  have := h' s
  rw [e] at this
  rcases h s with ⟨t', b, s', h1, h2⟩ | ⟨t', p, h1, h2, h3⟩
  · rw [h1]
    rw [h2] at this
    obtain ⟨g1, g2⟩ := this.1 _ _ rfl
    refine ⟨g1 _ rfl, ?_⟩
    cases b <;> exact g2
  · rw [h1]
    rw [h2] at this
    exact ⟨this.2 _ rfl, left t' h3⟩

/-! ## Boxes -/

section
variable {L : Prop} {σ T K V : Type} [ActTree σ T K V] [ActUnwinds σ T K V]

theorem ov_map {T B V : Type} {vals : T → Multiset V} {vals' : B → Multiset V} {f : T → B} (h : ∀ t, vals' (f t) = vals t)
    (o : Option T) : ov vals' (o.map f) = ov vals o := by
  cases o
  · rfl
  · exact h _

def box (C : Catch L σ T (K := K) (V := V)) : Catch L σ (Box T) (K := K) (V := V) where
  I n t := C.I n t.val
  vals t := C.vals t.val
  E := C.E
  up n m t := C.up n m t.val
  pos n t := C.pos n t.val
  fromMonad := C.fromMonad
  call n t op hop I l s := by
    obtain ⟨t⟩ := t
    have h := C.call n t op hop I l s
    rw [boxA_stepTree]
    revert h
    rcases ActExec.stepTree t op s with p | ⟨⟨t', o⟩, s'⟩
    · exact fun h => ⟨by rintro a s ⟨⟩, by rintro p ⟨⟩; exact h.2 _ rfl⟩
    · refine fun h => ⟨?_, by rintro p ⟨⟩⟩
      rintro a s ⟨⟩
      obtain ⟨h1, h2⟩ := h.1 _ _ rfl
      refine ⟨?_, ?_⟩
      · rintro _ hu
        obtain ⟨u, rfl, rfl⟩ := Option.map_eq_some_iff.1 hu
        exact h1 u rfl
      · show ov _ (Option.map Box.mk t') + _ ≤ _
        rw [ov_map (vals := C.vals) (f := Box.mk) fun t => rfl]
        exact h2
  insert n t k v s I l := by
    have h := C.insert n t.val k v s I l
    have e : ActUnwinds.insertUA t k v s =
      (⟨(ActUnwinds.insertUA t.val k v s).1⟩, (ActUnwinds.insertUA t.val k v s).2) := rfl
    rw [e]
    revert h
    rcases ActUnwinds.insertUA t.val k v s with ⟨t', p | ⟨o, s'⟩⟩
    · exact id
    · exact id

/-! ## Counters -/

/-- put the counter back -/
def wrap (n : Nat) (r : Option T × Out K V) : Option (SizedVebTree T) × Out K V := (r.1.map fun u => ⟨u, n⟩, r.2)
/-- what a counter does after a removal -/
def count (σ : Type) (n : Nat) (r : Option T × Out K V) : Act σ (Option (SizedVebTree T) × Out K V) :=
  match r with
  | (some u, .kv (some e)) => do
    let size ← expect "last item didn't remove tree" (SizedVebTree.nonZero (← subUsize n 1))
    pure (some ⟨u, size⟩, .kv (some e))
  | r => pure (wrap n r)
/-- what a counter does after a removal that found something -/
def count' (σ : Type) (n : Nat) (r : Option T × Out K V) : Act σ (Option (SizedVebTree T) × Out K V) :=
  match r with
  | (some u, o) => do
    let size ← expect "last item didn't remove tree" (SizedVebTree.nonZero n)
    pure (some ⟨u, size⟩, o)
  | (none, o) => pure (none, o)

/-- what a counter does after `is_monad` -/
def count1 (σ : Type) (n : Nat) (r : Option T × Out K V) : Act σ (Option (SizedVebTree T) × Out K V) :=
  match r with
  | (u, .bool true) => do
    debugAssert (decide (n = 1))
    pure (wrap n (u, .bool true))
  | r => pure (wrap n r)

theorem bind_then {α β γ δ : Type} {x : Act σ α} {f : α → Act σ β} {g : β → Act σ γ} {f' : α → Act σ δ} {g' : δ → Act σ γ}
    (h : ∀ a, f a >>= g = f' a >>= g') : (x >>= f) >>= g = (x >>= f') >>= g' := by
  rw [bind_assoc, bind_assoc]
  exact congrArg _ (funext h)
theorem bind_then' {α β γ : Type} {x : Act σ α} {f : α → Act σ β} {g : β → Act σ γ} {f' : α → Act σ γ}
    (h : ∀ a, f' a = f a >>= g) : x >>= f' = (x >>= f) >>= g := by
  rw [bind_assoc]
  exact congrArg _ (funext h)

theorem sized_stepTree (t : SizedVebTree T) (op : Op K V) (hop : ∀ k v, op ≠ .insert k v) :
    (ActExec.stepTree (σ := σ) t op = ActExec.stepTree t.tree op >>= fun r => pure (wrap t.size r)) ∨
    (op = .isMonad ∧ ActExec.stepTree (σ := σ) t op = ActExec.stepTree t.tree op >>= count1 σ t.size) ∨
    ((∃ k, op = .remove k) ∧ ActExec.stepTree (σ := σ) t op = ActExec.stepTree t.tree op >>= count σ t.size) ∨
    (op = .removeMin ∨ op = .removeMax) ∧ ActExec.stepTree (σ := σ) t op =
      (subUsize t.size 1 : Act σ Nat) >>= fun n => ActExec.stepTree t.tree op >>= count' σ n := by
  cases op with
  | insert k v => exact absurd rfl (hop k v)
  | remove k =>
    refine .inr (.inr (.inl ⟨⟨k, rfl⟩, bind_then fun a => ?_⟩))
    rcases a with ⟨_ | u, e⟩ | u
    · rfl
    · simp only [pure_bind, bind_assoc, count, Exec.removed]
    · rfl
  | removeMin =>
    refine .inr (.inr (.inr ⟨.inl rfl, ?_⟩))
    show ((subUsize t.size 1 : Act σ Nat) >>= _) >>= _ = (subUsize t.size 1 : Act σ Nat) >>= _
    rw [bind_assoc]
    refine congrArg _ (funext fun m => bind_then fun a => ?_)
    rcases a with ⟨_ | u, e⟩
    · rfl
    · simp only [pure_bind, bind_assoc, count', Exec.removed]
  | removeMax =>
    refine .inr (.inr (.inr ⟨.inr rfl, ?_⟩))
    show ((subUsize t.size 1 : Act σ Nat) >>= _) >>= _ = (subUsize t.size 1 : Act σ Nat) >>= _
    rw [bind_assoc]
    refine congrArg _ (funext fun m => bind_then fun a => ?_)
    rcases a with ⟨_ | u, e⟩
    · rfl
    · simp only [pure_bind, bind_assoc, count', Exec.removed]
  | isMonad =>
    refine .inr (.inl ⟨rfl, bind_then fun b => ?_⟩)
    cases b with
    | false => rfl
    | true =>
      simp only [pure_bind, bind_assoc, count1, if_true]
      rfl
  | intoMonad => exact .inl (bind_then fun a => by rcases a with e | t <;> rfl)
  | find k => exact .inl (bind_then' fun a => rfl)
  | predecessor k => exact .inl (bind_then' fun a => rfl)
  | successor k => exact .inl (bind_then' fun a => rfl)
  | minVal => exact .inl (bind_then' fun a => rfl)
  | maxVal => exact .inl (bind_then' fun a => rfl)
  | findSet k w => exact .inl (bind_then fun a => by rcases a with _ | a <;> rfl)
  | predecessorSet k w => exact .inl (bind_then fun a => by rcases a with _ | a <;> rfl)
  | successorSet k w => exact .inl (bind_then fun a => by rcases a with _ | a <;> rfl)
  | minSet w => exact .inl (bind_then fun a => rfl)
  | maxSet w => exact .inl (bind_then fun a => rfl)

theorem given_card {op : Op K V} (hop : ∀ k v, op ≠ .insert k v) (o : Out K V) :
    (givenStep op o).card ≤ (takenStep op o).card := by
  cases op with
  | insert k v => exact absurd rfl (hop k v)
  | _ => rcases o with (_ | e) | b <;> first | exact Nat.le_refl _ | exact Nat.zero_le _

/-- if the history is short, then the counter is at least the number of values, and at most the number of calls -/
def SizedI (C : Catch L σ T (K := K) (V := V)) (n : Nat) (t : SizedVebTree T) : Prop :=
  C.I n t.tree ∧ 1 ≤ t.size ∧ (L → (C.vals t.tree).card ≤ t.size ∧ t.size ≤ n)
/-- the panics of a counter -/
def SizedE (L : Prop) (p : Panic) : Prop := p = .debugAssert ∨ ¬ L ∧ (p = .expect "size overflowed" ∨ p = .expect "last item didn't remove tree")

variable {C : Catch L σ T (K := K) (V := V)}

theorem even_card {n : Nat} {t : T} {op : Op K V} {r : Option T × Out K V} (h : Even (C.I n) C.vals t op r) :
    (ov C.vals r.1).card + (takenStep op r.2).card ≤ (C.vals t).card + (givenStep op r.2).card := by
  have := Multiset.card_le_card h.2
  simpa using this

theorem wrap_even {n : Nat} {t : SizedVebTree T} (I : SizedI C n t) {op : Op K V} (hop : ∀ k v, op ≠ .insert k v)
    {r : Option T × Out K V} (h : Even (C.I (n + 1)) C.vals t.tree op r) :
    Even (SizedI C (n + 1)) (fun t => C.vals t.tree) t op (wrap t.size r) := by
  refine ⟨?_, ?_⟩
  · rintro _ hu
    obtain ⟨u, hr, rfl⟩ := Option.map_eq_some_iff.1 hu
    refine ⟨h.1 u hr, I.2.1, fun x => ⟨?_, Nat.le_succ_of_le (I.2.2 x).2⟩⟩
    have h1 := even_card h
    have h2 := given_card hop r.2
    have h3 := (I.2.2 x).1
    rw [hr] at h1
    change (C.vals u).card + _ ≤ _ at h1
    show (C.vals u).card ≤ t.size
    omega
  · show ov _ (r.1.map _) + _ ≤ _
    rw [ov_map (vals := C.vals) (f := fun u => (⟨u, t.size⟩ : SizedVebTree T)) fun t => rfl]
    exact h.2

theorem less_even {n m : Nat} {t : SizedVebTree T} (I : SizedI C n t) {op : Op K V} {u : T} {o : Out K V}
    (h1 : (givenStep op o).card = 0) (h2 : (takenStep op o).card = 1)
    (h : Even (C.I (n + 1)) C.vals t.tree op (some u, o)) (hm : m + 1 = t.size) :
    (L → m ≠ 0) ∧ (m ≠ 0 → Even (SizedI C (n + 1)) (fun t => C.vals t.tree) t op (some ⟨u, m⟩, o)) := by
  have h3 := even_card h
  rw [h1, h2] at h3
  change (C.vals u).card + 1 ≤ _ at h3
  have h6 := C.pos _ u (h.1 u rfl)
  refine ⟨fun x => ?_, fun hm0 => ⟨optOk_some.2 ⟨h.1 u rfl, Nat.pos_of_ne_zero hm0, fun x => ⟨?_, ?_⟩⟩, h.2⟩⟩
  · obtain ⟨h4, h5⟩ := I.2.2 x
    omega
  · obtain ⟨h4, h5⟩ := I.2.2 x
    show (C.vals u).card ≤ m
    omega
  · obtain ⟨h4, h5⟩ := I.2.2 x
    show m ≤ n + 1
    omega

theorem removed_post (t : T) {op : Op K V} (h : op = .removeMin ∨ op = .removeMax) :
    Post (ActExec.stepTree (σ := σ) t op) fun r => ∃ e, r.2 = .kv (some e) := by
  rcases h with rfl | rfl
  · exact .then_ fun r => .ret ⟨r.2, rfl⟩
  · exact .then_ fun r => .ret ⟨r.2, rfl⟩

def sized (C : Catch L σ T (K := K) (V := V)) : Catch L σ (SizedVebTree T) (K := K) (V := V) where
  I := SizedI C
  vals t := C.vals t.tree
  E p := C.E p ∨ SizedE L p
  up n m t l h := ⟨C.up n m t.tree l h.1, h.2.1, fun x => ⟨(h.2.2 x).1, (h.2.2 x).2.trans l⟩⟩
  pos n t h := C.pos n t.tree h.1
  fromMonad k v := ⟨⟨(C.fromMonad k v).1, le_refl 1, fun _ => ⟨by
    show (C.vals (ActTree.fromMonad σ k v)).card ≤ 1
    rw [(C.fromMonad k v).2]; rfl, le_refl 1⟩⟩, (C.fromMonad k v).2⟩
  call n t op hop I l := by
    have h := (C.call n t.tree op hop I.1 l).more (F := fun p => C.E p ∨ SizedE L p)
      fun _ => .inl
    have hs : 1 ≤ t.size := I.2.1
    rcases sized_stepTree (σ := σ) t op hop with e | ⟨rfl, e⟩ | ⟨⟨k, rfl⟩, e⟩ | ⟨ho, e⟩ <;> rw [e]
    · exact h.bind fun r hr => .ret (wrap_even I hop hr)
    · refine h.bind fun r hr => ?_
      have := wrap_even I hop hr
      obtain ⟨u, o | (_ | _)⟩ := r
      · exact .ret this
      · exact .ret this
      · exact (Aud.assert fun _ => .inr (.inl rfl)).bind fun _ _ => .ret this
    · refine h.bind fun r hr => ?_
      have := wrap_even I hop hr
      obtain ⟨_ | u, (_ | e) | b⟩ := r
      · exact .ret this
      · exact .ret this
      · exact .ret this
      · exact .ret this
      · refine (Aud.sub hs).bind fun m hm => ?_
        obtain ⟨h1, h2⟩ := less_even I rfl rfl hr hm
        refine (Aud.exp fun h => ?_).bind fun x hx => ?_
        · exact .inr (.inr ⟨fun x => absurd ((Audit.nonZero_of (h1 x)).symm.trans h) (by simp), .inr rfl⟩)
        · by_cases hm : m = 0
          · rw [hm] at hx
            cases hx
          · rw [Audit.nonZero_of hm] at hx
            cases hx
            exact .ret (h2 hm)
      · exact .ret this
    · refine (Aud.sub hs).bind fun m hm => (h.and (removed_post t.tree ho)).bind fun r hr => ?_
      obtain ⟨hr, e, he⟩ := hr
      have := wrap_even I hop hr
      obtain ⟨_ | u, o⟩ := r
      · exact .ret this
      · cases he
        obtain ⟨h1, h2⟩ := less_even I (by rcases ho with rfl | rfl <;> rfl) (by rcases ho with rfl | rfl <;> rfl) hr hm
        refine (Aud.exp fun h => ?_).bind fun x hx => ?_
        · exact .inr (.inr ⟨fun x => absurd ((Audit.nonZero_of (h1 x)).symm.trans h) (by simp), .inr rfl⟩)
        · by_cases hm : m = 0
          · rw [hm] at hx
            cases hx
          · rw [Audit.nonZero_of hm] at hx
            cases hx
            exact .ret (h2 hm)
  insert n t k v s I l := by
    have h := C.insert n t.tree k v s I.1 l
    have e : ActUnwinds.insertUA t k v s = (match ActUnwinds.insertUA t.tree k v s with
      | (u, .error e) => (⟨u, t.size⟩, .error e)
      | (u, .ok (o, s)) =>
        if o.isNone then
          if t.size + 1 ≤ usizeMax then (⟨u, t.size + 1⟩, .ok (o, s))
          else (⟨u, t.size⟩, .error (.expect "size overflowed"))
        else (⟨u, t.size⟩, .ok (o, s))) := rfl
    rw [e]
    revert h
    rcases ActUnwinds.insertUA t.tree k v s with ⟨u, p | ⟨_ | o, s'⟩⟩
    · rintro ⟨h1, h2, h5, h6⟩
      exact ⟨.inl h1, ⟨h2, I.2.1, fun x => ⟨(h6 x).trans (I.2.2 x).1, Nat.le_succ_of_le (I.2.2 x).2⟩⟩, h5, h6⟩
    · rintro ⟨h1, h2⟩
      have h5 := Multiset.card_le_card h2
      change (C.vals u + 0).card ≤ _ at h5
      rw [add_zero, Multiset.card_add, Multiset.card_singleton] at h5
      by_cases hn : t.size + 1 ≤ usizeMax
      · simp only [Option.isNone_none, if_true, if_pos hn]
        refine ⟨⟨h1, Nat.le_succ_of_le I.2.1, fun x => ?_⟩, h2⟩
        obtain ⟨h3, h4⟩ := I.2.2 x
        exact ⟨by show (C.vals u).card ≤ t.size + 1; omega, by show t.size + 1 ≤ n + 1; omega⟩
      · have nl : ¬ L := fun x => by
          have := l x
          have := (I.2.2 x).2
          omega
        simp only [Option.isNone_none, if_true, if_neg hn]
        refine ⟨.inr (.inr ⟨nl, .inl rfl⟩), ⟨h1, I.2.1, fun x => absurd x nl⟩, ?_, fun x => absurd x nl⟩
        change C.vals u + 0 ≤ _ at h2
        rw [add_zero] at h2
        exact h2
    · rintro ⟨h1, h2⟩
      have h5 := Multiset.card_le_card h2
      change (C.vals u + {o.2}).card ≤ _ at h5
      rw [Multiset.card_add, Multiset.card_add, Multiset.card_singleton, Multiset.card_singleton] at h5
      refine ⟨⟨h1, I.2.1, fun x => ?_⟩, h2⟩
      obtain ⟨h3, h4⟩ := I.2.2 x
      exact ⟨by show (C.vals u).card ≤ t.size; omega, Nat.le_succ_of_le h4⟩
end

/-! ## `Tree` -/

namespace OfTree
variable {L : Prop} {σ K V S C Hi Lo T : Type} [ActKey σ K Hi Lo] [ActTree σ S Hi Unit] [ActTree σ T Lo V] [Keeps σ T Lo V]
  [ActColl σ C Hi T Lo V] {Q : KeepsColl σ C Hi T Lo V}
open Tree

theorem leftA_or {t : Tree K V S C} {k : K} {v : V} {t' : Tree K V S C} (h : LeftA t k v t') :
    t' = t ∨ ∃ d m x c, t.data = some d ∧ t' = ⟨m, some ⟨x, c⟩⟩ ∧ (c = d.children ∨ c = none) ∧
      ((m = t.min ∧ x = d.max) ∨ (m = (k, v) ∧ x = d.max) ∨ (m = t.min ∧ x = (k, v)) ∨ m = (k, v) ∧ x = t.min) := by
  have below : ∀ {m x : K × V} {d : TreeData K V S C}, LeftBelow m { d with max := x } t' → ∃ c, t' = ⟨m, some ⟨x, c⟩⟩ ∧
      (c = d.children ∨ c = none) := by
    rintro m x d (rfl | rfl)
    · exact ⟨_, rfl, .inl rfl⟩
    · exact ⟨_, rfl, .inr rfl⟩
  cases h with
  | same => exact .inl rfl
  | newMin hd => exact .inr ⟨_, _, _, _, hd, rfl, .inl rfl, .inr (.inl ⟨rfl, rfl⟩)⟩
  | @below d hd _ h =>
    obtain ⟨c, h1, h2⟩ := below (x := d.max) (d := d) h
    exact .inr ⟨_, _, _, _, hd, h1, h2, .inl ⟨rfl, rfl⟩⟩
  | newMax hd h =>
    obtain ⟨c, h1, h2⟩ := below h
    exact .inr ⟨_, _, _, _, hd, h1, h2, .inr (.inr (.inl ⟨rfl, rfl⟩))⟩
  | swapped hd h =>
    obtain ⟨c, h1, h2⟩ := below h
    exact .inr ⟨_, _, _, _, hd, h1, h2, .inr (.inr (.inr ⟨rfl, rfl⟩))⟩
  | @wrong d hd _ h =>
    obtain ⟨c, h1, h2⟩ := below (x := d.max) (d := d) h
    exact .inr ⟨_, _, _, _, hd, h1, h2, .inr (.inl ⟨rfl, rfl⟩)⟩

theorem left_vals {t : Tree K V S C} {k : K} {v : V} {t' : Tree K V S C} (h : LeftA t k v t') :
    tv Q t' ≤ tv Q t + {v} ∧ (tv Q t').card ≤ (tv Q t).card := by
  rcases leftA_or h with rfl | ⟨d, m, x, c, hd, rfl, hc, hmx⟩
  · exact ⟨Multiset.le_add_right _ _, le_rfl⟩
  · obtain ⟨mn, _ | ⟨mx, ch⟩⟩ := t
    · cases hd
    · cases hd
      have hcv : cv Q c ≤ cv Q ch := by
        rcases hc with rfl | rfl
        · exact le_rfl
        · exact Multiset.zero_le _
      have hcc := Multiset.card_le_card hcv
      refine ⟨?_, ?_⟩
      · show m.2 ::ₘ x.2 ::ₘ cv Q c ≤ mn.2 ::ₘ mx.2 ::ₘ cv Q ch + {v}
        refine (Multiset.cons_le_cons _ (Multiset.cons_le_cons _ hcv)).trans ?_
        change (m = mn ∧ x = mx) ∨ (m = (k, v) ∧ x = mx) ∨ (m = mn ∧ x = (k, v)) ∨ m = (k, v) ∧ x = mn at hmx
        rcases hmx with ⟨h1, h2⟩ | ⟨h1, h2⟩ | ⟨h1, h2⟩ | ⟨h1, h2⟩ <;> rw [h1, h2]
        · exact Multiset.le_add_right _ _
        · have : mn.2 ::ₘ mx.2 ::ₘ cv Q ch + {v} = mn.2 ::ₘ v ::ₘ mx.2 ::ₘ cv Q ch := by
            simp only [← Multiset.singleton_add]; abel
          rw [this]
          exact Multiset.le_cons_self _ _
        · have : mn.2 ::ₘ mx.2 ::ₘ cv Q ch + {v} = mx.2 ::ₘ mn.2 ::ₘ v ::ₘ cv Q ch := by
            simp only [← Multiset.singleton_add]; abel
          rw [this]
          exact Multiset.le_cons_self _ _
        · have : mn.2 ::ₘ mx.2 ::ₘ cv Q ch + {v} = mx.2 ::ₘ v ::ₘ mn.2 ::ₘ cv Q ch := by
            simp only [← Multiset.singleton_add]; abel
          rw [this]
          exact Multiset.le_cons_self _ _
      · show (m.2 ::ₘ x.2 ::ₘ cv Q c).card ≤ (mn.2 ::ₘ mx.2 ::ₘ cv Q ch).card
        simp only [Multiset.card_cons]
        omega

/-- the invariants of `Tree` are about its children -/
theorem left_of {P : Option (S × C) → Prop} (h0 : P none) {t : Tree K V S C} {k : K} {v : V} {t' : Tree K V S C}
    (I : ∀ d, t.data = some d → P d.children) (h : LeftA t k v t') : ∀ d, t'.data = some d → P d.children := by
  rcases leftA_or h with rfl | ⟨d, m, x, c, hd, rfl, hc, -⟩
  · exact I
  · rintro _ ⟨⟩
    rcases hc with rfl | rfl
    · exact I d hd
    · exact h0

end OfTree

/-! ## All types in question -/

section
variable {L : Prop} {σ T K V : Type} [ActTree σ T K V] [ActUnwinds σ T K V]

/-- from what is known about histories without a panic -/
def ofKeeps (P : Keeps σ T K V) (A : Nat → T → Prop) (E : Panic → Prop) (up : ∀ n m t, n ≤ m → A n t → A m t)
    (pos : ∀ t, P.W t → 1 ≤ (P.vals t).card) (fromMonad : ∀ k v, A 1 (ActTree.fromMonad σ k v))
    (call : ∀ n t op, P.W t → A n t → (L → n < usizeMax) →
      Aud E (ActExec.stepTree (σ := σ) t op) fun r => OptOk (A (n + 1)) r.1)
    (Q : T → K → V → T → Prop) (tells : ∀ t k v, Tells (σ := σ) (Q t k v) (ActUnwinds.insertUA t k v) (ActTree.insert t k v))
    (left : ∀ t k v t', P.W t → Q t k v t' → P.W t' ∧ P.vals t' ≤ P.vals t + {v} ∧ (P.vals t').card ≤ (P.vals t).card ∧
      ∀ n, A n t → A n t') : Catch L σ T (K := K) (V := V) where
  I n t := P.W t ∧ A n t
  vals := P.vals
  E := E
  up n m t l h := ⟨h.1, up n m t l h.2⟩
  pos n t h := pos t h.1
  fromMonad k v := ⟨⟨(P.fromMonad k v).1, fromMonad k v⟩, (P.fromMonad k v).2⟩
  call n t op _ I l := ((call n t op I.1 I.2 l).and (moved_step (t := some t) (optOk_some.2 I.1) op)).mono fun r hr =>
    ⟨fun u hu => ⟨hr.2.good u hu, hr.1 u hu⟩, hr.2.flow.le⟩
  insert n t k v s I l := by
    refine put_of (tells t k v) (((call n t (.insert k v) I.1 I.2 l).and
      (moved_step (t := some t) (optOk_some.2 I.1) (.insert k v))).mono fun r hr =>
      ⟨fun u hu => ⟨hr.2.good u hu, hr.1 u hu⟩, hr.2.flow.le⟩) (fun t' ht' => ?_) s
    obtain ⟨h1, h2, h3, h4⟩ := left t k v t' I.1 ht'
    exact ⟨⟨h1, up _ _ _ (Nat.le_succ n) (h4 n I.2)⟩, h2, fun _ => h3⟩

/-- the panics are not asked for -/
def ofKeeps' (P : Keeps σ T K V) (pos : ∀ t, P.W t → 1 ≤ (P.vals t).card) (Q : T → K → V → T → Prop)
    (tells : ∀ t k v, Tells (σ := σ) (Q t k v) (ActUnwinds.insertUA t k v) (ActTree.insert t k v))
    (left : ∀ t k v t', P.W t → Q t k v t' → P.W t' ∧ P.vals t' ≤ P.vals t + {v} ∧ (P.vals t').card ≤ (P.vals t).card) :
    Catch L σ T (K := K) (V := V) :=
  ofKeeps P (fun _ _ => True) (fun _ => True) (fun _ _ _ _ _ => trivial) pos (fun _ _ => trivial)
    (fun _ _ _ _ _ _ _ => ⟨fun _ _ _ _ _ => trivial, fun _ _ => trivial⟩) Q tells fun t k v t' I h =>
    ⟨(left t k v t' I h).1, (left t k v t' I h).2.1, (left t k v t' I h).2.2, fun _ _ => trivial⟩

/-- from what is known about panics -/
def ofAudit {Us : Panic → Prop} {P : Keeps σ T K V} (N : Audit Us L σ T K V) (Q : T → K → V → T → Prop)
    (tells : ∀ t k v, Tells (σ := σ) (Q t k v) (ActUnwinds.insertUA t k v) (ActTree.insert t k v))
    (left : ∀ t k v t', P.W t → Q t k v t' → P.W t' ∧ P.vals t' ≤ P.vals t + {v} ∧ (P.vals t').card ≤ (P.vals t).card ∧
      ∀ n, N.A n t → N.A n t') : Catch L σ T (K := K) (V := V) :=
  ofKeeps P N.A N.E N.up N.pos N.fromMonad (fun _ t op I J l =>
    (aud_step (N := N) (t := some t) ⟨optOk_some.2 I, optOk_some.2 J⟩ l op).mono fun _ hr => hr.2) Q tells left
end

theorem tv_pos {σ K V S C Hi Lo T : Type} [ActTree σ T Lo V] [Keeps σ T Lo V]
    [ActColl σ C Hi T Lo V] {Q : KeepsColl σ C Hi T Lo V} (t : Tree K V S C) : 1 ≤ (Tree.tv Q t).card := by
  obtain ⟨m, _ | d⟩ := t
  · exact le_rfl
  · show 1 ≤ (m.2 ::ₘ d.max.2 ::ₘ Tree.cv Q d.children).card
    rw [Multiset.card_cons]
    omega

def btree {L : Prop} {σ K V : Type} [ActOrd σ K] {Us : Panic → Prop} (h : OrdPanics σ K Us) :
    Catch L σ (BTreeMap K V) (K := K) (V := V) where
  I _ t := t.entries ≠ []
  vals := BTreeMap.bvals
  E p := Us p ∨ RangePanics p
  up _ _ _ _ h := h
  pos _ t h := by
    obtain ⟨_ | ⟨e, l⟩⟩ := t
    · exact absurd rfl h
    · exact Nat.succ_le_succ (Nat.zero_le _)
  fromMonad k v := ⟨List.cons_ne_nil _ _, rfl⟩
  call n t op _ I _ := (BTreeMap.any_step h (t := some t) (by rintro _ ⟨⟩; exact I) op).mono fun r hr => ⟨hr.full, hr.le⟩
  insert n t k v s I _ := by
    refine put_of (BTreeMap.insertUA_tells t k v)
      ((BTreeMap.any_step h (t := some t) (by rintro _ ⟨⟩; exact I) (.insert k v)).mono fun r hr => ⟨hr.full, hr.le⟩) ?_ s
    rintro _ rfl
    exact ⟨I, Multiset.le_add_right _ _, fun _ => le_rfl⟩

end Catch

/-- the values -/
theorem CaughtTree.catch_ {σ T K V : Type} [ActTree σ T K V] [ActUnwinds σ T K V] {held : T → Multiset V}
    (h : CaughtTree σ T K V held) : ∃ C : Catch False σ T (K := K) (V := V), ∀ n t, C.I n t → held t = C.vals t := by
  induction h with
  | @plain T K V _ a e h =>
    obtain ⟨P, h1, -, -⟩ := h.obj
    let i : ActTree σ T K V := ActTree.plain σ
    let j : ActUnwinds σ T K V := ActUnwinds.plain σ
    let Q : Keeps σ T K V := .plain σ P h1
    refine ⟨.ofKeeps' Q (Audit.plain (fun _ => False) False σ P h1).pos (fun t _ _ t' => t' = t)
      (fun t k v => ActUnwinds.plain_tells t k v) (fun t k v t' I e => ?_), fun n t I => ?_⟩
    · rw [e]; exact ⟨I, Multiset.le_add_right _ _, le_rfl⟩
    · obtain ⟨es, e1, e2⟩ := any_drain_min (t := some t) (n := (P.ents t).card) ⟨I.1, le_rfl⟩
      rw [popped_eq e1, ← Multiset.map_coe, e2]
      rfl
  | btree => exact ⟨.btree BTreeMap.no_panics, fun _ _ _ => rfl⟩
  | box h ih =>
    obtain ⟨C, hC⟩ := ih
    exact ⟨C.box, fun n t => hC n t.val⟩
  | sized h ih =>
    obtain ⟨C, hC⟩ := ih
    exact ⟨C.sized, fun n t I => hC n t.tree I.1⟩
  | tree h hC =>
    obtain ⟨P, -, hv⟩ := h.keeps
    obtain ⟨Q, -, hw⟩ := hC.keeps P hv
    refine ⟨.ofKeeps' Tree.instKeeps (fun t _ => Catch.tv_pos t) Tree.LeftA (fun t k v => Tree.insertUA_tells t k v)
      fun t k v t' I h => ⟨Catch.OfTree.left_of (by rintro p ⟨⟩) I h, Catch.OfTree.left_vals h⟩, fun n t I => ?_⟩
    replace I := I.1
    obtain ⟨m, _ | ⟨x, _ | p⟩⟩ := t
    · rfl
    · rfl
    · have := hw _ (I _ rfl _ rfl)
      show {m.2} + {x.2} + _ = m.2 ::ₘ x.2 ::ₘ Q.vals p.2
      rw [← this, ← Multiset.singleton_add, ← Multiset.singleton_add, add_assoc]
      rfl

theorem CaughtAudit.catch_ {σ T K V : Type} {Us : Panic → Prop} [ActTree σ T K V] [ActUnwinds σ T K V] {E O : Panic → Prop}
    (h : CaughtAudit σ Us T K V E O) (L : Prop) : ∃ C : Catch L σ T (K := K) (V := V), ∀ p, C.E p → Us p ∨ E p ∨ ¬ L ∧ O p := by
  induction h with
  | @plain T K V _ a e h =>
    obtain ⟨P, h1, h2, -⟩ := h.obj
    let i : ActTree σ T K V := ActTree.plain σ
    let j : ActUnwinds σ T K V := ActUnwinds.plain σ
    let Q : Keeps σ T K V := .plain σ P h1
    refine ⟨.ofAudit (Audit.plain Us L σ P h1) (fun t _ _ t' => t' = t)
      (fun t k v => ActUnwinds.plain_tells t k v) (fun t k v t' I e => ?_), fun p hp => ?_⟩
    · rw [e]; exact ⟨I, Multiset.le_add_right _ _, le_rfl, fun _ => id⟩
    · exact hp.imp_right fun hp => .inl ⟨hp.1, fun x => hp.2 (h2 x)⟩
  | btree h => exact ⟨.btree h, fun p hp => hp.imp_right .inl⟩
  | box h ih =>
    obtain ⟨C, hC⟩ := ih
    exact ⟨C.box, hC⟩
  | sized h ih =>
    obtain ⟨C, hC⟩ := ih
    refine ⟨C.sized, fun p hp => ?_⟩
    rcases hp with hp | rfl | ⟨hl, hp⟩
    · rcases hC p hp with h | h | h
      · exact .inl h
      · exact .inr (.inl (.inl h))
      · exact .inr (.inr ⟨h.1, .inl h.2⟩)
    · exact .inr (.inl (.inr rfl))
    · exact .inr (.inr ⟨hl, .inr hp⟩)
  | tree hk hs ht hc =>
    obtain ⟨PS, NS, hS⟩ := hs.audit L
    obtain ⟨P, N, hN⟩ := ht.audit L
    obtain ⟨Q, B, hB⟩ := hc.audit L P N
    refine ⟨.ofAudit (Tree.audit hk) Tree.LeftA (fun t k v => Tree.insertUA_tells t k v) fun t k v t' I h =>
      ⟨Catch.OfTree.left_of (by rintro p ⟨⟩) I h, (Catch.OfTree.left_vals h).1, (Catch.OfTree.left_vals h).2,
        fun n A => Catch.OfTree.left_of Tree.ca_none A h⟩, fun p hp => ?_⟩
    rcases hp with hp | hp | hp
    · rcases hS p hp with h | h | h
      · exact .inl h
      · exact .inr (.inl (.inl h))
      · exact .inr (.inr ⟨h.1, .inl h.2⟩)
    · rcases hB p hp with hp | h | h
      · rcases hN p hp with h | h | h
        · exact .inl h
        · exact .inr (.inl (.inr (.inl h)))
        · exact .inr (.inr ⟨h.1, .inr (.inl h.2)⟩)
      · exact .inr (.inl (.inr (.inr (.inl h))))
      · exact .inr (.inr ⟨h.1, .inr (.inr h.2)⟩)
    · exact .inr (.inl (.inr (.inr (.inr hp))))
  | synced hk hs hu ht hc =>
    obtain ⟨HS⟩ := hs.sim
    obtain ⟨PS, hl⟩ := hu.phys
    obtain ⟨P, N, hN⟩ := ht.audit L
    obtain ⟨Q, ⟨B⟩⟩ := hc.sync L P N
    refine ⟨.ofAudit (Sync.audit hl hk) Tree.LeftA (fun t k v => Tree.insertUA_tells t k v) fun t k v t' I h =>
      ⟨Catch.OfTree.left_of (by rintro p ⟨⟩) I h, (Catch.OfTree.left_vals h).1, (Catch.OfTree.left_vals h).2,
        fun n A => Catch.OfTree.left_of Sync.ca_none A h⟩, fun p hp => ?_⟩
    rcases hp with hp | hp
    · rcases hN p hp with h | h | h
      · exact .inl h
      · exact .inr (.inl (.inl h))
      · exact .inr (.inr h)
    · exact .inr (.inl (.inr hp))

end Veb
