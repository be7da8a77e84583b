import Verif.SpecLoop
import Verif.Proof.Iter

/-!
Loops over an iterator that yields a list.
-/

set_option autoImplicit false

namespace Veb

variable {T K V : Type} [LinearOrder K] [VebTree T K V]

/-- one call -/
theorem Yields.call {it : Iter T K} {rem : List (K × V)} (h : Yields it rem) (s : Side) :
    ∃ it', it.call s = .ok (it', (s.pop rem).2) ∧ Yields it' (s.pop rem).1 := by
  obtain ⟨i1, h1⟩ := h [s]
  have e1 : it.calls [s] = (do let (it, o) ← (it.call s : R (Iter T K × Option (K × V))); pure (it, [o])) := rfl
  cases hc : (it.call s : R (Iter T K × Option (K × V))) with
  | error e => rw [e1, hc] at h1; cases h1
  | ok p =>
    obtain ⟨i2, o⟩ := p
    rw [e1, hc] at h1
    have ho : o = (s.pop rem).2 := by
      have := congrArg (Except.map Prod.snd) h1
      simpa [popAll, Except.map] using this
    subst ho
    refine ⟨i2, rfl, fun ss => ?_⟩
    obtain ⟨i3, h3⟩ := h (s :: ss)
    have e3 : it.calls (s :: ss) = (do
      let (it, o) ← (it.call s : R (Iter T K × Option (K × V)))
      let (it, os) ← it.calls ss
      pure (it, o :: os)) := rfl
    rw [e3, hc] at h3
    have e4 : (do
      let (it, os) ← (i2.calls ss : R (Iter T K × List (Option (K × V))))
      pure (it, (s.pop rem).2 :: os)) = (.ok (i3, (s.pop rem).2 :: (popAll (s.pop rem).1 ss).2) : R _) := h3
    cases h5 : (i2.calls ss : R (Iter T K × List (Option (K × V)))) with
    | error e => rw [h5] at e4; cases e4
    | ok q =>
      obtain ⟨i4, os⟩ := q
      rw [h5] at e4
      have e4 : (Except.ok (i4, (s.pop rem).2 :: os) : R _) = .ok (i3, (s.pop rem).2 :: (popAll (s.pop rem).1 ss).2) := e4
      simp only [Except.ok.injEq, Prod.mk.injEq, List.cons.injEq, true_and] at e4
      exact ⟨i4, by rw [e4.2]⟩

theorem Side.order_order {α : Type} (s : Side) (l : List α) : s.order (s.order l) = l := by
  cases s
  · rfl
  · exact List.reverse_reverse l

/-- many calls -/
theorem Yields.calls {it it' : Iter T K} {rem : List (K × V)} {os : List (Option (K × V))} (h : Yields it rem)
    (ss : List Side) (hc : it.calls ss = .ok (it', os)) : Yields it' (popAll rem ss).1 := by
  induction ss generalizing it rem os with
  | nil => cases hc; exact h
  | cons s ss ih =>
    obtain ⟨i, h1, h2⟩ := h.call s
    have e : it.calls (s :: ss) = (do
      let (it, o) ← (it.call s : R (Iter T K × Option (K × V)))
      let (it, os) ← it.calls ss
      pure (it, o :: os)) := rfl
    rw [e, h1] at hc
    cases h3 : (i.calls ss : R (Iter T K × List (Option (K × V)))) with
    | error e => simp only [R.ok_bind, h3] at hc; cases hc
    | ok p =>
      obtain ⟨i', os'⟩ := p
      simp only [R.ok_bind, h3] at hc
      cases hc
      exact ih h2 h3

theorem Side.pop_order {α : Type} (s : Side) (l : List α) :
    s.pop (s.order l) = (s.order l.tail, l.head?) := by
  cases s with
  | front => rfl
  | back =>
    cases l with
    | nil => rfl
    | cons a l => simp [Side.pop, Side.order]

theorem Yields.tryFold {B C : Type} (s : Side) (f : B → K × V → R (B ⊕ C)) :
    ∀ (l : List (K × V)) (n : Nat) (it : Iter T K) (b : B), l.length < n → Yields it (s.order l) →
    match foldUntil f b l with
    | .error e => Iter.tryFold (Iter.call · s) f n it b = .error e
    | .ok (left, r) => ∃ it', Iter.tryFold (Iter.call · s) f n it b = .ok (some (it', r)) ∧ Yields it' (s.order left) := by
  intro l
  induction l with
  | nil =>
    intro n it b hn h
    obtain ⟨n, rfl⟩ : ∃ m, n = m + 1 := ⟨n - 1, by omega⟩
    obtain ⟨i, h1, h2⟩ := h.call s
    rw [Side.pop_order] at h1 h2
    refine ⟨i, ?_, h2⟩
    simp only [Iter.tryFold, h1, R.ok_bind]
    rfl
  | cons a l ih =>
    intro n it b hn h
    obtain ⟨n, rfl⟩ : ∃ m, n = m + 1 := ⟨n - 1, by simp at hn; omega⟩
    obtain ⟨i, h1, h2⟩ := h.call s
    rw [Side.pop_order] at h1 h2
    simp only [Iter.tryFold, h1, R.ok_bind, foldUntil, List.head?_cons]
    cases hf : f b a with
    | error e => rfl
    | ok r =>
      cases r with
      | inl b => exact ih n i b (by simp at hn; omega) h2
      | inr c => exact ⟨i, rfl, h2⟩

theorem Yields.fold {B : Type} (s : Side) (f : B → K × V → R B) :
    ∀ (l : List (K × V)) (n : Nat) (it : Iter T K) (b : B), l.length < n → Yields it (s.order l) →
    Iter.fold (Iter.call · s) f n it b = (l.foldlM f b).map some := by
  intro l
  induction l with
  | nil =>
    intro n it b hn h
    obtain ⟨n, rfl⟩ : ∃ m, n = m + 1 := ⟨n - 1, by omega⟩
    obtain ⟨i, h1, h2⟩ := h.call s
    rw [Side.pop_order] at h1 h2
    simp only [Iter.fold, h1, R.ok_bind]
    rfl
  | cons a l ih =>
    intro n it b hn h
    obtain ⟨n, rfl⟩ : ∃ m, n = m + 1 := ⟨n - 1, by simp at hn; omega⟩
    obtain ⟨i, h1, h2⟩ := h.call s
    rw [Side.pop_order] at h1 h2
    simp only [Iter.fold, h1, R.ok_bind, List.foldlM_cons, List.head?_cons]
    cases hf : f b a with
    | error e => rfl
    | ok b => exact ih n i b (by simp at hn; omega) h2

theorem Yields.nth (s : Side) : ∀ (l : List (K × V)) (n : Nat) (it : Iter T K), Yields it (s.order l) →
    ∃ it', Iter.nth (Iter.call · s) n it = .ok (it', l[n]?) ∧ Yields it' (s.order (l.drop (n + 1))) := by
  intro l n
  induction n generalizing l with
  | zero =>
    intro it h
    obtain ⟨i, h1, h2⟩ := h.call s
    rw [Side.pop_order] at h1 h2
    exact ⟨i, by rw [Iter.nth, h1]; cases l <;> rfl, by rw [List.drop_one]; exact h2⟩
  | succ n ih =>
    intro it h
    obtain ⟨i, h1, h2⟩ := h.call s
    rw [Side.pop_order] at h1 h2
    cases l with
    | nil => exact ⟨i, by simp only [Iter.nth, h1, R.ok_bind]; rfl, h2⟩
    | cons a l =>
      obtain ⟨i', h3, h4⟩ := ih l i h2
      exact ⟨i', by simp only [Iter.nth, h1, R.ok_bind, List.head?_cons]; exact h3, h4⟩

theorem foldlM_count {A : Type} (l : List A) (c : Nat) (h : c + l.length ≤ usizeMax) :
    l.foldlM (fun c _ => addUsize c 1) c = (.ok (c + l.length) : R Nat) := by
  induction l generalizing c with
  | nil => rfl
  | cons a l ih =>
    simp only [List.length_cons] at h ⊢
    rw [List.foldlM_cons, show addUsize c 1 = .ok (c + 1) from if_pos (by omega), R.ok_bind, ih _ (by omega)]
    congr 1; omega

theorem foldlM_last {A : Type} (l : List A) (o : Option A) :
    l.foldlM (fun _ a => pure (some a)) o = (.ok (l.getLast?.or o) : R (Option A)) := by
  induction l generalizing o with
  | nil => rfl
  | cons a l ih =>
    rw [List.foldlM_cons, pure_bind, ih]
    rcases List.eq_nil_or_concat' l with rfl | ⟨l, x, rfl⟩
    · simp
    · rw [show a :: (l ++ [x]) = (a :: l) ++ [x] from rfl, List.getLast?_concat, List.getLast?_concat]; rfl

theorem foldlM_collect {A : Type} (l acc : List A) :
    l.foldlM (fun l a => pure (l ++ [a])) acc = (.ok (acc ++ l) : R (List A)) := by
  induction l generalizing acc with
  | nil => simp
  | cons a l ih => rw [List.foldlM_cons, pure_bind, ih]; simp

theorem foldUntil_find {A : Type} (p : A → Bool) (l : List A) :
    foldUntil (fun (_ : Unit) a => (pure (if p a then .inr a else .inl ()) : R (Unit ⊕ A))) () l =
      .ok ((l.dropWhile (fun a => !p a)).tail, match l.find? p with | some a => .inr a | none => .inl ()) := by
  induction l with
  | nil => rfl
  | cons a l ih =>
    simp only [foldUntil, pure_bind]
    cases hp : p a with
    | true => simp [hp]
    | false => simp only [Bool.false_eq_true, if_false, ih, List.dropWhile_cons, hp, Bool.not_false, if_true, List.find?_cons]

open Iter in
theorem fold_of_calls {T K V : Type} [LinearOrder K] [VebTree T K V] {B : Type} (s : Side) (f : B → K × V → R B) (n : Nat) :
    ∀ (it it' : Iter T K) (b : B) (os : List (K × V)), (∀ b a, ∃ b', f b a = .ok b') →
      it.calls (List.replicate n s) = .ok (it', os.map some) → Iter.fold (Iter.call · s) f n it b = .ok none := by
  induction n with
  | zero => intros; rfl
  | succ n ih =>
    intro it it' b os hf h
    rw [List.replicate_succ] at h
    have e : it.calls (s :: List.replicate n s) = (do
      let (it, o) ← (it.call s : R (Iter T K × Option (K × V)))
      let (it, os) ← it.calls (List.replicate n s)
      pure (it, o :: os)) := rfl
    rw [e] at h
    cases h1 : (it.call s : R (Iter T K × Option (K × V))) with
    | error e => rw [h1] at h; cases h
    | ok p =>
      obtain ⟨i, o⟩ := p
      rw [h1] at h
      cases h2 : (i.calls (List.replicate n s) : R (Iter T K × List (Option (K × V)))) with
      | error e => simp only [R.ok_bind, h2] at h; cases h
      | ok q =>
        obtain ⟨i', os'⟩ := q
        simp only [R.ok_bind, h2, R.pure_eq, Except.ok.injEq, Prod.mk.injEq] at h
        obtain ⟨rfl, h⟩ := h
        cases os with
        | nil => cases h
        | cons a os =>
          rw [List.map_cons, List.cons.injEq] at h
          obtain ⟨rfl, rfl⟩ := h
          obtain ⟨b', hb⟩ := hf b a
          simp only [Iter.fold, h1, R.ok_bind, hb]
          exact ih i i' b' os hf h2

end Veb
