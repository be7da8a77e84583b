import Verif.Props.ActIter

/-!
Iterators over code that answers properly or panics.
-/

set_option autoImplicit false

namespace Veb.Iter
open Props

variable {σ T K V : Type} [LinearOrder K] [ActTree σ T K V] [VebTree T K V] [ActIterKey σ K] {Us : Panic → Prop}

theorem outcomeOr_of {α : Type} {Q : α → Prop} {x : Act σ α} {r : R α} (h : Follows Us Q x r) : OutcomeOr Us x r := fun s =>
  (h s).elim (fun ⟨a, s', e, h1, _⟩ => .inr ⟨a, s', h1, e⟩) .inl

/-- one call whose panic is caught -/
theorem caught_call {P : HTree Us σ T K V} (hk : SoundIterKey σ Us K) (it : Iter T K) (ht : P.W it.tree)
    (hn : it.emitted < usizeMax) (si : Side) (s : σ) {it' : Iter T K} {o : Option (K × V)} (hc : it.call si = .ok (it', o)) :
    (it'.tree = it.tree ∧ ∃ s', it.caughtA (it.matchA si) s = (it', .ok (o, s'))) ∨
    ∃ p it₁, Us p ∧ it.caughtA (it.matchA si) s = (it₁, .error p) ∧ it₁.data = none := by
  have same := C73_caught_same it si s
  cases hq : it.caughtA (it.matchA si) s with
  | mk it₁ r =>
    rw [hq] at same
    rcases honest_call (P := P) hk it ht si s with ⟨a, s', e, h1, h2⟩ | ⟨p, h1, h2⟩
    · rw [h1] at same
      rw [hc] at e
      cases e
      cases r with
      | error p => cases same
      | ok r =>
        cases same
        exact .inl ⟨h2, _, rfl⟩
    · rw [h1] at same
      cases r with
      | ok r => cases same
      | error q =>
        cases same
        refine .inr ⟨_, _, ?_, rfl, ?_⟩
        · rcases h2 with h2 | h2
          · rw [hc] at h2; cases h2
          · exact h2
        · rcases C73_caught _ _ _ _ _ hq with h | h
          · exact h.1
          · omega

omit [LinearOrder K] [VebTree T K V] in
theorem stopped_caught (es : List (σ × Side)) (it : Iter T K) (h : it.data = none) :
    (it.callsUA es).2 = List.replicate es.length (.ok none) := by
  induction es generalizing it with
  | nil => rfl
  | cons e es ih =>
    obtain ⟨s, si⟩ := e
    have h1 : it.caughtA (it.matchA si) s = (⟨it.tree, none, it.emitted⟩, .ok (none, s)) := by
      obtain ⟨t, d, n⟩ := it
      cases h
      cases si <;> rfl
    show (it.caughtA (it.matchA si) s).2.map Prod.fst :: ((it.caughtA (it.matchA si) s).1.callsUA es).2 = _
    rw [h1, ih _ rfl]
    rfl

omit [LinearOrder K] [ActTree σ T K V] [VebTree T K V] [ActIterKey σ K] in
theorem caughtA_emitted (it : Iter T K) (m : Act σ (Option (IterData K × (K × V)))) (s : σ) :
    (it.caughtA m s).1.emitted ≤ it.emitted + 1 := by
  unfold caughtA
  split
  · exact Nat.le_succ _
  · exact Nat.le_succ _
  · split
    · exact Nat.le_succ _
    · rename_i e; exact (add_ok e).1.le

theorem caught_calls {P : HTree Us σ T K V} (hk : SoundIterKey σ Us K) (es : List (σ × Side)) (it : Iter T K) (ht : P.W it.tree)
    (hn : it.emitted + es.length ≤ usizeMax) {it' : Iter T K} {as : List (Option (K × V))}
    (hc : it.calls (es.map Prod.snd) = .ok (it', as)) :
    (it.callsUA es).2 = as.map .ok ∨ ∃ n p, n < es.length ∧ Us p ∧
      (it.callsUA es).2 = (as.take n).map .ok ++ .error p :: List.replicate (es.length - n - 1) (.ok none) := by
  induction es generalizing it as with
  | nil => cases hc; exact .inl rfl
  | cons e es ih =>
    obtain ⟨s, si⟩ := e
    change (it.call si >>= fun p => p.1.calls (es.map Prod.snd) >>= fun q => pure (q.1, p.2 :: q.2)) = _ at hc
    cases h1 : it.call si with
    | error p => rw [h1] at hc; cases hc
    | ok p =>
      obtain ⟨it₁, o⟩ := p
      rw [h1] at hc
      change (it₁.calls (es.map Prod.snd) >>= fun q => pure (q.1, o :: q.2)) = _ at hc
      cases h2 : it₁.calls (es.map Prod.snd) with
      | error p => rw [h2] at hc; cases hc
      | ok q =>
        obtain ⟨it₂, bs⟩ := q
        rw [h2] at hc
        cases hc
        simp only [List.length_cons] at hn
        have e : ∀ {i : Iter T K} {r : R (Option (K × V) × σ)}, it.caughtA (it.matchA si) s = (i, r) →
            (it.callsUA ((s, si) :: es)).2 = r.map Prod.fst :: (i.callsUA es).2 := fun h => by
          show (it.caughtA (it.matchA si) s).2.map Prod.fst :: ((it.caughtA (it.matchA si) s).1.callsUA es).2 = _
          rw [h]
        rcases caught_call (P := P) hk it ht (by omega) si s h1 with ⟨g1, s', g2⟩ | ⟨p, i, g1, g2, g3⟩
        · have := caughtA_emitted it (it.matchA si) s
          rw [g2] at this
          dsimp only at this
          rw [e g2]
          rcases ih it₁ (g1 ▸ ht) (by omega) h2 with h3 | ⟨n, p, h3, h4, h5⟩
          · exact .inl (by rw [h3]; rfl)
          · refine .inr ⟨n + 1, p, by simpa using h3, h4, ?_⟩
            rw [h5]
            simp only [List.take_succ_cons, List.map_cons, List.length_cons, List.cons_append]
            congr 4
            omega
        · rw [e g2, stopped_caught es i g3]
          exact .inr ⟨0, p, by simp, g1, rfl⟩

end Veb.Iter
