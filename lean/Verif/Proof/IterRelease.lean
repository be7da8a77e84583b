import Verif.SpecRelease
import Verif.Proof.IterAll

/-!
The iterator of a release build against that of a debug build.
-/

set_option autoImplicit false
set_option linter.unusedSectionVars false

namespace Veb.Iter
variable {T K V : Type} [LinearOrder K] [VebTree T K V]

theorem emitRel_of_emit {it : Iter T K} {d : IterData K} {kv : K × V} {r : Iter T K × Option (K × V)}
    (h : it.emit d kv = .ok r) : it.emitRel d kv = .ok r := by
  simp only [emit] at h
  obtain ⟨n, h1, h2⟩ := R.bind_ok h
  cases h2
  simp only [addUsize] at h1
  split at h1 <;> cases h1
  rename_i hn
  simp only [emitRel, Nat.mod_eq_of_lt (Nat.lt_succ_of_le hn)]
  rfl

/-- Where the debug build returns, the release build returns the same. -/
theorem callRel_of_call {it : Iter T K} {s : Side} {r : Iter T K × Option (K × V)} (h : it.call s = .ok r) :
    it.callRel s = .ok r := by
  rcases it with ⟨t, d, n⟩
  cases s
  · rcases d with _ | _ | k | k | ⟨a, b⟩ <;> simp only [call, next] at h <;> simp only [callRel, nextRel]
    · exact h
    · obtain ⟨kv, h1, h2⟩ := R.bind_ok h
      rw [h1]; exact emitRel_of_emit h2
    · obtain ⟨_ | kv, h1, h2⟩ := R.bind_ok h
      · rw [h1]; exact h2
      · rw [h1]; exact emitRel_of_emit h2
    · obtain ⟨kv, h1, h2⟩ := R.bind_ok h
      rw [h1, R.ok_bind]
      split at h2
      · rename_i hk; rw [if_pos hk]; exact h2
      · rename_i hk; rw [if_neg hk]; exact emitRel_of_emit h2
    · obtain ⟨_ | kv, h1, h2⟩ := R.bind_ok h
      · cases h2
      · rw [h1, R.ok_bind]
        dsimp only at h2 ⊢
        split at h2
        · rename_i hk; rw [if_pos hk]; exact h2
        · rename_i hk; rw [if_neg hk]; exact emitRel_of_emit h2
  · rcases d with _ | _ | k | k | ⟨a, b⟩ <;> simp only [call, nextBack] at h <;> simp only [callRel, nextBackRel]
    · exact h
    · obtain ⟨kv, h1, h2⟩ := R.bind_ok h
      rw [h1]; exact emitRel_of_emit h2
    · obtain ⟨kv, h1, h2⟩ := R.bind_ok h
      rw [h1, R.ok_bind]
      split at h2
      · rename_i hk; rw [if_pos hk]; exact h2
      · rename_i hk; rw [if_neg hk]; exact emitRel_of_emit h2
    · obtain ⟨_ | kv, h1, h2⟩ := R.bind_ok h
      · rw [h1]; exact h2
      · rw [h1]; exact emitRel_of_emit h2
    · obtain ⟨_ | kv, h1, h2⟩ := R.bind_ok h
      · cases h2
      · rw [h1, R.ok_bind]
        dsimp only at h2 ⊢
        split at h2
        · rename_i hk; rw [if_pos hk]; exact h2
        · rename_i hk; rw [if_neg hk]; exact emitRel_of_emit h2

theorem callsRel_of_calls {it : Iter T K} {ss : List Side} {r : Iter T K × List (Option (K × V))}
    (h : it.calls ss = .ok r) : it.callsRel ss = .ok r := by
  induction ss generalizing it r with
  | nil => exact h
  | cons s ss ih =>
    obtain ⟨it', os⟩ := r
    obtain ⟨i1, o, os', h1, h2, rfl⟩ := calls_cons h
    simp only [callsRel, callRel_of_call h1, R.ok_bind, ih h2]
    rfl

theorem callsRel_cons {it it' : Iter T K} {s : Side} {ss : List Side} {os : List (Option (K × V))}
    (h : it.callsRel (s :: ss) = .ok (it', os)) :
    ∃ i1 o os', it.callRel s = .ok (i1, o) ∧ i1.callsRel ss = .ok (it', os') ∧ os = o :: os' := by
  simp only [callsRel] at h
  obtain ⟨⟨i1, o⟩, h1, h2⟩ := R.bind_ok h
  obtain ⟨⟨i2, os'⟩, h3, h4⟩ := R.bind_ok h2
  cases h4
  exact ⟨i1, o, os', h1, h3, rfl⟩

theorem callsRel_done {it : Iter T K} (h : it.data = none) (ss : List Side) :
    it.callsRel ss = .ok (it, List.replicate ss.length (none : Option (K × V))) :=
  callsRel_of_calls (calls_done h ss)

/-- A call without an item leaves an exhausted iterator. -/
theorem callRel_none {it it' : Iter T K} {s : Side} (h : it.callRel s = .ok (it', (none : Option (K × V)))) :
    it'.data = none := by
  have em : ∀ {d : IterData K} {kv : K × V}, ¬ it.emitRel d kv = .ok (it', none) := fun h => by cases h
  have st : ∀ {it' : Iter T K}, it.stop = .ok (it', (none : Option (K × V))) → it'.data = none := fun h => by
    cases h; rfl
  rcases it with ⟨t, d, n⟩
  cases s <;> simp only [callRel, nextRel, nextBackRel] at h
  · rcases d with _ | _ | k | k | ⟨a, b⟩
    · exact st h
    · obtain ⟨kv, -, h2⟩ := R.bind_ok h
      exact absurd h2 em
    · obtain ⟨_ | kv, -, h2⟩ := R.bind_ok h
      · exact st h2
      · exact absurd h2 em
    · obtain ⟨kv, -, h2⟩ := R.bind_ok h
      split at h2
      · exact st h2
      · exact absurd h2 em
    · obtain ⟨_ | kv, -, h2⟩ := R.bind_ok h
      · exact st h2
      · dsimp only at h2
        split at h2
        · exact st h2
        · exact absurd h2 em
  · rcases d with _ | _ | k | k | ⟨a, b⟩
    · exact st h
    · obtain ⟨kv, -, h2⟩ := R.bind_ok h
      exact absurd h2 em
    · obtain ⟨kv, -, h2⟩ := R.bind_ok h
      split at h2
      · exact st h2
      · exact absurd h2 em
    · obtain ⟨_ | kv, -, h2⟩ := R.bind_ok h
      · exact st h2
      · exact absurd h2 em
    · obtain ⟨_ | kv, -, h2⟩ := R.bind_ok h
      · exact st h2
      · dsimp only at h2
        split at h2
        · exact st h2
        · exact absurd h2 em

theorem callsRel_none {it it' : Iter T K} {ss : List Side} {os : List (Option (K × V))}
    (h : it.callsRel ss = .ok (it', os)) (hn : none ∈ os) : it'.data = none := by
  induction ss generalizing it os with
  | nil => cases h; cases hn
  | cons s ss ih =>
    obtain ⟨i1, o, os', h1, h2, rfl⟩ := callsRel_cons h
    cases o with
    | some e => exact ih h2 (by simpa using hn)
    | none =>
      have h3 := callRel_none h1
      rw [callsRel_done h3] at h2
      cases h2
      exact h3

section
variable [P : PhysTree T K V]

/-- What may come of a call in the release build: an answer from the stored entries. -/
def FineRel (it : Iter T K) (r : R (Iter T K × Option (K × V))) : Prop :=
  ∃ it' o, r = .ok (it', o) ∧ it'.tree = it.tree ∧ ∀ e, o = some e → e ∈ P.ents it.tree

theorem fineRel_emit {it : Iter T K} (d : IterData K) {kv : K × V} (hm : kv ∈ P.ents it.tree) :
    FineRel it (it.emitRel d kv) := ⟨_, _, rfl, rfl, fun e he => by cases he; exact hm⟩
theorem fineRel_stop {it : Iter T K} : FineRel it it.stop := ⟨_, _, rfl, rfl, fun e he => by cases he⟩

theorem callRel_phys {it : Iter T K} (I : P.W it.tree) (s : Side) : FineRel it (it.callRel s) := by
  rcases it with ⟨t, d, n⟩
  obtain ⟨mk, mv, hmin, mmem⟩ := P.minValE t I
  obtain ⟨xk, xv, hmax, xmem⟩ := P.maxValE t I
  cases s
  · rcases d with _ | _ | k | k | ⟨x, y⟩ <;> simp only [callRel, nextRel]
    · exact fineRel_stop
    · rw [hmin]; exact fineRel_emit _ mmem
    · obtain ⟨_ | r, hr, hm⟩ := P.successorE t k I
      · rw [hr]; exact fineRel_stop
      · rw [hr]; exact fineRel_emit _ (hm _ rfl)
    · rw [hmin, R.ok_bind]
      split
      · exact fineRel_stop
      · exact fineRel_emit _ mmem
    · obtain ⟨_ | r, hr, hm⟩ := P.successorE t x I
      · rw [hr]; exact fineRel_stop
      · rw [hr, R.ok_bind]
        dsimp only
        split
        · exact fineRel_stop
        · exact fineRel_emit _ (hm _ rfl)
  · rcases d with _ | _ | k | k | ⟨x, y⟩ <;> simp only [callRel, nextBackRel]
    · exact fineRel_stop
    · rw [hmax]; exact fineRel_emit _ xmem
    · rw [hmax, R.ok_bind]
      split
      · exact fineRel_stop
      · exact fineRel_emit _ xmem
    · obtain ⟨_ | r, hr, hm⟩ := P.predecessorE t k I
      · rw [hr]; exact fineRel_stop
      · rw [hr]; exact fineRel_emit _ (hm _ rfl)
    · obtain ⟨_ | r, hr, hm⟩ := P.predecessorE t y I
      · rw [hr]; exact fineRel_stop
      · rw [hr, R.ok_bind]
        dsimp only
        split
        · exact fineRel_stop
        · exact fineRel_emit _ (hm _ rfl)

theorem callsRel_phys (ss : List Side) {it : Iter T K} (I : P.W it.tree) :
    ∃ it' os, it.callsRel ss = .ok (it', os) ∧ it'.tree = it.tree ∧ ∀ e, some e ∈ os → e ∈ P.ents it.tree := by
  induction ss generalizing it with
  | nil => exact ⟨it, [], rfl, rfl, by simp⟩
  | cons s ss ih =>
    obtain ⟨i1, o, h1, h2, h3⟩ := callRel_phys I s
    obtain ⟨i2, os, g1, g3, g2⟩ := ih (it := i1) (h2 ▸ I)
    refine ⟨i2, o :: os, by simp only [callsRel, h1, R.ok_bind, g1]; rfl, g3.trans h2, fun e he => ?_⟩
    rcases List.mem_cons.1 he with he | he
    · exact h3 e he.symm
    · exact h2 ▸ g2 e he

theorem ok_ne_emit {it : Iter T K} (hn : it.emitted < usizeMax) {d : IterData K} {kv : K × V} {p : Panic} {Q : Prop}
    (h : it.emit d kv = .error p) : Q := by
  rw [emit_eq it d kv hn] at h; cases h

/-- Where the debug build panics, the release build stops. -/
theorem callRel_stop {it : Iter T K} (I : P.W it.tree) {s : Side} (hn : it.emitted < usizeMax) {p : Panic}
    (h : (it.call s : R (Iter T K × Option (K × V))) = .error p) : (it.callRel s : R (Iter T K × Option (K × V))) = it.stop := by
  rcases it with ⟨t, d, n⟩
  obtain ⟨mk, mv, hmin, mmem⟩ := P.minValE t I
  obtain ⟨xk, xv, hmax, xmem⟩ := P.maxValE t I
  cases s
  · rcases d with _ | _ | k | k | ⟨x, y⟩ <;> simp only [call, next] at h <;> simp only [callRel, nextRel]
    · rw [hmin] at h; exact ok_ne_emit hn h
    · obtain ⟨_ | r, hr, hm⟩ := P.successorE t k I
      · rw [hr] at h; cases h
      · rw [hr] at h; exact ok_ne_emit hn h
    · rw [hmin, R.ok_bind] at h
      split at h
      · cases h
      · exact ok_ne_emit hn h
    · obtain ⟨_ | r, hr, hm⟩ := P.successorE t x I
      · rw [hr]; rfl
      · rw [hr, R.ok_bind] at h
        dsimp only at h
        split at h
        · cases h
        · exact ok_ne_emit hn h
  · rcases d with _ | _ | k | k | ⟨x, y⟩ <;> simp only [call, nextBack] at h <;> simp only [callRel, nextBackRel]
    · rw [hmax] at h; exact ok_ne_emit hn h
    · rw [hmax, R.ok_bind] at h
      split at h
      · cases h
      · exact ok_ne_emit hn h
    · obtain ⟨_ | r, hr, hm⟩ := P.predecessorE t k I
      · rw [hr] at h; cases h
      · rw [hr] at h; exact ok_ne_emit hn h
    · obtain ⟨_ | r, hr, hm⟩ := P.predecessorE t y I
      · rw [hr]; rfl
      · rw [hr, R.ok_bind] at h
        dsimp only at h
        split at h
        · cases h
        · exact ok_ne_emit hn h

/-- The two builds compared over a sequence of calls. -/
theorem callsRel_compare (ss : List Side) {it : Iter T K} (I : P.W it.tree) (hn : it.emitted + ss.length ≤ usizeMax) :
    (∃ r : Iter T K × List (Option (K × V)), it.calls ss = .ok r ∧ it.callsRel ss = .ok r) ∨
    ∃ (pre : List Side) (s : Side) (post : List Side) (it' : Iter T K) (os : List (Option (K × V))),
      ss = pre ++ s :: post ∧ it.calls pre = .ok (it', os) ∧
      (it.calls (pre ++ [s]) : R (Iter T K × List (Option (K × V)))) = .error .debugAssert ∧
      ∃ it'', it.callsRel ss = .ok (it'', os ++ List.replicate (post.length + 1) none) := by
  induction ss generalizing it with
  | nil => exact .inl ⟨_, rfl, rfl⟩
  | cons s ss ih =>
    simp only [List.length_cons] at hn
    rcases call_phys I s (by omega) (f := True) (b := True)
        (by rcases it.data with _ | _ | _ | _ | _ <;> simp [Uses]) with ⟨i1, o, h1, h2, h3, h4, h5⟩ | ⟨h1, -⟩
    · rcases ih (it := i1) (h2 ▸ I) (by omega) with ⟨r, g1, g2⟩ | ⟨pre, s', post, i2, os, rfl, g1, g2, i3, g3⟩
      · exact .inl ⟨_, by simp only [calls, h1, R.ok_bind, g1]; rfl,
          by simp only [callsRel, callRel_of_call h1, R.ok_bind, g2]; rfl⟩
      · refine .inr ⟨s :: pre, s', post, i2, o :: os, rfl, by simp only [calls, h1, R.ok_bind, g1]; rfl,
          by simp only [List.cons_append, calls, h1, R.ok_bind, g2]; rfl, i3, ?_⟩
        simp only [callsRel, callRel_of_call h1, R.ok_bind, g3]; rfl
    · refine .inr ⟨[], s, ss, it, [], rfl, rfl, by simp only [List.nil_append, calls, h1]; rfl,
        ⟨it.tree, none, it.emitted⟩, ?_⟩
      · simp only [callsRel, callRel_stop I (by omega) h1, stop, pure_bind]
        rw [callsRel_done rfl]
        rfl
end

theorem calls_le {it it' : Iter T K} {ss : List Side} {os : List (Option (K × V))}
    (h : it.calls ss = .ok (it', os)) (hn : it.emitted ≤ usizeMax) : it'.emitted ≤ usizeMax := by
  induction ss generalizing it os with
  | nil => cases h; exact hn
  | cons s ss ih =>
    obtain ⟨i1, o, os', h1, h2, rfl⟩ := calls_cons h
    refine ih h2 ?_
    have em : ∀ {d : IterData K} {kv : K × V}, it.emit d kv = .ok (i1, o) → i1.emitted ≤ usizeMax := fun h => by
      simp only [emit] at h
      obtain ⟨n, h3, h4⟩ := R.bind_ok h
      cases h4
      simp only [addUsize] at h3
      split at h3 <;> cases h3
      assumption
    have st : it.stop = .ok (i1, o) → i1.emitted ≤ usizeMax := fun h => by cases h; exact hn
    rcases it with ⟨t, d, n⟩
    cases s <;> simp only [call, next, nextBack] at h1
    · rcases d with _ | _ | k | k | ⟨a, b⟩
      · exact st h1
      · obtain ⟨kv, -, h2⟩ := R.bind_ok h1
        exact em h2
      · obtain ⟨_ | kv, -, h2⟩ := R.bind_ok h1
        · exact st h2
        · exact em h2
      · obtain ⟨kv, -, h2⟩ := R.bind_ok h1
        split at h2
        · exact st h2
        · exact em h2
      · obtain ⟨_ | kv, -, h2⟩ := R.bind_ok h1
        · cases h2
        · dsimp only at h2
          split at h2
          · exact st h2
          · exact em h2
    · rcases d with _ | _ | k | k | ⟨a, b⟩
      · exact st h1
      · obtain ⟨kv, -, h2⟩ := R.bind_ok h1
        exact em h2
      · obtain ⟨kv, -, h2⟩ := R.bind_ok h1
        split at h2
        · exact st h2
        · exact em h2
      · obtain ⟨_ | kv, -, h2⟩ := R.bind_ok h1
        · exact st h2
        · exact em h2
      · obtain ⟨_ | kv, -, h2⟩ := R.bind_ok h1
        · cases h2
        · dsimp only at h2
          split at h2
          · exact st h2
          · exact em h2
end Veb.Iter
