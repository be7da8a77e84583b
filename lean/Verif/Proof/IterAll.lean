import Verif.SpecIter
import Verif.Proof.Look
import Verif.Proof.NoPanic

/-!
# The iterator over trees of any kind

Lemmas about `Iter` that do not require the tree to answer correctly.
-/

set_option autoImplicit false
set_option linter.unusedSectionVars false

namespace Veb.Iter
variable {T K V : Type} [LinearOrder K] [VebTree T K V]

theorem calls_cons {it it' : Iter T K} {s : Side} {ss : List Side} {os : List (Option (K × V))}
    (h : it.calls (s :: ss) = .ok (it', os)) :
    ∃ i1 o os', it.call s = .ok (i1, o) ∧ i1.calls ss = .ok (it', os') ∧ os = o :: os' := by
  simp only [calls] at h
  obtain ⟨⟨i1, o⟩, h1, h2⟩ := R.bind_ok h
  obtain ⟨⟨i2, os'⟩, h3, h4⟩ := R.bind_ok h2
  cases h4
  exact ⟨i1, o, os', h1, h3, rfl⟩

theorem of_emit {it it' : Iter T K} {d : IterData K} {kv : K × V} {o : Option (K × V)}
    (h : it.emit d kv = .ok (it', o)) :
    it'.tree = it.tree ∧ it'.data = some d ∧ it'.emitted = it.emitted + 1 ∧ o = some kv := by
  simp only [emit] at h
  obtain ⟨n, h1, h2⟩ := R.bind_ok h
  cases h2
  refine ⟨rfl, rfl, ?_, rfl⟩
  simp only [addUsize] at h1
  split at h1 <;> cases h1
  rfl

theorem emit_eq (it : Iter T K) (d : IterData K) (kv : K × V) (h : it.emitted < usizeMax) :
    it.emit d kv = .ok (⟨it.tree, some d, it.emitted + 1⟩, some kv) := by
  simp only [emit, addUsize, if_pos (show it.emitted + 1 ≤ usizeMax from h)]
  rfl

/-- A call without an item leaves an exhausted iterator. -/
theorem call_none {it it' : Iter T K} {s : Side} (h : it.call s = .ok (it', (none : Option (K × V)))) :
    it'.data = none := by
  have em : ∀ {d : IterData K} {kv : K × V}, ¬ it.emit d kv = .ok (it', none) := fun h => by
    have := (of_emit h).2.2.2; cases this
  have st : ∀ {it' : Iter T K}, it.stop = .ok (it', (none : Option (K × V))) → it'.data = none := fun h => by
    cases h; rfl
  rcases it with ⟨t, d, n⟩
  cases s <;> simp only [call, next, nextBack] at h
  · rcases d with _ | _ | k | k | ⟨a, b⟩
    · exact st h
    · obtain ⟨kv, -, h2⟩ := R.bind_ok h
      exact absurd h2 em
    · obtain ⟨_ | kv, -, h2⟩ := R.bind_ok h
      · exact st h2
      · exact absurd h2 em
    · obtain ⟨kv, -, h2⟩ := R.bind_ok h
      split at h2
      · exact st h2
      · exact absurd h2 em
    · obtain ⟨_ | kv, -, h2⟩ := R.bind_ok h
      · cases h2
      · dsimp only at h2
        split at h2
        · exact st h2
        · exact absurd h2 em
  · rcases d with _ | _ | k | k | ⟨a, b⟩
    · exact st h
    · obtain ⟨kv, -, h2⟩ := R.bind_ok h
      exact absurd h2 em
    · obtain ⟨kv, -, h2⟩ := R.bind_ok h
      split at h2
      · exact st h2
      · exact absurd h2 em
    · obtain ⟨_ | kv, -, h2⟩ := R.bind_ok h
      · exact st h2
      · exact absurd h2 em
    · obtain ⟨_ | kv, -, h2⟩ := R.bind_ok h
      · cases h2
      · dsimp only at h2
        split at h2
        · exact st h2
        · exact absurd h2 em

/-- An exhausted iterator stays so. -/
theorem call_done {it : Iter T K} (h : it.data = none) (s : Side) : it.call s = .ok (it, (none : Option (K × V))) := by
  rcases it with ⟨t, d, n⟩
  cases h
  cases s <;> rfl

theorem calls_done {it : Iter T K} (h : it.data = none) (ss : List Side) :
    it.calls ss = .ok (it, List.replicate ss.length (none : Option (K × V))) := by
  induction ss with
  | nil => rfl
  | cons s ss ih =>
    simp only [calls, call_done h, R.ok_bind, ih]
    rfl

/-- Once a call has returned no item, the iterator is exhausted. -/
theorem calls_none {it it' : Iter T K} {ss : List Side} {os : List (Option (K × V))}
    (h : it.calls ss = .ok (it', os)) (hn : none ∈ os) : it'.data = none := by
  induction ss generalizing it os with
  | nil => cases h; cases hn
  | cons s ss ih =>
    obtain ⟨i1, o, os', h1, h2, rfl⟩ := calls_cons h
    cases o with
    | some e => exact ih h2 (by simpa using hn)
    | none =>
      have h3 := call_none h1
      rw [calls_done h3] at h2
      cases h2
      exact h3

theorem calls_length {it it' : Iter T K} {ss : List Side} {os : List (Option (K × V))}
    (h : it.calls ss = .ok (it', os)) : os.length = ss.length := by
  induction ss generalizing it os with
  | nil => cases h; rfl
  | cons s ss ih =>
    obtain ⟨i1, o, os', h1, h2, rfl⟩ := calls_cons h
    simp [ih h2]

section
variable [P : PhysTree T K V]

/-- The ends at which a state has been advanced are among those where `f`, `b` say so. -/
def Uses (f b : Prop) : Option (IterData K) → Prop
  | none => True
  | some .start => True
  | some (.front _) => f
  | some (.back _) => b
  | some (.both _ _) => f ∧ b

/-- What may come of a call on `it`: an answer from the stored entries, or a failing assertion if `q`. -/
def Fine (it : Iter T K) (f b q : Prop) (r : R (Iter T K × Option (K × V))) : Prop :=
  (∃ it' o, r = .ok (it', o) ∧ it'.tree = it.tree ∧ it'.emitted ≤ it.emitted + 1 ∧
    Uses f b it'.data ∧ ∀ e, o = some e → e ∈ P.ents it.tree) ∨ (r = .error .debugAssert ∧ q)

theorem fine_emit {it : Iter T K} {f b q : Prop} (hn : it.emitted < usizeMax) (d : IterData K) {kv : K × V}
    (hm : kv ∈ P.ents it.tree) (hd : Uses f b (some d)) : Fine it f b q (it.emit d kv) :=
  .inl ⟨_, _, emit_eq it d kv hn, rfl, le_rfl, hd, fun e he => by cases he; exact hm⟩

theorem fine_stop {it : Iter T K} {f b q : Prop} : Fine it f b q it.stop :=
  .inl ⟨_, _, rfl, rfl, Nat.le_succ _, trivial, fun e he => by cases he⟩

/-- One call on a tree whose structure is intact. -/
theorem call_phys {it : Iter T K} (I : P.W it.tree) (s : Side) (hn : it.emitted < usizeMax) {f b : Prop}
    (hu : Uses f b it.data) : Fine it (f ∨ s = .front) (b ∨ s = .back) (f ∧ b) (it.call s) := by
  rcases it with ⟨t, d, n⟩
  obtain ⟨mk, mv, hmin, mmem⟩ := P.minValE t I
  obtain ⟨xk, xv, hmax, xmem⟩ := P.maxValE t I
  cases s
  · rcases d with _ | _ | k | k | ⟨x, y⟩ <;> simp only [call, next]
    · exact fine_stop
    · rw [hmin]; exact fine_emit hn _ mmem (by simp [Uses])
    · obtain ⟨_ | r, hr, hm⟩ := P.successorE t k I
      · rw [hr]; exact fine_stop
      · rw [hr]; exact fine_emit hn _ (hm _ rfl) (by simp [Uses])
    · rw [hmin, R.ok_bind]
      split
      · exact fine_stop
      · exact fine_emit hn _ mmem ⟨.inr trivial, .inl hu⟩
    · obtain ⟨_ | r, hr, hm⟩ := P.successorE t x I
      · rw [hr]; exact .inr ⟨rfl, hu⟩
      · rw [hr, R.ok_bind]
        dsimp only
        split
        · exact fine_stop
        · exact fine_emit hn _ (hm _ rfl) ⟨.inr trivial, .inl hu.2⟩
  · rcases d with _ | _ | k | k | ⟨x, y⟩ <;> simp only [call, nextBack]
    · exact fine_stop
    · rw [hmax]; exact fine_emit hn _ xmem (by simp [Uses])
    · rw [hmax, R.ok_bind]
      split
      · exact fine_stop
      · exact fine_emit hn _ xmem ⟨.inl hu, .inr trivial⟩
    · obtain ⟨_ | r, hr, hm⟩ := P.predecessorE t k I
      · rw [hr]; exact fine_stop
      · rw [hr]; exact fine_emit hn _ (hm _ rfl) (by simp [Uses])
    · obtain ⟨_ | r, hr, hm⟩ := P.predecessorE t y I
      · rw [hr]; exact .inr ⟨rfl, hu⟩
      · rw [hr, R.ok_bind]
        dsimp only
        split
        · exact fine_stop
        · exact fine_emit hn _ (hm _ rfl) ⟨.inl hu.1, .inr trivial⟩

theorem calls_phys (ss : List Side) {it : Iter T K} (I : P.W it.tree) (hn : it.emitted + ss.length ≤ usizeMax)
    {f b : Prop} (hu : Uses f b it.data) :
    (∃ it' os, it.calls ss = .ok (it', os) ∧ ∀ e, some e ∈ os → e ∈ P.ents it.tree) ∨
    (it.calls ss = .error .debugAssert ∧ (f ∨ .front ∈ ss) ∧ (b ∨ .back ∈ ss)) := by
  induction ss generalizing it f b with
  | nil => exact .inl ⟨it, [], rfl, by simp⟩
  | cons s ss ih =>
    simp only [List.length_cons] at hn
    rcases call_phys I s (by omega) hu with ⟨i1, o, h1, h2, h3, h4, h5⟩ | ⟨h1, hf, hb⟩
    · rcases ih (it := i1) (h2 ▸ I) (by omega) h4 with ⟨i2, os, g1, g2⟩ | ⟨g1, gf, gb⟩
      · refine .inl ⟨i2, o :: os, by simp only [calls, h1, R.ok_bind, g1]; rfl, fun e he => ?_⟩
        rcases List.mem_cons.1 he with he | he
        · exact h5 e he.symm
        · exact h2 ▸ g2 e he
      · refine .inr ⟨by simp only [calls, h1, R.ok_bind, g1]; rfl, ?_, ?_⟩
        · rcases gf with (h | h) | h
          · exact .inl h
          · exact .inr (by simp [h])
          · exact .inr (by simp [h])
        · rcases gb with (h | h) | h
          · exact .inl h
          · exact .inr (by simp [h])
          · exact .inr (by simp [h])
    · exact .inr ⟨by simp only [calls, h1]; rfl, .inl hf, .inl hb⟩

end

section
variable [L : LookTree T K V]

/-- Advancing only at the front of a tree that has only been inserted into: from the key `k` on, ascending stored keys
and then nothing. -/
theorem front_look (n : Nat) {t : T} {k : K} {m : Nat} (I : L.G t) {it : Iter T K} {os : List (Option (K × V))}
    (h : (⟨t, some (.front k), m⟩ : Iter T K).calls (List.replicate n .front) = .ok (it, os)) :
    ∃ es : List (K × V), os = es.map some ++ List.replicate (n - es.length) none ∧ es.length ≤ n ∧
      (es.map Prod.fst).Pairwise (· < ·) ∧ (∀ e ∈ es, k < e.1) ∧ ∀ e ∈ es, (L.look t).Mem e.1 := by
  induction n generalizing k m os with
  | zero => cases h; exact ⟨[], rfl, le_rfl, .nil, by simp, by simp⟩
  | succ n ih =>
    rw [List.replicate_succ] at h
    obtain ⟨i1, o, os', h1, h2, rfl⟩ := calls_cons h
    simp only [call, next] at h1
    obtain ⟨_ | e, h3, h4⟩ := R.bind_ok h1
    · cases h4
      rw [calls_done rfl] at h2
      cases h2
      exact ⟨[], by simp [List.replicate_succ], Nat.zero_le _, .nil, by simp, by simp⟩
    · rcases i1 with ⟨t1, d1, m1⟩
      obtain ⟨e1, e2, -, e4⟩ := of_emit h4
      dsimp only at e1 e2
      subst e1 e2 e4
      obtain ⟨es, g1, g2, g3, g4, g5⟩ := ih h2
      obtain ⟨s1, s2⟩ := L.successor _ _ _ I h3
      refine ⟨e :: es, by simp [g1], by simpa using g2, ?_, ?_, ?_⟩
      · simp only [List.map_cons, List.pairwise_cons, List.mem_map]
        refine ⟨?_, g3⟩
        rintro _ ⟨x, hx, rfl⟩
        exact g4 x hx
      · intro x hx
        rcases List.mem_cons.1 hx with rfl | hx
        · exact s1
        · exact s1.trans (g4 x hx)
      · intro x hx
        rcases List.mem_cons.1 hx with rfl | hx
        · exact s2
        · exact g5 x hx

theorem front_look_new (n : Nat) {t : T} (I : L.G t) {it : Iter T K} {os : List (Option (K × V))}
    (h : (Iter.new t).calls (List.replicate n .front) = .ok (it, os)) :
    ∃ es : List (K × V), os = es.map some ++ List.replicate (n - es.length) none ∧
      (es.map Prod.fst).Pairwise (· < ·) ∧ (∀ e ∈ es, (L.look t).Mem e.1) ∧
      (0 < n → ∃ e, es.head? = some e ∧ (L.look t).IsMin e) := by
  cases n with
  | zero => cases h; exact ⟨[], rfl, .nil, by simp, by simp⟩
  | succ n =>
    rw [List.replicate_succ] at h
    obtain ⟨i1, o, os', h1, h2, rfl⟩ := calls_cons h
    simp only [call, next, new] at h1
    obtain ⟨e, h3, h4⟩ := R.bind_ok h1
    rcases i1 with ⟨t1, d1, m1⟩
    obtain ⟨e1, e2, -, e4⟩ := of_emit h4
    dsimp only at e1 e2
    subst e1 e2 e4
    obtain ⟨es, g1, g2, g3, g4, g5⟩ := front_look n I h2
    obtain ⟨kv, s1, s2⟩ := L.minVal _ I
    rw [h3] at s1; cases s1
    refine ⟨e :: es, by simp [g1], ?_, ?_, fun _ => ⟨e, rfl, s2⟩⟩
    · simp only [List.map_cons, List.pairwise_cons, List.mem_map]
      refine ⟨?_, g3⟩
      rintro _ ⟨x, hx, rfl⟩
      exact g4 x hx
    · intro x hx
      rcases List.mem_cons.1 hx with rfl | hx
      · exact Map.mem_of s2.1
      · exact g5 x hx

end
end Veb.Iter
