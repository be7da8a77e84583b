import Verif.SpecListLeft
import Verif.Proof.AnyList
import Verif.Proof.ByteMap
import Verif.Proof.Hist

/-!
`ByteMap<L>` over list types that panic.
-/

set_option autoImplicit false

namespace Veb
open ByteMapOf

section
variable {L V : Type} [ListT L V] [ListLeft L V]

theorem insertLeft_ok {m : ByteMapOf L} {k : U 8} {v : V} :
    m.insert k v = (match m.insertLeft k v with | (m, .ok o) => .ok (m, o) | (_, .error e) => .error e) := by
  unfold ByteMapOf.insert ByteMapOf.insertLeft ByteSet.insert
  by_cases h : m.set.isPresent k = true
  · rw [if_pos h]
    simp only [pure, Except.pure, bind, Except.bind]
    cases ListT.getMut m.list (m.set.countBelow k) <;> rfl
  · rw [if_neg h]
    simp only [pure, Except.pure, bind, Except.bind]
    cases ListT.insertValue m.list ((m.set.setBit k).countBelow k) v <;> rfl

theorem countBelow_setBit (s : ByteSet) (k : U 8) (h : ¬ s.isPresent k = true) : (s.setBit k).countBelow k = s.countBelow k := by
  rw [ByteSet.countBelow_eq, ByteSet.countBelow_eq]
  have hb := ByteSet.bitAt_arraySetBit s.words k
  rw [ByteSet.isPresent_eq, Bool.not_eq_true] at h
  have := cnt_set hb h (ByteSet.nat k)
  rw [if_neg (lt_irrefl _), Nat.add_zero] at this
  exact this

/-- the repaired insertion ends as the other -/
theorem insertLate_ok {m : ByteMapOf L} {k : U 8} {v : V} :
    m.insert k v = (match m.insertLate k v with | (m, .ok o) => .ok (m, o) | (_, .error e) => .error e) := by
  unfold ByteMapOf.insert ByteMapOf.insertLate ByteSet.insert
  by_cases h : m.set.isPresent k = true
  · rw [if_pos h, if_pos h]
    simp only [pure, Except.pure, bind, Except.bind]
    cases ListT.getMut m.list (m.set.countBelow k) <;> rfl
  · rw [if_neg h, if_neg h]
    simp only [pure, Except.pure, bind, Except.bind, countBelow_setBit _ _ h]
    cases ListT.insertValue m.list (m.set.countBelow k) v <;> rfl

theorem insertLeft_set (m : ByteMapOf L) (k : U 8) (v : V) :
    m.set.insert k () = .ok ((m.insertLeft k v).1.set, if m.set.isPresent k then some (k, ()) else none) := by
  unfold ByteMapOf.insertLeft ByteSet.insert
  by_cases h : m.set.isPresent k = true
  · rw [if_pos h, if_pos h]
    simp only [pure, Except.pure]
    cases ListT.getMut m.list (m.set.countBelow k) <;> rfl
  · rw [if_neg h, if_neg h]
    simp only [pure, Except.pure]
    cases ListT.insertValue m.list ((m.set.setBit k).countBelow k) v <;> rfl

omit [ListT L V] in
theorem afterMut_set (m : ByteMapOf L) (r : R (Option (U 8 × Unit))) : (m.afterMut r).set = m.set := by
  unfold afterMut
  split <;> rfl

theorem left_set (m : ByteMapOf L) (op : Op (U 8) V) (hop : ∀ k v, op ≠ .insert k v) :
    (m.left op).map ByteMapOf.set = if takesSelf op then none else some m.set := by
  cases op with
  | insert k v => exact absurd rfl (hop k v)
  | findSet k w => simp [left, takesSelf, afterMut_set]
  | predecessorSet k w => simp [left, takesSelf, afterMut_set]
  | successorSet k w => simp [left, takesSelf, afterMut_set]
  | minSet w => simp only [left, takesSelf]; cases m.set.minVal <;> rfl
  | maxSet w =>
    simp only [left, takesSelf]
    split <;> rfl
  | _ => rfl

omit [ListLeft L V] in
/-- a call that returns, from related keys -/
theorem keys_ret {m m' : Option (ByteMapOf L)} {l : SL (U 8) Unit} (h : Rel (m.map ByteMapOf.set) l) {op : Op (U 8) V}
    {a : Out (U 8) V} (e : Exec.step m op = .ok (m', a)) :
    (op.notIsMonad = true → a.keys = (SL.step l op.keys).2) ∧ Rel (m'.map ByteMapOf.set) (SL.step l op.keys).1 := by
  obtain ⟨s, hs, hr⟩ := step_ok h op.keys (fun _ _ _ => .inr trivial)
  obtain ⟨h1, h2⟩ := AnyList.step m op _ _ e hs
  refine ⟨h2, ?_⟩
  dsimp only at h1
  rw [h1]
  exact hr

theorem stepLeft_other {ins : ByteMapOf L → U 8 → V → ByteMapOf L × R (Option (U 8 × V))} {m : ByteMapOf L} {op : Op (U 8) V}
    (hop : ∀ k v, op ≠ .insert k v) : stepLeft ins (some m) op = (match Exec.stepTree m op with
      | .ok (m, o) => (m, .ok o)
      | .error e => (m.left op, .error e)) := by
  cases op <;> first | rfl | exact absurd rfl (hop _ _)

theorem stepLeft_none {ins : ByteMapOf L → U 8 → V → ByteMapOf L × R (Option (U 8 × V))} {op : Op (U 8) V} :
    ∃ m' a, Exec.step none op = .ok (m', a) ∧ stepLeft ins none op = (m', .ok a) := by
  cases op <;> exact ⟨_, _, rfl, rfl⟩

/-- one call, from related keys -/
theorem keys_step {m : Option (ByteMapOf L)} {l : SL (U 8) Unit} (h : Rel (m.map ByteMapOf.set) l) (op : Op (U 8) V) :
    (∀ a, (stepLeft insertLeft m op).2 = .ok a → op.notIsMonad = true → a.keys = (SL.step l op.keys).2) ∧
      Rel ((stepLeft insertLeft m op).1.map ByteMapOf.set) (keysLeft l op (stepLeft insertLeft m op).2) := by
  cases m with
  | none =>
    obtain ⟨m', a, e, e'⟩ := stepLeft_none (ins := insertLeft (L := L)) (op := op)
    obtain ⟨h1, h2⟩ := keys_ret h e
    rw [e']
    exact ⟨by rintro _ ⟨⟩ hn; exact h1 hn, h2⟩
  | some m =>
    by_cases hop : ∃ k v, op = .insert k v
    · obtain ⟨k, v, rfl⟩ := hop
      have e0 : stepLeft insertLeft (some m) (.insert k v) = (some (m.insertLeft k v).1, (m.insertLeft k v).2.map Out.kv) := rfl
      rw [e0]
      cases hi : m.insertLeft k v with
      | mk m' o =>
        cases o with
        | ok o =>
          have e : Exec.step (some m) (.insert k v) = .ok (some m', .kv o) := by
            show (m.insert k v >>= _) = _
            rw [insertLeft_ok, hi]
            rfl
          obtain ⟨h1, h2⟩ := keys_ret h e
          exact ⟨by rintro _ ⟨⟩ hn; exact h1 hn, h2⟩
        | error e =>
          refine ⟨by rintro _ ⟨⟩, ?_⟩
          obtain ⟨s, hs, hr⟩ := step_ok h (Op.insert k ()) (fun _ _ _ => .inr trivial)
          have e1 : Exec.step (some m.set) (Op.insert k ()) = .ok (some (m.insertLeft k v).1.set,
              .kv (if m.set.isPresent k then some (k, ()) else none)) := by
            show (m.set.insert k () >>= _) = _
            rw [insertLeft_set m k v]
            rfl
          have hs' := e1.symm.trans hs
          rw [hi] at hs'
          injection hs' with hs'
          have : some m'.set = s := congrArg Prod.fst hs'
          show Rel (some m'.set) _
          rw [this]
          exact hr
    · have hop' : ∀ k v, op ≠ .insert k v := fun k v e => hop ⟨k, v, e⟩
      rw [stepLeft_other hop']
      cases he : Exec.stepTree m op with
      | ok p =>
        obtain ⟨h1, h2⟩ := keys_ret (m := some m) h he
        exact ⟨by rintro _ ⟨⟩ hn; exact h1 hn, h2⟩
      | error e =>
        refine ⟨by rintro _ ⟨⟩, ?_⟩
        dsimp only
        rw [left_set m op hop']
        unfold keysLeft
        by_cases ht : takesSelf op = true
        · rw [if_pos ht]; simp only [ht, if_true]; rfl
        · rw [if_neg ht]
          simp only [ht]
          cases op with
          | insert k v => exact absurd ⟨k, v, rfl⟩ hop
          | _ => exact h

theorem keys_run {m : Option (ByteMapOf L)} {l : SL (U 8) Unit} (h : Rel (m.map ByteMapOf.set) l) (ops : List (Op (U 8) V)) :
    ∃ l', KeysKept l ops (runLeft insertLeft m ops).2 l' ∧ Rel ((runLeft insertLeft m ops).1.map ByteMapOf.set) l' := by
  induction ops generalizing m l with
  | nil => exact ⟨l, rfl, h⟩
  | cons op ops ih =>
    obtain ⟨h1, h2⟩ := keys_step h op
    obtain ⟨l', h3, h4⟩ := ih h2
    exact ⟨l', ⟨h1, h3⟩, h4⟩

/-! ## Sequences that may be full -/

variable {r : L → List V → Prop}

theorem SeqOrFull.part (S : SeqOrFull r) : SeqPart r := ⟨S.fromMonad, S.len, S.get, S.getMut, S.removeLast, S.removeValue⟩

/-- the map follows the map over a `VecDeque`, which holds the entries `l` -/
def Holds (r : L → List V → Prop) (a : Option (ByteMapOf L)) (l : SL (U 8) V) : Prop :=
  ∃ m : Option (ByteMap V), Option.Rel (BRel r) a m ∧ Rel m l

omit [ListT L V] [ListLeft L V] in
theorem holds_none : Holds r none [] := ⟨none, .none, rel_none⟩

omit [ListT L V] [ListLeft L V] in
theorem Holds.none_iff {a : Option (ByteMapOf L)} {l : SL (U 8) V} (h : Holds r a l) : a = none ↔ l = [] := by
  obtain ⟨m, h1, h2⟩ := h
  constructor
  · rintro rfl
    cases h1
    exact h2
  · rintro rfl
    rw [rel_nil h2] at h1
    cases h1
    rfl

variable (S : SeqOrFull r)
include S

/-- any call but an insertion into a map, and any call on none -/
theorem holds_other {a : Option (ByteMapOf L)} {l : SL (U 8) V} (h : Holds r a l) {op : Op (U 8) V}
    (hop : a ≠ none → ∀ k v, op ≠ .insert k v) :
    ∃ a', Exec.step a op = .ok (a', (SL.step l op).2) ∧ Holds r a' (SL.step l op).1 := by
  obtain ⟨m, h1, h2⟩ := h
  obtain ⟨m', hm, hr⟩ := step_ok h2 op (fun _ _ _ => .inr trivial)
  cases h1 with
  | none =>
    have : ∃ a' m'' o, Exec.step (none : Option (ByteMapOf L)) op = .ok (a', o) ∧ Exec.step (none : Option (ByteMap V)) op = .ok (m'', o) ∧
        Option.Rel (BRel r) a' m'' := by
      cases op <;> first
        | exact ⟨_, _, _, rfl, rfl, .none⟩
        | exact ⟨_, _, _, rfl, rfl, .some ⟨rfl, S.fromMonad _⟩⟩
    obtain ⟨a', m'', o, e, e', hrel⟩ := this
    rw [e'] at hm
    cases hm
    exact ⟨a', e, _, hrel, hr⟩
  | some h1 =>
    obtain ⟨⟨a', o⟩, e, hrel, ho⟩ := (core_stepTree S.part.core h1 (hop (by simp))).1 _ hm
    dsimp only at hrel ho
    subst ho
    exact ⟨a', e, m', hrel, hr⟩

/-- the repaired insertion -/
theorem holds_late {a : ByteMapOf L} {l : SL (U 8) V} (h : Holds r (some a) l) (k : U 8) (v : V) :
    (∃ a', a.insertLate k v = (a', .ok (SL.find l k)) ∧ Holds r (some a') (SL.insert l k v)) ∨
    ∃ a' e, a.insertLate k v = (a', .error e) ∧ SL.find l k = none ∧ Holds r (some a') l := by
  obtain ⟨_, h1, h2⟩ := h
  cases h1 with
  | @some _ m h1 =>
  obtain ⟨m', hm, hr⟩ := step_ok h2 (.insert k v) (fun _ _ _ => .inr trivial)
  obtain ⟨s, q⟩ := a
  obtain ⟨s', q'⟩ := m
  obtain ⟨e, h1⟩ := h1
  dsimp only at e h1
  subst e
  have hm : ((⟨s, q'⟩ : ByteMap V).insert k v >>= fun p => pure (some p.1, Out.kv p.2)) = .ok (m', Out.kv (SL.find l k)) := hm
  unfold ByteMapOf.insertLate
  unfold ByteMap.insert ByteSet.insert at hm
  by_cases hp : s.isPresent k = true
  · simp only [hp, if_true] at hm ⊢
    simp only [pure, Except.pure, bind, Except.bind] at hm
    cases hg : VecDeque.getMut q' (s.countBelow k) with
    | error e => rw [hg] at hm; cases hm
    | ok x =>
      rw [hg] at hm
      obtain ⟨⟨old, put⟩, e, e1, e2⟩ := (S.part.core.getMut h1 (s.countBelow k)).1 _ hg
      dsimp only at e1 e2
      rw [e]
      injection hm with hm
      injection hm with hm1 hm2
      injection hm2 with hm2
      left
      refine ⟨⟨s, put v⟩, ?_, ?_⟩
      · rw [← hm2, e1]
      · refine ⟨m', ?_, hr⟩
        rw [← hm1]
        exact .some ⟨rfl, e2 v⟩
  · simp only [hp] at hm ⊢
    simp only [pure, Except.pure, bind, Except.bind] at hm
    simp only [Bool.false_eq_true, if_false] at hm ⊢
    rw [countBelow_setBit _ _ hp] at hm
    unfold VecDeque.insertAt at hm
    by_cases hle : s.countBelow k ≤ q'.length
    · rw [if_pos hle] at hm
      injection hm with hm
      injection hm with hm1 hm2
      injection hm2 with hm2
      rcases S.insertValue q q' (s.countBelow k) v h1 hle with ⟨a', e, ha⟩ | ⟨e, he, ha⟩
      · left
        rw [e]
        refine ⟨⟨s.setBit k, a'⟩, ?_, ?_⟩
        · unfold ByteSet.insert
          rw [if_neg hp, ← hm2]
          rfl
        · refine ⟨m', ?_, hr⟩
          rw [← hm1]
          exact .some ⟨rfl, ha⟩
      · right
        rw [he]
        exact ⟨_, e, rfl, hm2.symm, ⟨_, .some ⟨rfl, ha⟩, h2⟩⟩
    · rw [if_neg hle] at hm
      cases hm

/-- a call that returns -/
theorem holds_ret {a a' : Option (ByteMapOf L)} {l : SL (U 8) V} (h : Holds r a l) {op : Op (U 8) V} {o : Out (U 8) V}
    (e : Exec.step a op = .ok (a', o)) : o = (SL.step l op).2 ∧ Holds r a' (SL.step l op).1 := by
  by_cases hop : a ≠ none → ∀ k v, op ≠ .insert k v
  · obtain ⟨a'', e', h'⟩ := holds_other S h hop
    rw [e'] at e
    cases e
    exact ⟨rfl, h'⟩
  · push Not at hop
    obtain ⟨ha, k, v, rfl⟩ := hop
    cases a with
    | none => exact absurd rfl ha
    | some a =>
      have e : (a.insert k v >>= fun p => pure (some p.1, Out.kv p.2)) = .ok (a', o) := e
      rw [insertLate_ok] at e
      rcases holds_late S h k v with ⟨a'', e', h'⟩ | ⟨a'', x, e', -⟩
      · rw [e'] at e
        cases e
        exact ⟨rfl, h'⟩
      · rw [e'] at e
        cases e

theorem holds_run {a a' : Option (ByteMapOf L)} {l : SL (U 8) V} (h : Holds r a l) {ops : List (Op (U 8) V)}
    {os : List (Out (U 8) V)} (e : Exec.run a ops = .ok (a', os)) : os = (SL.run l ops).2 ∧ Holds r a' (SL.run l ops).1 := by
  induction ops generalizing a l os with
  | nil => cases e; exact ⟨rfl, h⟩
  | cons op ops ih =>
    cases h1 : Exec.step a op with
    | error x => simp [Exec.run, h1] at e; cases e
    | ok p =>
      obtain ⟨b, o⟩ := p
      cases h2 : Exec.run b ops with
      | error x => simp [Exec.run, h1, h2] at e; cases e
      | ok q =>
        obtain ⟨c, os'⟩ := q
        simp only [Exec.run, h1, R.ok_bind, h2] at e
        cases e
        obtain ⟨h3, h4⟩ := holds_ret S h h1
        obtain ⟨h5, h6⟩ := ih h4 h2
        exact ⟨by rw [SL.run, h3, h5], h6⟩

theorem late_run {a : Option (ByteMapOf L)} {l : SL (U 8) V} (h : Holds r a l) (ops : List (Op (U 8) V)) :
    ∃ l', Skips l ops (runLeft insertLate a ops).2 l' ∧ Holds r (runLeft insertLate a ops).1 l' := by
  induction ops generalizing a l with
  | nil => exact ⟨l, .nil l, h⟩
  | cons op ops ih =>
    show ∃ l', Skips l (op :: ops) ((stepLeft insertLate a op).2 :: (runLeft insertLate (stepLeft insertLate a op).1 ops).2) l' ∧
      Holds r (runLeft insertLate (stepLeft insertLate a op).1 ops).1 l'
    by_cases hop : a ≠ none → ∀ k v, op ≠ .insert k v
    · obtain ⟨a', e, h'⟩ := holds_other S h hop
      have e' : stepLeft insertLate a op = (a', .ok (SL.step l op).2) := by
        cases a with
        | none =>
          obtain ⟨m', o, e1, e2⟩ := stepLeft_none (ins := insertLate (L := L)) (op := op)
          rw [e2]
          rw [e] at e1
          cases e1
          rfl
        | some a =>
          rw [stepLeft_other (hop (by simp))]
          have e : Exec.stepTree a op = _ := e
          rw [e]
      rw [e']
      obtain ⟨l', h1, h2⟩ := ih h'
      exact ⟨l', .returns h1, h2⟩
    · push Not at hop
      obtain ⟨ha, k, v, rfl⟩ := hop
      cases a with
      | none => exact absurd rfl ha
      | some a =>
        have e0 : stepLeft insertLate (some a) (.insert k v) = (some (a.insertLate k v).1, (a.insertLate k v).2.map Out.kv) := rfl
        rw [e0]
        rcases holds_late S h k v with ⟨a', e, h'⟩ | ⟨a', x, e, hk, h'⟩
        · rw [e]
          obtain ⟨l', h1, h2⟩ := ih h'
          exact ⟨l', .returns (op := .insert k v) h1, h2⟩
        · rw [e]
          obtain ⟨l', h1, h2⟩ := ih h'
          exact ⟨l', .panics hk h1, h2⟩

omit S in
theorem cnt_gap {p : Nat → Bool} {a b : Nat} (hab : a < b) (h : ∀ n, a < n → n < b → p n = false) : cnt p b = cnt p (a + 1) := by
  induction b with
  | zero => omega
  | succ b ih =>
    rcases Nat.lt_or_ge a b with hlt | hge
    · rw [cnt_succ, ih hlt fun n h1 h2 => h n h1 (by omega), h b hlt (by omega)]
      simp
    · have : a = b := by omega
      subst this
      rfl

/-- what an insertion that panics leaves: the values at the key and above have moved down by one key -/
theorem shift {a a' : ByteMapOf L} {l : SL (U 8) V} (h : Holds r (some a) l) {k : U 8} {v : V} {x : Panic}
    (e : a.insertLeft k v = (a', .error x)) :
    SL.find l k = none ∧ (∀ j, j < k → a'.find j = .ok (SL.find l j)) ∧
      ∀ j i w, (j = k ∨ k < j ∧ SL.find l j ≠ none) → SL.succ l j = some (i, w) → a'.find j = .ok (some (j, w)) := by
  obtain ⟨_, h1, h2⟩ := h
  cases h1 with
  | @some _ m h1 =>
  obtain ⟨s, q⟩ := a
  obtain ⟨s', q'⟩ := m
  obtain ⟨es, h1⟩ := h1
  dsimp only at es h1
  subst es
  obtain ⟨I, hl⟩ := h2
  have I : ByteMap.Inv ⟨s, q'⟩ := I
  have hl : SL.Lists l (ByteMap.abs ⟨s, q'⟩) := hl
  have hfull : ∀ n : U 8, s.words.bitAt (ByteSet.nat n) = true → ∃ w, q'[cnt s.words.bitAt (ByteSet.nat n)]? = some w := by
    intro n hn
    have := (ByteMap.mem_abs I).2 hn
    simp only [Map.Mem, ByteMap.abs, hn, if_true] at this
    exact Option.ne_none_iff_exists'.1 this
  unfold ByteMapOf.insertLeft ByteSet.insert at e
  by_cases hp : s.isPresent k = true
  · exfalso
    simp only [hp, if_true, pure, Except.pure] at e
    have hp' := hp
    rw [ByteSet.isPresent_eq] at hp'
    obtain ⟨w, hw⟩ := hfull k hp'
    obtain ⟨put, hg, -⟩ := S.getMut q q' (s.countBelow k) w h1 (by rw [ByteSet.countBelow_eq]; exact hw)
    rw [hg] at e
    cases e
  · simp only [hp, pure, Except.pure] at e
    simp only [Bool.false_eq_true, if_false] at e
    have hk : s.words.bitAt (ByteSet.nat k) = false := by
      rw [ByteSet.isPresent_eq, Bool.not_eq_true] at hp
      exact hp
    have hle : s.countBelow k ≤ q'.length := by
      rw [ByteSet.countBelow_eq, I.2]
      exact cnt_mono _ (ByteSet.nat_lt k).le
    rw [countBelow_setBit _ _ hp] at e
    rcases S.insertValue q q' (s.countBelow k) v h1 hle with ⟨b, e', -⟩ | ⟨y, e', hb⟩
    · rw [e'] at e; cases e
    · rw [e'] at e
      have ea := congrArg Prod.fst e
      dsimp only at ea
      subst ea
      have hbit : ∀ j : U 8, (s.setBit k).isPresent j = (s.words.bitAt (ByteSet.nat j) || decide (ByteSet.nat j = ByteSet.nat k)) := by
        intro j
        rw [ByteSet.isPresent_eq]
        exact ByteSet.bitAt_arraySetBit s.words k _
      have hcnt : ∀ j : U 8, (s.setBit k).countBelow j =
          cnt s.words.bitAt (ByteSet.nat j) + if ByteSet.nat k < ByteSet.nat j then 1 else 0 := by
        intro j
        rw [ByteSet.countBelow_eq]
        exact cnt_set (ByteSet.bitAt_arraySetBit s.words k) hk _
      have hlt : ∀ i j : U 8, i < j ↔ ByteSet.nat i < ByteSet.nat j := fun i j => Iff.rfl
      refine ⟨?_, ?_, ?_⟩
      · rw [hl.find]
        simp [ByteMap.abs, hk]
      · intro j hj
        rw [hlt] at hj
        have hne : ¬ ByteSet.nat j = ByteSet.nat k := by omega
        rw [hl.find]
        unfold ByteMapOf.find ByteSet.find
        rw [hbit, decide_eq_false hne, Bool.or_false]
        by_cases hb' : s.words.bitAt (ByteSet.nat j) = true
        · obtain ⟨w, hw⟩ := hfull j hb'
          have hg := S.get _ _ _ _ hb hw
          have hc := hcnt j
          rw [if_neg (by omega), Nat.add_zero] at hc
          simp only [hb', if_true, ByteMap.abs, hw]
          simp only [pure_bind, hc, hg]
          rfl
        · simp [ByteMap.abs, hb']
      · intro j i w hj hs
        have hsucc := hl.succ j
        rw [hs] at hsucc
        obtain ⟨hi, hji, hmin⟩ := hsucc
        have hbi : s.words.bitAt (ByteSet.nat i) = true := (ByteMap.mem_abs I).1 (by rw [Map.Mem, hi]; simp)
        have hw : q'[cnt s.words.bitAt (ByteSet.nat i)]? = some w := by
          simpa [ByteMap.abs, hbi] using hi
        have hgap : cnt s.words.bitAt (ByteSet.nat i) = cnt s.words.bitAt (ByteSet.nat j + 1) := by
          refine cnt_gap ((hlt _ _).1 hji) fun n h3 h4 => ?_
          by_contra hc
          rw [Bool.not_eq_false] at hc
          obtain ⟨n', rfl⟩ := ByteSet.of_nat n (by have := ByteSet.nat_lt i; omega)
          have := hmin n' ((ByteMap.mem_abs I).2 hc) ((hlt _ _).2 h3)
          exact absurd h4 (not_lt.2 (by exact this))
        have hpres : (s.setBit k).isPresent j = true := by
          rw [hbit]
          rcases hj with rfl | ⟨-, hj⟩
          · simp
          · rw [hl.find] at hj
            have : (ByteMap.abs ⟨s, q'⟩).Mem j := fun hc => hj (by rw [hc]; rfl)
            rw [(ByteMap.mem_abs I).1 this]
            rfl
        have hidx : (s.setBit k).countBelow j = cnt s.words.bitAt (ByteSet.nat i) := by
          rw [hcnt, hgap, cnt_succ]
          rcases hj with rfl | ⟨hkj, hj⟩
          · simp [hk]
          · rw [hl.find] at hj
            have : (ByteMap.abs ⟨s, q'⟩).Mem j := fun hc => hj (by rw [hc]; rfl)
            rw [if_pos ((hlt _ _).1 hkj), if_pos ((ByteMap.mem_abs I).1 this)]
        unfold ByteMapOf.find ByteSet.find
        rw [hpres]
        simp only [if_true, pure_bind]
        rw [hidx, S.get _ _ _ _ hb hw]
        rfl

end
end Veb
