import Verif.SpecBench
import Verif.Proof.Hist
import Verif.Proof.Wrappers
import Verif.Proof.BTreeMap
import Verif.Proof.NoPanic

/-! Lemmas for Props/Bench.lean. -/

set_option autoImplicit false

namespace Veb.Bench
variable {T K V : Type} [LinearOrder K] [VebTree T K V] [Inhabited V]

section veb
variable [L : LawfulVebTree T K V]

theorem writeOpt_none {t : SizedVebTree T} {w : V} {r : Option (K × V × (V → SizedVebTree T))} {s : Option (SizedVebTree T)}
    (h : Exec.writeOpt t w r = (s, Out.kv none)) : r = none ∧ s = some t := by
  rcases r with _ | ⟨k, v, put⟩
  · cases h; exact ⟨rfl, rfl⟩
  · cases h

theorem writeOpt_some {t : SizedVebTree T} {w : V} {r : Option (K × V × (V → SizedVebTree T))}
    {s : Option (SizedVebTree T)} {e : K × V} (h : Exec.writeOpt t w r = (s, Out.kv (some e))) :
    ∃ put, r = some (e.1, e.2, put) ∧ s = some (put w) := by
  rcases r with _ | ⟨k, v, put⟩
  · cases h
  · cases h; exact ⟨put, rfl, rfl⟩

theorem rel_len {t : Option (SizedVebTree T)} {l : SL K V} (h : Rel t l) :
    t.elim 0 SizedVebTree.len = l.length := by
  cases t with
  | none => have : l = [] := h; subst this; rfl
  | some t =>
    obtain ⟨I, hl⟩ := h
    exact I.2.trans hl.card

theorem veb_step {t : Option (SizedVebTree T)} {l : SL K V} (h : Rel t l) (c : Call K V)
    (hs : ∀ x, c = .insert x → l = [] ∨ LawfulVebTree.Safe (SizedVebTree T) (SL.keys l) x) :
    ∃ t', step t c = .ok (t', (strict default l c).2) ∧ Rel t' (strict default l c).1 := by
  cases c with
  | len => exact ⟨t, by simp only [step, VEBOperations.len, R.pure_eq, R.ok_bind, rel_len h]; rfl, h⟩
  | insert x =>
    obtain ⟨t', e, r⟩ := step_ok h (.insert x default) (by rintro k v ⟨⟩; exact hs _ rfl)
    refine ⟨t', ?_, r⟩
    cases t with
    | none =>
      have : l = [] := h
      subst this
      cases e; rfl
    | some t =>
      simp only [Exec.step, Exec.stepTree] at e
      rcases h1 : VebTree.insert t x default with p | ⟨u, o⟩
      · rw [h1] at e; cases e
      · rw [h1] at e
        simp only [R.ok_bind, R.pure_eq, Except.ok.injEq, Prod.mk.injEq, SL.step, Out.kv.injEq] at e
        obtain ⟨rfl, rfl⟩ := e
        simp only [step, VEBOperations.insert, h1, R.ok_bind, R.pure_eq]; rfl
  | remove x =>
    obtain ⟨t', e, r⟩ := step_ok h (.remove x) (by rintro k v ⟨⟩)
    refine ⟨t', ?_, r⟩
    cases t with
    | none =>
      have : l = [] := h
      subst this
      cases e; rfl
    | some t =>
      simp only [Exec.step, Exec.stepTree] at e
      rcases h1 : VebTree.remove t x with p | (⟨u, k, v⟩ | u)
      · rw [h1] at e; cases e
      · rw [h1] at e
        simp only [R.ok_bind, R.pure_eq, Except.ok.injEq, Exec.removed, Prod.mk.injEq, SL.step, Out.kv.injEq] at e
        obtain ⟨rfl, e⟩ := e
        simp only [step, VEBOperations.remove, h1, R.ok_bind, R.pure_eq, strict, specWith, ← e]; rfl
      · rw [h1] at e
        simp only [R.ok_bind, R.pure_eq, Except.ok.injEq, Prod.mk.injEq, SL.step, Out.kv.injEq] at e
        obtain ⟨rfl, e⟩ := e
        simp only [step, VEBOperations.remove, h1, R.ok_bind, R.pure_eq, strict, specWith, ← e]; rfl
  | find x =>
    refine ⟨t, ?_, h⟩
    cases t with
    | none => have : l = [] := h; subst this; rfl
    | some t =>
      obtain ⟨t', e, -⟩ := step_ok h (.find x) (by rintro k v ⟨⟩)
      simp only [Exec.step, Exec.stepTree] at e
      rcases h1 : VebTree.find t x with p | o
      · rw [h1] at e; cases e
      · rw [h1] at e
        simp only [R.ok_bind, R.pure_eq, Except.ok.injEq, Prod.mk.injEq, SL.step, Out.kv.injEq] at e
        simp only [step, VEBOperations.find, andThen, h1, R.ok_bind, R.pure_eq, strict, specWith, ← e.2]
  | next x =>
    refine ⟨t, ?_, h⟩
    cases t with
    | none => have : l = [] := h; subst this; rfl
    | some t =>
      obtain ⟨t', e, -⟩ := step_ok h (.successor x) (by rintro k v ⟨⟩)
      simp only [Exec.step, Exec.stepTree] at e
      rcases h1 : VebTree.successor t x with p | o
      · rw [h1] at e; cases e
      · rw [h1] at e
        simp only [R.ok_bind, R.pure_eq, Except.ok.injEq, Prod.mk.injEq, SL.step, Out.kv.injEq] at e
        simp only [step, VEBOperations.next, andThen, h1, R.ok_bind, R.pure_eq, strict, specWith, ← e.2]
  | prev x =>
    refine ⟨t, ?_, h⟩
    cases t with
    | none => have : l = [] := h; subst this; rfl
    | some t =>
      obtain ⟨t', e, -⟩ := step_ok h (.predecessor x) (by rintro k v ⟨⟩)
      simp only [Exec.step, Exec.stepTree] at e
      rcases h1 : VebTree.predecessor t x with p | o
      · rw [h1] at e; cases e
      · rw [h1] at e
        simp only [R.ok_bind, R.pure_eq, Except.ok.injEq, Prod.mk.injEq, SL.step, Out.kv.injEq] at e
        simp only [step, VEBOperations.prev, andThen, h1, R.ok_bind, R.pure_eq, strict, specWith, ← e.2]
  | findMut x w =>
    cases t with
    | none => have : l = [] := h; subst this; exact ⟨none, rfl, by cases w <;> rfl⟩
    | some t =>
      obtain ⟨t', e, r⟩ := step_ok h (.findSet x (w.getD default)) (by rintro k v ⟨⟩)
      simp only [Exec.step, Exec.stepTree] at e
      rcases h1 : VebTree.findMut t x with p | o
      · rw [h1] at e; cases e
      · rw [h1] at e
        simp only [R.ok_bind, R.pure_eq, Except.ok.injEq, SL.step] at e r
        simp only [step, VEBOperations.findMut, andThen, h1, R.ok_bind, R.pure_eq, strict, specWith]
        rcases hq : SL.find l x with _ | q
        · rw [hq] at e r
          obtain ⟨rfl, rfl⟩ := writeOpt_none e
          exact ⟨_, rfl, by cases w <;> exact r⟩
        · rw [hq] at e r
          obtain ⟨put, rfl, rfl⟩ := writeOpt_some e
          cases w with
          | none => exact ⟨_, rfl, h⟩
          | some w => exact ⟨_, rfl, r⟩
  | nextMut x w =>
    cases t with
    | none => have : l = [] := h; subst this; exact ⟨none, rfl, by cases w <;> rfl⟩
    | some t =>
      obtain ⟨t', e, r⟩ := step_ok h (.successorSet x (w.getD default)) (by rintro k v ⟨⟩)
      simp only [Exec.step, Exec.stepTree] at e
      rcases h1 : VebTree.successorMut t x with p | o
      · rw [h1] at e; cases e
      · rw [h1] at e
        simp only [R.ok_bind, R.pure_eq, Except.ok.injEq, SL.step] at e r
        simp only [step, VEBOperations.nextMut, andThen, h1, R.ok_bind, R.pure_eq, strict, specWith]
        rcases hq : SL.succ l x with _ | q
        · rw [hq] at e r
          obtain ⟨rfl, rfl⟩ := writeOpt_none e
          exact ⟨_, rfl, by cases w <;> exact r⟩
        · rw [hq] at e r
          obtain ⟨put, rfl, rfl⟩ := writeOpt_some e
          cases w with
          | none => exact ⟨_, rfl, h⟩
          | some w => exact ⟨_, rfl, r⟩
  | prevMut x w =>
    cases t with
    | none => have : l = [] := h; subst this; exact ⟨none, rfl, by cases w <;> rfl⟩
    | some t =>
      obtain ⟨t', e, r⟩ := step_ok h (.predecessorSet x (w.getD default)) (by rintro k v ⟨⟩)
      simp only [Exec.step, Exec.stepTree] at e
      rcases h1 : VebTree.predecessorMut t x with p | o
      · rw [h1] at e; cases e
      · rw [h1] at e
        simp only [R.ok_bind, R.pure_eq, Except.ok.injEq, SL.step] at e r
        simp only [step, VEBOperations.prevMut, andThen, h1, R.ok_bind, R.pure_eq, strict, specWith]
        rcases hq : SL.pred l x with _ | q
        · rw [hq] at e r
          obtain ⟨rfl, rfl⟩ := writeOpt_none e
          exact ⟨_, rfl, by cases w <;> exact r⟩
        · rw [hq] at e r
          obtain ⟨put, rfl, rfl⟩ := writeOpt_some e
          cases w with
          | none => exact ⟨_, rfl, h⟩
          | some w => exact ⟨_, rfl, r⟩

theorem veb_run {t : Option (SizedVebTree T)} {l : SL K V} (h : Rel t l) (cs : List (Call K V))
    (hs : SafeCalls (LawfulVebTree.Safe (SizedVebTree T)) default l cs) :
    ∃ t', run t cs = .ok (t', (specRun (strict default) l cs).2) ∧ Rel t' (specRun (strict default) l cs).1 := by
  induction cs generalizing t l with
  | nil => exact ⟨t, rfl, h⟩
  | cons c cs ih =>
    obtain ⟨t1, e1, r1⟩ := veb_step h c hs.1
    obtain ⟨t2, e2, r2⟩ := ih r1 hs.2
    exact ⟨t2, by simp [run, e1, e2, specRun], r2⟩

end veb

/-! ## The standard map -/

omit [VebTree T K V] [Inhabited V] in
theorem stdInsert_all {l : SL K V} (h : SL.Sorted l) (k : K) (v : V) :
    BTreeMap.stdInsert k v l = SL.insert l k v := by
  induction l with
  | nil => rfl
  | cons p l ih =>
    obtain ⟨k', v'⟩ := p
    have ht := h.tail
    have hh : ∀ q ∈ l, k' < q.1 := h.head
    rcases lt_trichotomy k k' with hk | rfl | hk
    · have e1 : l.filter (fun p => decide (p.1 < k)) = [] :=
        List.filter_eq_nil_iff.2 fun q hq => by simpa using (hk.trans (hh q hq)).le
      have e2 : l.filter (fun p => decide (k < p.1)) = l :=
        List.filter_eq_self.2 fun q hq => by simpa using hk.trans (hh q hq)
      simp [BTreeMap.stdInsert, cmp_lt hk, SL.insert, hk, hk.le, e1, e2, not_lt.2 hk.le]
    · have e1 : l.filter (fun p => decide (p.1 < k)) = [] :=
        List.filter_eq_nil_iff.2 fun q hq => by simpa using (hh q hq).le
      have e2 : l.filter (fun p => decide (k < p.1)) = l :=
        List.filter_eq_self.2 fun q hq => by simpa using hh q hq
      simp [BTreeMap.stdInsert, cmp_self, SL.insert, e1, e2]
    · simp [BTreeMap.stdInsert, cmp_gt hk, SL.insert, hk, not_lt.2 hk.le, ih ht]

/-- The map holds the entries `l`. -/
def Holds (s : BTreeSetWrapper K V) (l : SL K V) : Prop := s.map.entries = l ∧ SL.Sorted l

omit [VebTree T K V] [Inhabited V] in
theorem sorted_set {l : SL K V} (h : SL.Sorted l) (k : K) (v : V) : SL.Sorted (SL.set l k v) := by
  refine List.pairwise_map.2 (h.imp fun {a b} hab => ?_)
  split <;> split <;> simp_all

omit [VebTree T K V] [Inhabited V] in
theorem sorted_wrote {l : SL K V} (h : SL.Sorted l) (e : Option (K × V)) (w : Option V) : SL.Sorted (wrote l e w) := by
  cases w with
  | none => exact h
  | some w =>
    cases e with
    | none => exact h
    | some e => exact sorted_set h _ _

omit [VebTree T K V] [Inhabited V] in
theorem sorted_spec (nx pv : SL K V → K → Option (K × V)) (d : V) {l : SL K V} (h : SL.Sorted l) (c : Call K V) :
    SL.Sorted (specWith nx pv d l c).1 := by
  cases c with
  | insert x => exact ((SL.lists_toMap h).insert x d).1
  | remove x => exact h.filter
  | findMut x w => exact sorted_wrote h _ _
  | nextMut x w => exact sorted_wrote h _ _
  | prevMut x w => exact sorted_wrote h _ _
  | _ => exact h

theorem btree_step {s : BTreeSetWrapper K V} {l : SL K V} (h : Holds s l) (c : Call K V) :
    ∃ s', step s c = .ok (s', (incl default l c).2) ∧ Holds s' (incl default l c).1 := by
  obtain ⟨⟨e⟩⟩ := s
  obtain ⟨rfl, h⟩ := h
  have hc := sorted_spec from_ upTo default h c
  cases c with
  | insert x => exact ⟨_, rfl, stdInsert_all h x default, hc⟩
  | remove x => exact ⟨_, rfl, rfl, hc⟩
  | findMut x w =>
    simp only [step, VEBOperations.findMut, R.ok_bind, R.pure_eq, incl, specWith, BTreeMap.stdGet, SL.find]
    rcases hq : e.find? (fun p => decide (p.1 = x)) with _ | q
    · rw [hq]; exact ⟨_, rfl, by cases w <;> rfl, sorted_wrote h _ _⟩
    · rw [hq]; exact ⟨_, rfl, by cases w <;> [rfl; exact BTreeMap.stdPut_eq _ _ _], sorted_wrote h _ _⟩
  | nextMut x w =>
    simp only [step, VEBOperations.nextMut, R.ok_bind, R.pure_eq, incl, specWith, from_]
    rcases hq : (e.filter fun p => decide (x ≤ p.1)).head? with _ | q
    · rw [hq]; exact ⟨_, rfl, by cases w <;> rfl, sorted_wrote h _ _⟩
    · rw [hq]; exact ⟨_, rfl, by cases w <;> [rfl; exact BTreeMap.stdPut_eq _ _ _], sorted_wrote h _ _⟩
  | prevMut x w =>
    simp only [step, VEBOperations.prevMut, R.ok_bind, R.pure_eq, incl, specWith, upTo]
    rcases hq : (e.filter fun p => decide (p.1 ≤ x)).getLast? with _ | q
    · rw [hq]; exact ⟨_, rfl, by cases w <;> rfl, sorted_wrote h _ _⟩
    · rw [hq]; exact ⟨_, rfl, by cases w <;> [rfl; exact BTreeMap.stdPut_eq _ _ _], sorted_wrote h _ _⟩
  | _ => exact ⟨_, rfl, rfl, h⟩

theorem btree_run {s : BTreeSetWrapper K V} {l : SL K V} (h : Holds s l) (cs : List (Call K V)) :
    ∃ s', run s cs = .ok (s', (specRun (incl default) l cs).2) ∧ Holds s' (specRun (incl default) l cs).1 := by
  induction cs generalizing s l with
  | nil => exact ⟨s, rfl, h⟩
  | cons c cs ih =>
    obtain ⟨t1, e1, r1⟩ := btree_step h c
    obtain ⟨t2, e2, r2⟩ := ih r1
    exact ⟨t2, by simp [run, e1, e2, specRun], r2⟩

/-! ## Where the two specifications agree -/

omit [VebTree T K V] [Inhabited V] in
theorem from_eq {l : SL K V} {x : K} (h : ¬ SL.keys l x) : from_ l x = SL.succ l x := by
  refine congrArg List.head? (List.filter_congr fun p hp => ?_)
  have : x ≠ p.1 := fun e => h ⟨p.2, by rw [e]; exact hp⟩
  rw [decide_eq_decide]
  exact ⟨fun h => lt_of_le_of_ne h this, le_of_lt⟩

omit [VebTree T K V] [Inhabited V] in
theorem upTo_eq {l : SL K V} {x : K} (h : ¬ SL.keys l x) : upTo l x = SL.pred l x := by
  refine congrArg List.getLast? (List.filter_congr fun p hp => ?_)
  have : p.1 ≠ x := fun e => h ⟨p.2, by rw [← e]; exact hp⟩
  rw [decide_eq_decide]
  exact ⟨fun h => lt_of_le_of_ne h this, le_of_lt⟩

omit [VebTree T K V] [Inhabited V] in
theorem spec_alike (d : V) {l : SL K V} (cs : List (Call K V)) (h : AsksElsewhere d l cs) :
    specRun (incl d) l cs = specRun (strict d) l cs := by
  induction cs generalizing l with
  | nil => rfl
  | cons c cs ih =>
    have e : incl d l c = strict d l c := by
      cases c with
      | next x => simp only [incl, strict, specWith, from_eq (h.1 x none (.inl rfl))]
      | prev x => simp only [incl, strict, specWith, upTo_eq (h.1 x none (.inr (.inl rfl)))]
      | nextMut x w => simp only [incl, strict, specWith, from_eq (h.1 x w (.inr (.inr (.inl rfl))))]
      | prevMut x w => simp only [incl, strict, specWith, upTo_eq (h.1 x w (.inr (.inr (.inr rfl))))]
      | _ => rfl
    simp only [specRun, e, ih h.2]

/-! ## The makers -/

theorem maker_eq {S : Type} [VEBOperations S K V] (key : Nat → K) (coin : Nat → Bool) (bits : Nat) (s : S) :
    maker key coin bits s =
      (run s (((List.range (2 ^ bits)).filter coin).map fun x => Call.insert (key x))).map Prod.fst := by
  unfold maker
  generalize List.range (2 ^ bits) = l
  induction l generalizing s with
  | nil => rfl
  | cons x l ih =>
    rw [List.foldlM_cons]
    cases hx : coin x with
    | false =>
      rw [List.filter_cons_of_neg (by simp [hx]), if_neg (by simp)]
      exact ih s
    | true =>
      rw [List.filter_cons_of_pos hx, if_pos rfl, List.map_cons]
      simp only [run, step]
      rcases VEBOperations.insert s (key x) with p | ⟨u, o⟩
      · rfl
      · refine (ih u).trans ?_
        simp only [R.ok_bind, R.pure_eq]
        rcases run u _ with p | q <;> rfl

/-- Appending in ascending order. -/
theorem specRun_ascending (nx pv : SL K V → K → Option (K × V)) (d : V) (ks : List K) (l : SL K V)
    (h : SL.Sorted (l ++ ks.map fun k => (k, d))) :
    (specRun (specWith nx pv d) l (ks.map .insert)).1 = l ++ ks.map fun k => (k, d) := by
  induction ks generalizing l with
  | nil => simp [specRun]
  | cons k ks ih =>
    have hlt : ∀ p ∈ l, p.1 < k := fun p hp => (List.pairwise_append.1 h).2.2 p hp (k, d) List.mem_cons_self
    have e : SL.insert l k d = l ++ [(k, d)] := by
      have e1 : l.filter (fun p => decide (p.1 < k)) = l := List.filter_eq_self.2 fun q hq => by simpa using hlt q hq
      have e2 : l.filter (fun p => decide (k < p.1)) = [] :=
        List.filter_eq_nil_iff.2 fun q hq => by simpa using (hlt q hq).le
      rw [SL.insert, e1, e2]
    have := ih (l ++ [(k, d)]) (by simpa using h)
    simpa [specRun, specWith, e] using this

theorem safe_ascending [L : LawfulVebTree T K V] [MonoSafe T K V] (d : V) (ks : List K) (l : SL K V)
    (h : SL.Sorted (l ++ ks.map fun k => (k, d))) (hl : (l ++ ks.map fun k => (k, d)).length ≤ usizeMax) :
    SafeCalls (LawfulVebTree.Safe T) d l (ks.map .insert) := by
  induction ks generalizing l with
  | nil => trivial
  | cons k ks ih =>
    have hlt : ∀ p ∈ l, p.1 < k := fun p hp => (List.pairwise_append.1 h).2.2 p hp (k, d) List.mem_cons_self
    have e : SL.insert l k d = l ++ [(k, d)] := by
      have e1 : l.filter (fun p => decide (p.1 < k)) = l := List.filter_eq_self.2 fun q hq => by simpa using hlt q hq
      have e2 : l.filter (fun p => decide (k < p.1)) = [] :=
        List.filter_eq_nil_iff.2 fun q hq => by simpa using (hlt q hq).le
      rw [SL.insert, e1, e2]
    refine ⟨?_, ?_⟩
    · rintro x ⟨⟩
      have hs : SL.Sorted l := (List.pairwise_append.1 h).1
      have hL := SL.lists_toMap hs
      refine .inr (MonoSafe.append _ _ ?_ ?_ ?_)
      · rw [hL.keys]; exact hL.finite
      · rintro j ⟨v, hv⟩; exact hlt _ hv
      · rw [hL.keys]
        have := hL.card
        unfold Map.card at this
        rw [this]
        simp at hl; omega
    · have := ih (l ++ [(k, d)]) (by simpa using h) (by simpa using hl)
      simpa [strict, specWith, e] using this

theorem safeCalls_append (safe : (K → Prop) → K → Prop) (d : V) (l : SL K V) (as bs : List (Call K V)) :
    SafeCalls safe d l (as ++ bs) ↔
      SafeCalls safe d l as ∧ SafeCalls safe d (specRun (strict d) l as).1 bs := by
  induction as generalizing l with
  | nil => exact ⟨fun h => ⟨trivial, h⟩, fun h => h.2⟩
  | cons c as ih => simp only [List.cons_append, SafeCalls, ih, specRun, and_assoc]

/-! ## No panics -/

/-- the operation behind a call -/
def toOp (d : V) : Call K V → Op K V
  | .len => .isMonad
  | .insert x => .insert x d
  | .remove x => .remove x
  | .find x => .find x
  | .next x => .successor x
  | .prev x => .predecessor x
  | .findMut x w => .findSet x (w.getD d)
  | .nextMut x w => .successorSet x (w.getD d)
  | .prevMut x w => .predecessorSet x (w.getD d)

theorem phys_call [P : PhysTree T K V] {n : Nat} {t : Option (SizedVebTree T)} (h : OptW n t) (c : Call K V)
    (hl : n + insertions [toOp default c] ≤ usizeMax) :
    ∃ t' r, step t c = .ok (t', r) ∧ OptW (n + insertions [toOp default c]) t' := by
  obtain ⟨t', o, e, r⟩ := phys_step h (toOp default c) fun _ => hl
  have h' : OptW (n + insertions [toOp default c]) t := optW_mono (Nat.le_add_right _ _) h
  cases t with
  | none =>
    cases c with
    | insert x => cases e; exact ⟨_, _, rfl, r⟩
    | _ => exact ⟨none, _, rfl, trivial⟩
  | some t =>
    cases c with
    | len => exact ⟨_, _, rfl, h'⟩
    | insert x =>
      simp only [Exec.step, toOp, Exec.stepTree] at e
      rcases h1 : VebTree.insert t x default with p | ⟨u, o⟩
      · rw [h1] at e; cases e
      · rw [h1] at e; cases e
        simp only [step, VEBOperations.insert, h1, R.ok_bind, R.pure_eq]; exact ⟨_, _, rfl, r⟩
    | remove x =>
      simp only [Exec.step, toOp, Exec.stepTree] at e
      rcases h1 : VebTree.remove t x with p | (⟨u, k, v⟩ | u)
      · rw [h1] at e; cases e
      · rw [h1] at e; cases e
        simp only [step, VEBOperations.remove, h1, R.ok_bind, R.pure_eq]; exact ⟨_, _, rfl, r⟩
      · rw [h1] at e; cases e
        simp only [step, VEBOperations.remove, h1, R.ok_bind, R.pure_eq]; exact ⟨_, _, rfl, r⟩
    | find x =>
      simp only [Exec.step, toOp, Exec.stepTree] at e
      rcases h1 : VebTree.find t x with p | o
      · rw [h1] at e; cases e
      · simp only [step, VEBOperations.find, andThen, h1, R.ok_bind, R.pure_eq]; exact ⟨_, _, rfl, h'⟩
    | next x =>
      simp only [Exec.step, toOp, Exec.stepTree] at e
      rcases h1 : VebTree.successor t x with p | o
      · rw [h1] at e; cases e
      · simp only [step, VEBOperations.next, andThen, h1, R.ok_bind, R.pure_eq]; exact ⟨_, _, rfl, h'⟩
    | prev x =>
      simp only [Exec.step, toOp, Exec.stepTree] at e
      rcases h1 : VebTree.predecessor t x with p | o
      · rw [h1] at e; cases e
      · simp only [step, VEBOperations.prev, andThen, h1, R.ok_bind, R.pure_eq]; exact ⟨_, _, rfl, h'⟩
    | findMut x w =>
      simp only [Exec.step, toOp, Exec.stepTree] at e
      rcases h1 : VebTree.findMut t x with p | (_ | ⟨k, v, put⟩)
      · rw [h1] at e; cases e
      · simp only [step, VEBOperations.findMut, andThen, h1, R.ok_bind, R.pure_eq]; exact ⟨_, _, rfl, h'⟩
      · rw [h1] at e; cases e
        simp only [step, VEBOperations.findMut, andThen, h1, R.ok_bind, R.pure_eq]
        cases w with
        | none => exact ⟨_, _, rfl, h'⟩
        | some w => exact ⟨_, _, rfl, r⟩
    | nextMut x w =>
      simp only [Exec.step, toOp, Exec.stepTree] at e
      rcases h1 : VebTree.successorMut t x with p | (_ | ⟨k, v, put⟩)
      · rw [h1] at e; cases e
      · simp only [step, VEBOperations.nextMut, andThen, h1, R.ok_bind, R.pure_eq]; exact ⟨_, _, rfl, h'⟩
      · rw [h1] at e; cases e
        simp only [step, VEBOperations.nextMut, andThen, h1, R.ok_bind, R.pure_eq]
        cases w with
        | none => exact ⟨_, _, rfl, h'⟩
        | some w => exact ⟨_, _, rfl, r⟩
    | prevMut x w =>
      simp only [Exec.step, toOp, Exec.stepTree] at e
      rcases h1 : VebTree.predecessorMut t x with p | (_ | ⟨k, v, put⟩)
      · rw [h1] at e; cases e
      · simp only [step, VEBOperations.prevMut, andThen, h1, R.ok_bind, R.pure_eq]; exact ⟨_, _, rfl, h'⟩
      · rw [h1] at e; cases e
        simp only [step, VEBOperations.prevMut, andThen, h1, R.ok_bind, R.pure_eq]
        cases w with
        | none => exact ⟨_, _, rfl, h'⟩
        | some w => exact ⟨_, _, rfl, r⟩

theorem inserts_cons (c : Call K V) (cs : List (Call K V)) :
    inserts (c :: cs) = insertions [toOp (default : V) c] + inserts cs := by
  cases c <;> simp [inserts, insertions, toOp, List.countP_cons, Nat.add_comm]

theorem phys_calls [P : PhysTree T K V] {n : Nat} {t : Option (SizedVebTree T)} (h : OptW n t) (cs : List (Call K V))
    (hl : n + inserts cs ≤ usizeMax) : ∃ r, run t cs = .ok r := by
  induction cs generalizing n t with
  | nil => exact ⟨_, rfl⟩
  | cons c cs ih =>
    rw [inserts_cons] at hl
    obtain ⟨t1, o, h1, h2⟩ := phys_call h c (by omega)
    obtain ⟨q, h3⟩ := ih h2 (by omega)
    exact ⟨_, by simp [run, h1, h3]; rfl⟩

theorem run_append {S : Type} [VEBOperations S K V] (s : S) (as bs : List (Call K V)) :
    run s (as ++ bs) = (do
      let (s, rs) ← run s as
      let (s, rs') ← run s bs
      pure (s, rs ++ rs')) := by
  induction as generalizing s with
  | nil => simp only [List.nil_append, run, R.pure_eq, R.ok_bind]; rcases run s bs with p | q <;> rfl
  | cons c as ih =>
    simp only [List.cons_append, run]
    rcases step s c with p | ⟨s1, r⟩
    · rfl
    · simp only [R.ok_bind, ih]
      rcases run s1 as with p | ⟨s2, rs⟩
      · rfl
      · simp only [R.ok_bind, R.pure_eq]
        rcases run s2 bs with p | q <;> rfl

end Veb.Bench
