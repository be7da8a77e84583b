import Verif.SpecUnwind
import Verif.Proof.NoPanic
import Verif.Proof.Hist
import Verif.Proof.Entries

/-!
Lemmas about caught panics.
-/

set_option autoImplicit false
set_option linter.unusedSectionVars false

namespace Veb

theorem Faults.call_none {α : Type} (s : Site) (x : R α) : noFaults.call s x = x := rfl

theorem Faults.call_cases {α : Type} (φ : Faults) (s : Site) (x : R α) :
    (φ s = none ∧ φ.call s x = x) ∨ ∃ e, φ s = some e ∧ φ.call s x = .error e := by
  cases h : φ s with
  | none => exact .inl ⟨rfl, by simp [Faults.call, h]⟩
  | some e => exact .inr ⟨e, rfl, by simp [Faults.call, h]⟩

namespace Tree
variable {K V S C Hi Lo T : Type} [LinearOrder K] [VebKey K Hi Lo] [VebKeyRef K Hi Lo] [VebTree S Hi Unit] [VebTree T Lo V]
  [TreeCollection C Hi T Lo V]

/-- What a panic below the extremes leaves. -/
def LeftBelow (min : K × V) (data : TreeData K V S C) (t : Tree K V S C) : Prop :=
  t = ⟨min, some data⟩ ∨ t = ⟨min, some { data with children := none }⟩

theorem insertBelowU_cases (φ : Faults) (min : K × V) (data : TreeData K V S C) (k : K) (v : V) :
    (∃ t o, insertBelowU φ min data k v = (t, .ok o) ∧ insertBelow min data k v = .ok (t, o)) ∨
    ∃ t e, insertBelowU φ min data k v = (t, .error e) ∧ LeftBelow min data t ∧
      ((∃ s, φ s = some e) ∨ insertBelow min data k v = .error e) := by
  unfold insertBelowU insertBelow
  rcases hs : VebKey.splitVal k with ⟨hi, lo⟩
  rcases φ.call_cases .split (pure (hi, lo) : R (Hi × Lo)) with ⟨-, h⟩ | ⟨e, he, h⟩
  swap
  · exact .inr ⟨_, e, by rw [h]; rfl, .inl rfl, .inl ⟨_, he⟩⟩
  rw [h]
  obtain ⟨mx, _ | ⟨s, c⟩⟩ := data
  · simp only [orLeave, R.pure_eq]
    rcases φ.call_cases .create (TreeCollection.create hi (VebTree.fromMonad lo v) : R C) with ⟨-, h⟩ | ⟨e, he, h⟩
    swap
    · exact .inr ⟨_, e, by rw [h], .inl rfl, .inl ⟨_, he⟩⟩
    rw [h]
    rcases hc : (TreeCollection.create hi (VebTree.fromMonad lo v) : R C) with e | c
    · exact .inr ⟨_, e, rfl, .inl rfl, .inr rfl⟩
    rcases φ.call_cases .newSummary (.ok (VebTree.fromMonad hi ()) : R S) with ⟨-, h⟩ | ⟨e, he, h⟩
    · exact .inl ⟨_, _, by simp only [h], rfl⟩
    · exact .inr ⟨_, e, by simp only [h], .inl rfl, .inl ⟨_, he⟩⟩
  · simp only [orLeave, R.pure_eq]
    rcases φ.call_cases .insertKey (TreeCollection.insertKey c hi (lo, v)) with ⟨-, h⟩ | ⟨e, he, h⟩
    swap
    · exact .inr ⟨_, e, by rw [h], .inr rfl, .inl ⟨_, he⟩⟩
    rw [h]
    rcases hc : TreeCollection.insertKey c hi (lo, v) with e | ⟨c', r⟩
    · exact .inr ⟨_, e, rfl, .inr rfl, .inr rfl⟩
    obtain hi' | ⟨hi', _ | ⟨lo', v'⟩⟩ := r
    · simp only [R.ok_bind]
      rcases φ.call_cases .insertSummary (VebTree.insert s hi' ()) with ⟨-, h⟩ | ⟨e, he, h⟩
      swap
      · exact .inr ⟨_, e, by rw [h], .inr rfl, .inl ⟨_, he⟩⟩
      rw [h]
      rcases hc : VebTree.insert s hi' () with e | ⟨s', o⟩
      · exact .inr ⟨_, e, rfl, .inr rfl, .inr rfl⟩
      · exact .inl ⟨_, _, rfl, rfl⟩
    · exact .inl ⟨_, _, rfl, rfl⟩
    · simp only [R.ok_bind]
      rcases φ.call_cases .join (.ok (VebKey.join hi' lo') : R K) with ⟨-, h⟩ | ⟨e, he, h⟩
      · exact .inl ⟨_, _, by rw [h], rfl⟩
      · exact .inr ⟨_, e, by rw [h], .inr rfl, .inl ⟨_, he⟩⟩

/-- What a panic in `insert` leaves. -/
inductive Left (t : Tree K V S C) (k : K) (v : V) : Tree K V S C → Prop
  | same : Left t k v t
  | newMin {d : TreeData K V S C} (hd : t.data = some d) (h : k < t.min.1) : Left t k v ⟨(k, v), some d⟩
  | below {d : TreeData K V S C} (hd : t.data = some d) (h1 : t.min.1 < k) (h2 : k < d.max.1) {t' : Tree K V S C}
      (h : LeftBelow t.min d t') : Left t k v t'
  | newMax {d : TreeData K V S C} (hd : t.data = some d) (h1 : t.min.1 < k) (h2 : d.max.1 < k) {t' : Tree K V S C}
      (h : LeftBelow t.min { d with max := (k, v) } t') : Left t k v t'
  | swapped {d : TreeData K V S C} (hd : t.data = some d) (h1 : k < t.min.1) (h2 : t.min.1 < d.max.1) {t' : Tree K V S C}
      (h : LeftBelow (k, v) { d with max := t.min } t') : Left t k v t'
  | wrong {d : TreeData K V S C} (hd : t.data = some d) (h1 : k < t.min.1) (h2 : d.max.1 < t.min.1) {t' : Tree K V S C}
      (h : LeftBelow (k, v) d t') : Left t k v t'

theorem insertU_cases (φ : Faults) (t : Tree K V S C) (k : K) (v : V) :
    (∃ t' o, insertU φ t k v = (t', .ok o) ∧ insert t k v = .ok (t', o)) ∨
    ∃ t' e, insertU φ t k v = (t', .error e) ∧ Left t k v t' ∧
      ((∃ s, φ s = some e) ∨ insert t k v = .error e) := by
  unfold insertU insert
  rcases φ.call_cases .cmpMin (pure (cmp k t.min.1) : R Ordering) with ⟨-, h⟩ | ⟨e, he, h⟩
  swap
  · exact .inr ⟨_, e, by rw [h]; rfl, .same, .inl ⟨_, he⟩⟩
  rw [h]
  simp only [R.pure_eq, orLeave]
  obtain ⟨mn, d⟩ := t
  rcases lt_trichotomy k mn.1 with hk | hk | hk
  · simp only [cmp_lt hk]
    obtain _ | d := d
    · exact .inl ⟨_, _, rfl, rfl⟩
    · simp only
      rcases φ.call_cases .cmpMax (.ok (cmp d.max.1 mn.1) : R Ordering) with ⟨-, h⟩ | ⟨e, he, h⟩
      swap
      · exact .inr ⟨_, e, by rw [h], .newMin rfl hk, .inl ⟨_, he⟩⟩
      simp only [h]
      rcases lt_trichotomy d.max.1 mn.1 with hx | hx | hx
      · simp only [cmp_lt hx]
        rcases insertBelowU_cases φ (k, v) d mn.1 mn.2 with ⟨t', o, e1, e2⟩ | ⟨t', e, e1, e2, e3⟩
        · exact .inl ⟨_, _, e1, e2⟩
        · exact .inr ⟨_, _, e1, .wrong rfl hk hx e2, e3⟩
      · simp only [hx, cmp_self]
        exact .inl ⟨_, _, rfl, rfl⟩
      · simp only [cmp_gt hx]
        rcases insertBelowU_cases φ (k, v) { d with max := mn } d.max.1 d.max.2 with ⟨t', o, e1, e2⟩ | ⟨t', e, e1, e2, e3⟩
        · exact .inl ⟨_, _, e1, e2⟩
        · exact .inr ⟨_, _, e1, .swapped rfl hk hx e2, e3⟩
  · simp only [hk, cmp_self]
    exact .inl ⟨_, _, rfl, rfl⟩
  · simp only [cmp_gt hk]
    obtain _ | d := d
    · exact .inl ⟨_, _, rfl, rfl⟩
    · simp only
      rcases φ.call_cases .cmpMax (.ok (cmp k d.max.1) : R Ordering) with ⟨-, h⟩ | ⟨e, he, h⟩
      swap
      · exact .inr ⟨_, e, by rw [h], .same, .inl ⟨_, he⟩⟩
      simp only [h]
      rcases lt_trichotomy k d.max.1 with hx | hx | hx
      · simp only [cmp_lt hx]
        rcases insertBelowU_cases φ mn d k v with ⟨t', o, e1, e2⟩ | ⟨t', e, e1, e2, e3⟩
        · exact .inl ⟨_, _, e1, e2⟩
        · exact .inr ⟨_, _, e1, .below rfl hk hx e2, e3⟩
      · simp only [hx, cmp_self]
        exact .inl ⟨_, _, rfl, rfl⟩
      · simp only [cmp_gt hx]
        rcases insertBelowU_cases φ mn { d with max := (k, v) } d.max.1 d.max.2 with ⟨t', o, e1, e2⟩ | ⟨t', e, e1, e2, e3⟩
        · exact .inl ⟨_, _, e1, e2⟩
        · exact .inr ⟨_, _, e1, .newMax rfl hk hx e2, e3⟩

/-! ### with the invariant of trees in order -/

section
variable [LinearOrder Hi] [LinearOrder Lo] [LK : LawfulVebKey K Hi Lo] [LS : LawfulVebTree S Hi Unit]
  [LT : LawfulVebTree T Lo V] [LC : LawfulColl C Hi T Lo V]

theorem lists_ends {a z : K × V} (h : a.1 < z.1) : SL.Lists [a, z] (Map.ends a z Map.empty) := by
  refine ⟨by simp [SL.Sorted, h], fun k v => ?_⟩
  simp only [Map.ends, Map.upd, Map.empty, List.mem_cons, List.not_mem_nil, or_false]
  rcases eq_or_ne k a.1 with rfl | h1
  · rw [if_pos rfl, Option.some.injEq]
    constructor
    · rintro (e | e)
      · rw [← e]
      · rw [← e] at h; exact absurd h (lt_irrefl _)
    · rintro rfl; exact .inl rfl
  · rw [if_neg h1]
    rcases eq_or_ne k z.1 with rfl | h2
    · rw [if_pos rfl, Option.some.injEq]
      constructor
      · rintro (e | e)
        · rw [← e] at h1; exact absurd rfl h1
        · rw [← e]
      · rintro rfl; exact .inr rfl
    · rw [if_neg h2]
      refine ⟨?_, fun e => by cases e⟩
      rintro (e | e)
      · rw [← e] at h1; exact absurd rfl h1
      · rw [← e] at h2; exact absurd rfl h2

theorem left_inv {t t' : Tree K V S C} {k : K} {v : V} {l : SL K V} (h : t.Inv) (hl : SL.Lists l t.abs)
    (hsafe : Safe LS.Safe LT.Safe t.abs.Mem k) (hL : Left t k v t') :
    ∃ l', Caught l (.insert k v) l' ∧ t'.Inv ∧ SL.Lists l' t'.abs := by
  have nosafe : ∀ d, t.data = some d → ¬ k < t.min.1 := by
    intro d hd hk
    obtain ⟨mn, _⟩ := t
    cases hd
    have hmn := Map.isMin_ends h.1 h.2.between
    have hmx := Map.isMax_ends h.1 h.2.between
    exact absurd hk (not_lt.mpr (hsafe mn.1 d.max.1 (Map.mem_of hmn.1) (Map.mem_of hmx.1) h.1.ne
      fun j hj => ⟨hmn.2 j hj, hmx.2 j hj⟩).1)
  cases hL with
  | same => exact ⟨l, .kept rfl, h, hl⟩
  | newMin hd hk => exact absurd hk (nosafe _ hd)
  | swapped hd hk => exact absurd hk (nosafe _ hd)
  | wrong hd hk => exact absurd hk (nosafe _ hd)
  | @below d hd h1 h2 _ hb =>
    obtain ⟨mn, _⟩ := t
    cases hd
    have hmn := hl.minE.2 (Map.isMin_ends h.1 h.2.between)
    have hmx := hl.maxE.2 (Map.isMax_ends h.1 h.2.between)
    rcases hb with rfl | rfl
    · exact ⟨l, .kept rfl, h, hl⟩
    · exact ⟨_, .ends hmn hmx h1 h2, ⟨h.1, trivial⟩, lists_ends h.1⟩
  | @newMax d hd h1 h2 _ hb =>
    obtain ⟨mn, _⟩ := t
    cases hd
    have hmn := hl.minE.2 (Map.isMin_ends h.1 h.2.between)
    have hmx := hl.maxE.2 (Map.isMax_ends h.1 h.2.between)
    rcases hb with rfl | rfl
    · refine ⟨_, .newMax hmn hmx h.1 h2, ⟨h1, ?_⟩, ?_⟩
      · obtain ⟨mx, _ | ⟨s, c⟩⟩ := d
        · trivial
        · have h2' : ChOK (Btw mn.1 mx.1) (some (s, c)) := h.2
          exact ChInv.rebound h2' fun j hj => ⟨(ChInv.bound h2' j hj).1, (ChInv.bound h2' j hj).2.trans h2⟩
      · have hi := (hl.dropLast hmx).insert k v
        change SL.Lists _ (((Map.ends mn d.max (chmap K d.children)).upd d.max.1 none).upd k (some v)) at hi
        rw [show ((Map.ends mn d.max (chmap K d.children)).upd d.max.1 none).upd k (some v) =
            Map.ends mn (k, v) (chmap K d.children) from ?_] at hi
        · exact hi
        · have hn : chmap K d.children d.max.1 = none := Map.inner_max h.1 h.2.between
          funext j
          simp only [Map.ends, Map.upd]
          rcases eq_or_ne j k with rfl | hj
          · simp [h1.ne']
          · simp only [hj, if_false]
            rcases eq_or_ne j d.max.1 with rfl | hj'
            · simp [h.1.ne', hn]
            · simp [hj']
    · exact ⟨_, .endsNewMax hmn hmx h.1 h2, ⟨h1, trivial⟩, lists_ends h1⟩

end

/-! ### with the invariant of trees in any condition -/

section
variable [LinearOrder Hi] [LinearOrder Lo] [LK : LawfulVebKey K Hi Lo] [PS : PhysTree S Hi Unit] [PT : PhysTree T Lo V]
  [LC : LawfulColl C Hi T Lo V]

theorem leftBelow_phys {mn : K × V} {d : TreeData K V S C} {t' : Tree K V S C} (h : OChW K d.children)
    (hb : LeftBelow mn d t') : W t' ∧ ents t' ≤ mn ::ₘ d.max ::ₘ ochbag K d.children := by
  rcases hb with rfl | rfl
  · exact ⟨h, le_rfl⟩
  · exact ⟨trivial, Multiset.cons_le_cons _ (Multiset.cons_le_cons _ (Multiset.zero_le _))⟩

theorem left_phys {t t' : Tree K V S C} {k : K} {v : V} (h : W t) (hL : Left t k v t') :
    W t' ∧ ents t' ≤ (k, v) ::ₘ ents t ∧ (ents t').card ≤ (ents t).card := by
  obtain ⟨mn, d⟩ := t
  cases hL with
  | same => exact ⟨h, Multiset.le_cons_self _ _, le_rfl⟩
  | @newMin d hd hk => cases hd; exact ⟨h, Multiset.cons_le_cons _ (Multiset.le_cons_self _ _), by simp [ents]⟩
  | @below d hd h1 h2 _ hb =>
    cases hd
    obtain ⟨e1, e2⟩ := leftBelow_phys h hb
    exact ⟨e1, e2.trans (Multiset.le_cons_self _ _), Multiset.card_le_card e2⟩
  | @newMax d hd h1 h2 _ hb =>
    cases hd
    obtain ⟨e1, e2⟩ := leftBelow_phys (d := { d with max := (k, v) }) h hb
    refine ⟨e1, e2.trans ?_, (Multiset.card_le_card e2).trans (by simp [ents])⟩
    rw [Multiset.cons_swap]
    exact Multiset.cons_le_cons _ (Multiset.cons_le_cons _ (Multiset.le_cons_self _ _))
  | @swapped d hd h1 h2 _ hb =>
    cases hd
    obtain ⟨e1, e2⟩ := leftBelow_phys (d := { d with max := mn }) h hb
    exact ⟨e1, e2.trans (Multiset.cons_le_cons _ (Multiset.cons_le_cons _ (Multiset.le_cons_self _ _))),
      (Multiset.card_le_card e2).trans (by simp [ents])⟩
  | @wrong d hd h1 h2 _ hb =>
    cases hd
    obtain ⟨e1, e2⟩ := leftBelow_phys h hb
    exact ⟨e1, e2.trans (Multiset.cons_le_cons _ (Multiset.le_cons_self _ _)),
      (Multiset.card_le_card e2).trans (by simp [ents])⟩

end
end Tree

/-! ## Whole histories -/

/-- What `insertU` has to do with `insert` on trees in order. -/
def UnwindsInv {T K V : Type} [LinearOrder K] [VebTree T K V] [Unwinds T K V] (L : LawfulVebTree T K V) : Prop :=
  ∀ φ t k v l, L.Inv t → SL.Lists l (L.abs t) → L.Safe (L.abs t).Mem k →
    (∃ t' o, Unwinds.insertU φ t k v = (t', .ok o) ∧ VebTree.insert t k v = .ok (t', o)) ∨
    ∃ t' e l', Unwinds.insertU φ t k v = (t', .error e) ∧ (∃ s, φ s = some e) ∧ Caught l (.insert k v) l' ∧ L.Inv t' ∧
      SL.Lists l' (L.abs t')

theorem CatchTree.unwinds {T K V : Type} [LinearOrder K] [VebTree T K V] [Unwinds T K V] {safe : (K → Prop) → K → Prop}
    (h : CatchTree T K V safe) : ∃ L : LawfulVebTree T K V, L.Safe = safe ∧ UnwindsInv L := by
  induction h with
  | tree hk hs ht hc =>
    have := hk.lawful
    obtain ⟨LC⟩ := hc.lawful
    obtain ⟨LS, rfl, -⟩ := hs.lawful
    obtain ⟨LT, rfl, -⟩ := ht.lawful
    refine ⟨inferInstance, rfl, fun φ t k v l hI hl hs => ?_⟩
    rcases Tree.insertU_cases φ t k v with ⟨t', o, h1, h2⟩ | ⟨t', e, h1, h2, h3⟩
    · exact .inl ⟨t', o, h1, h2⟩
    · obtain ⟨l', c1, c2, c3⟩ := Tree.left_inv hI hl hs h2
      refine .inr ⟨t', e, l', h1, h3.resolve_right fun h => ?_, c1, c2, c3⟩
      obtain ⟨t'', e1, -⟩ := Tree.insert_ok t k v hI hs
      rw [e1] at h; cases h
  | box _ ih =>
    obtain ⟨L, rfl, hU⟩ := ih
    refine ⟨inferInstance, rfl, fun φ t k v l hI hl hs => ?_⟩
    rcases hU φ t.val k v l hI hl hs with ⟨t', o, h1, h2⟩ | ⟨t', e, l', h1, h2, c1, c2, c3⟩
    · refine .inl ⟨⟨t'⟩, o, ?_, ?_⟩
      · simp only [Unwinds.insertU, h1]
      · simp only [VebTree.insert, h2, R.ok_bind]; rfl
    · exact .inr ⟨⟨t'⟩, e, l', by simp only [Unwinds.insertU, h1], h2, c1, c2, c3⟩

theorem takesSelf_eq {K V : Type} (op : Op K V) : takesSelf op = Exec.consumes op := by cases op <;> rfl

section
variable {T K V : Type} [LinearOrder K] [VebTree T K V] [Unwinds T K V] [L : LawfulVebTree T K V]

omit L in
theorem stepU_some (t : T) (φ : Faults) (op : Op K V) (h : ∀ k v, op ≠ .insert k v) :
    Exec.stepU (some t) φ op = match φ.call .other (Exec.stepTree t op) with
      | .ok (t, o) => (t, .ok o)
      | .error e => (if Exec.consumes op then none else some t, .error e) := by
  cases op with
  | insert k v => exact absurd rfl (h k v)
  | _ => rfl

omit L in
theorem stepU_none (φ : Faults) (op : Op K V) :
    ∃ t' o, Exec.step (none : Option T) op = .ok (t', o) ∧ Exec.stepU (none : Option T) φ op = (t', .ok o) := by
  cases op <;> exact ⟨_, _, rfl, rfl⟩

theorem stepU_ok (hU : UnwindsInv L) {t : Option T} {l : SL K V} (h : Rel t l) (φ : Faults) (op : Op K V)
    (hs : ∀ k v, op = .insert k v → l = [] ∨ L.Safe (SL.keys l) k) :
    ∃ t', (Exec.stepU t φ op = (t', .ok (SL.step l op).2) ∧ Rel t' (SL.step l op).1) ∨
      ∃ e l', Exec.stepU t φ op = (t', .error e) ∧ (∃ s, φ s = some e) ∧ Caught l op l' ∧ Rel t' l' := by
  obtain ⟨t1, e1, r1⟩ := step_ok h op hs
  obtain _ | t := t
  · obtain ⟨t', o, h1, h2⟩ := stepU_none (T := T) φ op
    rw [h1] at e1
    cases e1
    exact ⟨_, .inl ⟨h2, r1⟩⟩
  · by_cases hop : ∃ k v, op = .insert k v
    · obtain ⟨k, v, rfl⟩ := hop
      have hne : l ≠ [] := fun e => by subst e; cases rel_nil (T := T) h
      have hsafe := (hs k v rfl).resolve_left hne
      rw [h.2.keys] at hsafe
      rcases hU φ t k v l h.1 h.2 hsafe with ⟨t', o, h1, h2⟩ | ⟨t', e, l', h1, h2, c1, c2, c3⟩
      · have : Exec.step (some t) (.insert k v) = .ok (some t', .kv o) := by
          simp only [Exec.step, Exec.stepTree, h2, R.ok_bind]; rfl
        rw [this] at e1
        simp only [Except.ok.injEq, Prod.mk.injEq] at e1
        obtain ⟨rfl, e2⟩ := e1
        refine ⟨some t', .inl ⟨?_, r1⟩⟩
        simp only [Exec.stepU, h1, ← e2]
        rfl
      · exact ⟨some t', .inr ⟨e, l', by simp only [Exec.stepU, h1]; rfl, h2, c1, c2, c3⟩⟩
    · push Not at hop
      rw [stepU_some t φ op hop]
      rcases φ.call_cases .other (Exec.stepTree t op) with ⟨-, h'⟩ | ⟨e, he, h'⟩
      · refine ⟨t1, .inl ⟨?_, r1⟩⟩
        rw [h', show Exec.stepTree t op = _ from e1]
      · rw [h']
        cases hc : Exec.consumes op with
        | true => exact ⟨none, .inr ⟨e, [], rfl, ⟨_, he⟩, .gone ((takesSelf_eq op).trans hc), rfl⟩⟩
        | false => exact ⟨some t, .inr ⟨e, l, rfl, ⟨_, he⟩, .kept ((takesSelf_eq op).trans hc), h⟩⟩

theorem runU_ok (hU : UnwindsInv L) {t : Option T} {l : SL K V} (h : Rel t l) (es : List (Faults × Op K V))
    (hs : SafeWith L.Safe l es) : ∃ l', RunsWith l es (Exec.runU t es).2 l' ∧ Rel (Exec.runU t es).1 l' := by
  induction es generalizing t l with
  | nil => exact ⟨l, .nil l, h⟩
  | cons e es ih =>
    obtain ⟨φ, op⟩ := e
    obtain ⟨t', ⟨h1, h2⟩ | ⟨e, l₁, h1, ⟨s, hf⟩, hc, h2⟩⟩ := stepU_ok hU h φ op
      (by rintro k v rfl; exact hs [] φ k v es [] l rfl (.nil l))
    · obtain ⟨l', r1, r2⟩ := ih h2 (fun pre φ' k v post os l' e r =>
        hs ((φ, op) :: pre) φ' k v post _ l' (by rw [e]; rfl) (.returns r))
      refine ⟨l', ?_, ?_⟩
      · simp only [Exec.runU, h1]; exact .returns r1
      · simp only [Exec.runU, h1]; exact r2
    · have hl : l ≠ [] := by
        rintro rfl
        rw [rel_nil h] at h1
        cases op <;> cases h1
      obtain ⟨l', r1, r2⟩ := ih h2 (fun pre φ' k v post os l' e' r =>
        hs ((φ, op) :: pre) φ' k v post _ l' (by rw [e']; rfl) (.panics hl hf hc r))
      refine ⟨l', ?_, ?_⟩
      · simp only [Exec.runU, h1]; exact .panics hl hf hc r1
      · simp only [Exec.runU, h1]; exact r2

end

/-! ## Trees in any condition -/

/-- What `insertU` has to do with `insert` on trees in any condition. -/
def UnwindsPhys {T K V : Type} [LinearOrder K] [VebTree T K V] [Unwinds T K V] (P : PhysTree T K V) : Prop :=
  ∀ φ t k v, P.W t → (P.limited → (P.ents t).card < usizeMax) →
    (∃ t' o, Unwinds.insertU φ t k v = (t', .ok o) ∧ VebTree.insert t k v = .ok (t', o)) ∨
    ∃ t' e, Unwinds.insertU φ t k v = (t', .error e) ∧ (∃ s, φ s = some e) ∧ P.W t' ∧ P.ents t' ≤ (k, v) ::ₘ P.ents t ∧
      (P.ents t').card ≤ (P.ents t).card

theorem Tree.unwindsPhys {K V S C Hi Lo T : Type} [LinearOrder K] [VebKey K Hi Lo] [VebKeyRef K Hi Lo]
    [VebTree S Hi Unit] [VebTree T Lo V] [TreeCollection C Hi T Lo V] [LinearOrder Hi] [LinearOrder Lo]
    [LK : LawfulVebKey K Hi Lo] [PS : PhysTree S Hi Unit] [PT : PhysTree T Lo V] [LC : LawfulColl C Hi T Lo V] :
    UnwindsPhys (inferInstance : PhysTree (Tree K V S C) K V) := by
  intro φ t k v hW hl
  rcases Tree.insertU_cases φ t k v with ⟨t', o, h1, h2⟩ | ⟨t', e, h1, h2, h3⟩
  · exact .inl ⟨t', o, h1, h2⟩
  · refine .inr ⟨t', e, h1, h3.resolve_right fun h => ?_, Tree.left_phys hW h2⟩
    obtain ⟨t'', o, e1, -⟩ := PhysTree.insertE t k v hW hl
    change Tree.insert t k v = _ at e1
    rw [e1] at h; cases h

theorem CatchCovered.phys {T K V : Type} [LinearOrder K] [VebTree T K V] [Unwinds T K V] {n : Nat}
    (h : CatchCovered T K V n) : ∃ P : PhysTree T K V, UnwindsPhys P ∧ (P.limited → n ≤ usizeMax) := by
  induction h with
  | tree hk hs ht hc hn =>
    have := hk.lawful
    obtain ⟨LC⟩ := hc.lawful
    obtain ⟨PS⟩ := hs.phys
    obtain ⟨PT⟩ := ht.phys
    exact ⟨inferInstance, Tree.unwindsPhys, fun _ => hn⟩
  | uncounted hk hs ht hc =>
    have := hk.lawful
    obtain ⟨LC⟩ := hc.lawful
    obtain ⟨PS, hs⟩ := hs.phys
    obtain ⟨PT, ht⟩ := ht.phys
    exact ⟨inferInstance, Tree.unwindsPhys, fun h => (h.elim hs ht).elim⟩
  | box _ ih =>
    obtain ⟨P, hU, hl⟩ := ih
    refine ⟨inferInstance, fun φ t k v hW hn => ?_, hl⟩
    rcases hU φ t.val k v hW hn with ⟨t', o, h1, h2⟩ | ⟨t', e, h1, h2⟩
    · refine .inl ⟨⟨t'⟩, o, ?_, ?_⟩
      · simp only [Unwinds.insertU, h1]
      · simp only [VebTree.insert, h2, R.ok_bind]; rfl
    · exact .inr ⟨⟨t'⟩, e, by simp only [Unwinds.insertU, h1], h2⟩

section
variable {T K V : Type} [LinearOrder K] [VebTree T K V] [Unwinds T K V] [P : PhysTree T K V]

theorem physU_step (hU : UnwindsPhys P) {n : Nat} {t : Option T} (h : OptW n t) (φ : Faults) (op : Op K V)
    (hl : P.limited → n + insertions [op] ≤ usizeMax) :
    (∃ t' o, Exec.stepU t φ op = (t', .ok o) ∧ Exec.step t op = .ok (t', o) ∧ OptW (n + insertions [op]) t') ∨
    ∃ t' e, Exec.stepU t φ op = (t', .error e) ∧ (∃ s, φ s = some e) ∧ OptW n t' ∧
      (oents t' ≤ oents t ∨ ∃ k v, op = .insert k v ∧ oents t' ≤ (k, v) ::ₘ oents t) := by
  obtain ⟨t1, o1, e1, r1⟩ := phys_step h op hl
  obtain _ | t := t
  · obtain ⟨t', o, h1, h2⟩ := stepU_none (T := T) φ op
    rw [h1] at e1
    cases e1
    exact .inl ⟨_, _, h2, h1, r1⟩
  · by_cases hop : ∃ k v, op = .insert k v
    · obtain ⟨k, v, rfl⟩ := hop
      rcases hU φ t k v h.1 (fun x => by
          have := hl x
          have h2 := h.2
          rw [PhysTree.bag_card] at h2
          simp only [insertions, List.countP_singleton, if_true] at this
          omega) with ⟨t', o, h1, h2⟩ | ⟨t', e, h1, h2, c1, c2, c3⟩
      · have : Exec.step (some t) (.insert k v) = .ok (some t', .kv o) := by
          simp only [Exec.step, Exec.stepTree, h2, R.ok_bind]; rfl
        rw [this] at e1
        cases e1
        exact .inl ⟨some t', .kv o, by simp only [Exec.stepU, h1]; rfl, this, r1⟩
      · refine .inr ⟨some t', e, by simp only [Exec.stepU, h1]; rfl, h2, ⟨c1, ?_⟩, .inr ⟨k, v, rfl, c2⟩⟩
        rw [PhysTree.bag_card]
        exact c3.trans (by rw [← PhysTree.bag_card]; exact h.2)
    · push Not at hop
      rw [stepU_some t φ op hop]
      rcases φ.call_cases .other (Exec.stepTree t op) with ⟨-, h'⟩ | ⟨e, he, h'⟩
      · refine .inl ⟨t1, o1, ?_, e1, r1⟩
        rw [h', show Exec.stepTree t op = _ from e1]
      · rw [h']
        cases hc : Exec.consumes op with
        | true => exact .inr ⟨none, e, rfl, ⟨_, he⟩, trivial, .inl (Multiset.zero_le _)⟩
        | false => exact .inr ⟨some t, e, rfl, ⟨_, he⟩, h, .inl le_rfl⟩

theorem physU_run (hU : UnwindsPhys P) {n : Nat} {t : Option T} (h : OptW n t) (es : List (Faults × Op K V))
    (hl : P.limited → n + insertions (es.map Prod.snd) ≤ usizeMax) :
    OptW (n + insertions (es.map Prod.snd)) (Exec.runU t es).1 ∧ OnlyFaults es (Exec.runU t es).2 ∧
      oents (Exec.runU t es).1 + takenU es (Exec.runU t es).2 ≤ oents t + givenU es (Exec.runU t es).2 := by
  induction es generalizing n t with
  | nil => exact ⟨h, .nil, le_rfl⟩
  | cons e es ih =>
    obtain ⟨φ, op⟩ := e
    rw [List.map_cons, insertions_cons] at hl ⊢
    simp only at hl ⊢
    rcases physU_step hU h φ op (fun x => by have := hl x; omega) with ⟨t', o, h1, h2, h3⟩ | ⟨t', e, h1, h2, h3, h4⟩
    · obtain ⟨r1, r2, r3⟩ := ih h3 (fun x => by have := hl x; omega)
      have hb := (balanced_step h op (fun x => by have := hl x; omega) h2).1
      simp only [Exec.runU, h1]
      refine ⟨by rwa [Nat.add_assoc] at r1, .cons (fun p hp => by cases hp) r2, ?_⟩
      simp only [takenU, givenU]
      calc _ = (oents (Exec.runU t' es).1 + takenU es (Exec.runU t' es).2) + takenStep op o := by
            rw [add_assoc]; congr 1; exact add_comm _ _
        _ ≤ (oents t' + givenU es (Exec.runU t' es).2) + takenStep op o := add_le_add_left r3 _
        _ = (oents t' + takenStep op o) + givenU es (Exec.runU t' es).2 := by
            rw [add_assoc, add_assoc]; congr 1; exact add_comm _ _
        _ = _ := by rw [hb, add_assoc]
    · obtain ⟨r1, r2, r3⟩ := ih h3 (fun x => by have := hl x; omega)
      simp only [Exec.runU, h1]
      refine ⟨optW_mono (by omega) r1, .cons (fun p hp => by cases hp; exact h2) r2, ?_⟩
      rcases h4 with h4 | ⟨k, v, rfl, h4⟩
      · refine le_trans (b := oents t + givenU es (Exec.runU t' es).2) ?_ ?_
        · rw [show takenU ((φ, op) :: es) (Except.error e :: (Exec.runU t' es).2) = takenU es (Exec.runU t' es).2 from rfl]
          exact r3.trans (add_le_add_left h4 _)
        · cases op with
          | insert k v => exact add_le_add_right (Multiset.le_add_left _ _) _
          | _ => exact le_rfl
      · refine le_trans (r3.trans (add_le_add_left h4 _)) (le_of_eq ?_)
        simp only [givenU]
        rw [← Multiset.singleton_add, add_comm {(k, v)} (oents t), add_assoc]

end

/-! ## A condition for safe insertions -/

/-- `k₀` is the least key and the first entry -/
def HeadIs {K V : Type} [LinearOrder K] (k₀ : K) (l : SL K V) : Prop :=
  ∃ v tl, l = (k₀, v) :: tl ∧ ∀ e ∈ tl, k₀ ≤ e.1

theorem HeadIs.insert {K V : Type} [LinearOrder K] {k₀ : K} {l : SL K V} (h : HeadIs k₀ l) {k : K} (hk : k₀ ≤ k) (v : V) :
    HeadIs k₀ (SL.insert l k v) := by
  obtain ⟨v₀, tl, rfl, ht⟩ := h
  rcases eq_or_lt_of_le hk with rfl | hk
  · refine ⟨v, tl.filter fun p => decide (k₀ < p.1), ?_, fun e he => ht e (List.mem_of_mem_filter he)⟩
    simp only [SL.insert]
    rw [List.filter_eq_nil_iff.2, List.nil_append, List.filter_cons_of_neg (by simp)]
    rintro e he
    rcases List.mem_cons.1 he with rfl | he
    · simp
    · simpa using ht e he
  · refine ⟨v₀, tl.filter (fun p => decide (p.1 < k)) ++ (k, v) :: tl.filter (fun p => decide (k < p.1)), ?_, ?_⟩
    · simp only [SL.insert]
      rw [List.filter_cons_of_pos (by simpa using hk), List.filter_cons_of_neg (by simpa using hk.le)]
      rfl
    · intro e he
      rcases List.mem_append.1 he with he | he
      · exact ht e (List.mem_of_mem_filter he)
      · rcases List.mem_cons.1 he with rfl | he
        · exact hk.le
        · exact ht e (List.mem_of_mem_filter he)

theorem HeadIs.dropLast {K V : Type} [LinearOrder K] {k₀ : K} {l : SL K V} (h : HeadIs k₀ l) {z : K × V}
    (hz : SL.maxE l = some z) (hk : k₀ < z.1) : HeadIs k₀ (l.dropLast) := by
  obtain ⟨v₀, tl, rfl, ht⟩ := h
  obtain _ | ⟨b, tl⟩ := tl
  · simp only [SL.maxE, List.getLast?_singleton, Option.some.injEq] at hz
    subst hz
    exact absurd hk (lt_irrefl _)
  · exact ⟨v₀, (b :: tl).dropLast, rfl, fun e he => ht e (List.dropLast_subset _ he)⟩

theorem HeadIs.caught {K V : Type} [LinearOrder K] {k₀ : K} {l l' : SL K V} (h : HeadIs k₀ l) {k : K} {v : V}
    (hk : k₀ ≤ k) (hc : Caught l (.insert k v) l') : HeadIs k₀ l' := by
  have hmin : ∀ {a : K × V}, SL.minE l = some a → a.1 = k₀ := by
    intro a ha
    obtain ⟨v₀, tl, rfl, -⟩ := h
    cases ha; rfl
  cases hc with
  | kept => exact h
  | gone h => cases h
  | @newMax _ _ a z ha hz h1 h2 => exact (h.dropLast hz (hmin ha ▸ h1)).insert hk v
  | @ends _ _ a z ha hz h1 h2 =>
    obtain ⟨a, w⟩ := a
    cases hmin ha
    exact ⟨w, [z], rfl, fun e he => by rw [List.mem_singleton.1 he]; exact (h1.trans h2).le⟩
  | @endsNewMax _ _ a z ha hz h1 h2 =>
    obtain ⟨a, w⟩ := a
    cases hmin ha
    exact ⟨w, [(k, v)], rfl, fun e he => by rw [List.mem_singleton.1 he]; exact (h1.trans h2).le⟩

/-- insertions none of which is below the first are safe for trees of two levels, whatever panics -/
theorem safeWith_of_first {K V Hi Lo : Type} [LinearOrder K] [VebKey K Hi Lo] (φ₀ : Faults) (k₀ : K) (v₀ : V)
    (es : List (Faults × K × V)) (h : ∀ e ∈ es, k₀ ≤ e.2.1) :
    SafeWith (Tree.Safe (K := K) (Hi := Hi) (Lo := Lo) always always) []
      ((φ₀, .insert k₀ v₀) :: es.map fun e => (e.1, .insert e.2.1 e.2.2)) := by
  have main : ∀ (es : List (Faults × K × V)) (l : SL K V), (∀ e ∈ es, k₀ ≤ e.2.1) → HeadIs k₀ l →
      ∀ pre os l', pre <+: es.map (fun e => (e.1, Op.insert e.2.1 e.2.2)) → RunsWith l pre os l' → HeadIs k₀ l' := by
    intro es
    induction es with
    | nil =>
      intro l _ hl pre os l' hp hr
      cases List.prefix_nil.1 hp
      cases hr; exact hl
    | cons e es ih =>
      intro l hes hl pre os l' hp hr
      obtain _ | ⟨p, pre⟩ := pre
      · cases hr; exact hl
      · obtain ⟨rfl, hp'⟩ := List.cons_prefix_cons.1 hp
        have hk := hes e (List.mem_cons_self ..)
        cases hr with
        | returns hr =>
          exact ih _ (fun e he => hes e (List.mem_cons_of_mem _ he)) (hl.insert hk _) _ _ _ hp' hr
        | panics _ _ hc hr =>
          exact ih _ (fun e he => hes e (List.mem_cons_of_mem _ he)) (hl.caught hk hc) _ _ _ hp' hr
  intro pre φ k v post os l' he hr
  obtain _ | ⟨p, pre⟩ := pre
  · cases hr; exact .inl rfl
  · obtain ⟨rfl, he'⟩ := List.cons_eq_cons.1 he
    have hk : k₀ ≤ k := by
      have : (φ, Op.insert k v) ∈ es.map (fun e => (e.1, Op.insert e.2.1 e.2.2)) := by rw [he']; simp
      obtain ⟨e, hm, hh⟩ := List.mem_map.1 this
      cases hh
      exact h e hm
    have safe : ∀ {l' : SL K V}, HeadIs k₀ l' → Tree.Safe (K := K) (Hi := Hi) (Lo := Lo) always always (SL.keys l') k := by
      rintro l' ⟨w, tl, rfl, -⟩ mn mx - - - hb
      exact ⟨(hb k₀ ⟨w, List.mem_cons_self ..⟩).1.trans hk, .inr (.inr fun x _ => ⟨fun _ _ _ => trivial, fun _ _ _ _ => trivial⟩)⟩
    have hpre : pre <+: es.map (fun e => (e.1, Op.insert e.2.1 e.2.2)) := ⟨_, he'.symm⟩
    cases hr with
    | returns hr =>
      exact .inr (safe (main es _ h ⟨v₀, [], rfl, fun _ he => by cases he⟩ pre _ _ hpre hr))
    | panics hl _ _ _ => exact absurd rfl hl

end Veb
