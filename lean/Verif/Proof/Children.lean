import Verif.Proof.Lawful
import Verif.Proof.MapLemmas
import Mathlib.Data.Set.Finite.Lattice

/-!
The summary and the children of a `Tree`, seen as one map.
-/

set_option linter.unusedSectionVars false

namespace Veb
variable {K V S C Hi Lo T : Type} [LinearOrder K] [LinearOrder Hi] [LinearOrder Lo]
  [VebKey K Hi Lo] [VebKeyRef K Hi Lo] [LK : LawfulVebKey K Hi Lo]
  [VebTree S Hi Unit] [LS : LawfulVebTree S Hi Unit]
  [VebTree T Lo V] [LT : LawfulVebTree T Lo V]
  [TreeCollection C Hi T Lo V] [LC : LawfulColl C Hi T Lo V]

open VebKey (splitVal join)

theorem split_inj {a b : K} (h : splitVal a = splitVal b) : a = b := by
  have := LK.join_split a
  rw [h, LK.join_split] at this
  exact this.symm

theorem join_of_split {k : K} {h : Hi} {l : Lo} (e : splitVal k = (h, l)) : join h l = k := by
  have := LK.join_split k
  rwa [e] at this

theorem lt_of_split {a b : K} {h h' : Hi} {l l' : Lo} (ea : splitVal a = (h, l))
    (eb : splitVal b = (h', l')) : a < b ↔ h < h' ∨ h = h' ∧ l < l' := by
  rw [LK.lt_iff, ea, eb]

theorem le_of_split {a b : K} {h h' : Hi} {l l' : Lo} (ea : splitVal a = (h, l))
    (eb : splitVal b = (h', l')) : a ≤ b ↔ h < h' ∨ h = h' ∧ l ≤ l' := by
  rw [← not_lt, lt_of_split eb ea, not_or, not_and, not_lt, not_lt]
  constructor
  · rintro ⟨h1, h2⟩
    rcases h1.lt_or_eq with h | h
    · exact .inl h
    · exact .inr ⟨h, h2 h.symm⟩
  · rintro (h | ⟨h1, h2⟩)
    · exact ⟨h.le, fun e => absurd e h.ne'⟩
    · exact ⟨h1.le, fun _ => h2⟩

/-- The entries stored below the extremes. -/
def cmap (K : Type) [VebKey K Hi Lo] (c : C) : Map K V := fun k =>
  (LC.abs c (splitVal k).1).bind fun u => LT.abs u (splitVal k).2

theorem cmap_eq_some {c : C} {k : K} {v : V} :
    cmap K c k = some v ↔ ∃ u, LC.abs c (splitVal k).1 = some u ∧ LT.abs u (splitVal k).2 = some v := by
  simp [cmap, Option.bind_eq_some_iff]

theorem cmap_mem {c : C} {k : K} :
    (cmap K c).Mem k ↔ ∃ u, LC.abs c (splitVal k).1 = some u ∧ (LT.abs u).Mem (splitVal k).2 := by
  simp only [Map.mem_iff, cmap_eq_some]
  exact ⟨fun ⟨v, u, a, b⟩ => ⟨u, a, v, b⟩, fun ⟨u, a, v, b⟩ => ⟨v, u, a, b⟩⟩

theorem cmap_split {c : C} {k : K} {h : Hi} {l : Lo} (e : splitVal k = (h, l)) :
    cmap K c k = (LC.abs c h).bind fun u => LT.abs u l := by simp [cmap, e]

/-- Invariant of summary and children whose keys satisfy `B`. -/
structure ChInv (B : K → Prop) (s : S) (c : C) : Prop where
  sInv : LS.Inv s
  cInv : LC.Inv c
  sum : ∀ h, (LS.abs s).Mem h ↔ (LC.abs c).Mem h
  child : ∀ h u, LC.abs c h = some u → LT.Inv u
  good : ∀ h u l, LC.abs c h = some u → (LT.abs u).Mem l → splitVal (join h l : K) = (h, l)
  bound : ∀ k, (cmap K c).Mem k → B k

namespace ChInv
variable {B : K → Prop} {s : S} {c : C}

theorem rebound (I : ChInv B s c) {B' : K → Prop} (h : ∀ k, (cmap K c).Mem k → B' k) :
    ChInv B' s c := { I with bound := h }

theorem cmap_join (I : ChInv B s c) {h : Hi} {u : T} {l : Lo} (hc : LC.abs c h = some u)
    (hl : (LT.abs u).Mem l) : cmap K c (join h l) = LT.abs u l := by
  simp [cmap, I.good h u l hc hl, hc]

theorem exists_mem (I : ChInv B s c) : ∃ k, (cmap K c).Mem k := by
  obtain ⟨h, hh⟩ := LC.nonempty c I.cInv
  obtain ⟨u, hu⟩ := Map.mem_iff.1 hh
  obtain ⟨l, hl⟩ := LT.nonempty u (I.child h u hu)
  refine ⟨join h l, ?_⟩
  rw [Map.Mem, I.cmap_join hu hl]; exact hl

theorem finite (I : ChInv B s c) : Set.Finite {k | (cmap K c).Mem k} := by
  have hs : Set.Finite {h | (LC.abs c).Mem h} := by
    have := LS.finite s I.sInv
    simpa [I.sum] using this
  have : {k | (cmap K c).Mem k} ⊆
      ⋃ h ∈ {h | (LC.abs c).Mem h}, ⋃ u ∈ {u | LC.abs c h = some u},
        (fun l => (join h l : K)) '' {l | (LT.abs u).Mem l} := by
    intro k hk
    obtain ⟨u, hu, hl⟩ := cmap_mem.1 hk
    simp only [Set.mem_iUnion]
    exact ⟨(splitVal k).1, Map.mem_of hu, u, hu, (splitVal k).2, hl, LK.join_split k⟩
  refine Set.Finite.subset ?_ this
  refine hs.biUnion fun h _ => ?_
  refine Set.Finite.biUnion ?_ fun u hu => (LT.finite u (I.child h u hu)).image _
  refine Set.Subsingleton.finite ?_
  intro a ha b hb
  simpa using ha.symm.trans hb

/-- the child named by a summary key exists -/
theorem child_of_sum (I : ChInv B s c) {h : Hi} (hh : (LS.abs s).Mem h) :
    ∃ u, LC.abs c h = some u ∧ LT.Inv u := by
  obtain ⟨u, hu⟩ := Map.mem_iff.1 ((I.sum h).1 hh)
  exact ⟨u, hu, I.child h u hu⟩

theorem sum_of_child (I : ChInv B s c) {h : Hi} {u : T} (hc : LC.abs c h = some u) :
    (LS.abs s).Mem h := (I.sum h).2 (Map.mem_of hc)

/-- smallest child, smallest key in it -/
theorem isMin (I : ChInv B s c) {h : Hi} {u : T} {l : Lo} {v : V}
    (hs : (LS.abs s).IsMin (h, ())) (hc : LC.abs c h = some u) (hu : (LT.abs u).IsMin (l, v)) :
    (cmap K c).IsMin (join h l, v) := by
  refine ⟨(I.cmap_join hc (Map.mem_of hu.1)).trans hu.1, fun j hj => ?_⟩
  obtain ⟨u', hu', hl'⟩ := cmap_mem.1 hj
  have hle := hs.2 _ (I.sum_of_child hu')
  refine (le_of_split (I.good h u l hc (Map.mem_of hu.1)) (Prod.eta _).symm).2 ?_
  rcases (show h ≤ _ from hle).lt_or_eq with h1 | h1
  · exact .inl h1
  · rw [← h1, hc] at hu'
    obtain rfl := Option.some.inj hu'
    exact .inr ⟨h1, hu.2 _ hl'⟩

/-- greatest child, greatest key in it -/
theorem isMax (I : ChInv B s c) {h : Hi} {u : T} {l : Lo} {v : V}
    (hs : (LS.abs s).IsMax (h, ())) (hc : LC.abs c h = some u) (hu : (LT.abs u).IsMax (l, v)) :
    (cmap K c).IsMax (join h l, v) := by
  refine ⟨(I.cmap_join hc (Map.mem_of hu.1)).trans hu.1, fun j hj => ?_⟩
  obtain ⟨u', hu', hl'⟩ := cmap_mem.1 hj
  have hle := hs.2 _ (I.sum_of_child hu')
  refine (le_of_split (Prod.eta _).symm (I.good h u l hc (Map.mem_of hu.1))).2 ?_
  rcases (show _ ≤ h from hle).lt_or_eq with h1 | h1
  · exact .inl h1
  · rw [h1, hc] at hu'
    obtain rfl := Option.some.inj hu'
    exact .inr ⟨h1, hu.2 _ hl'⟩

/-- predecessor found in the child of `k` -/
theorem isPred_child (I : ChInv B s c) {k : K} {h : Hi} {l : Lo} (hk : splitVal k = (h, l))
    {u : T} (hc : LC.abs c h = some u) {l' : Lo} {v : V} (hu : (LT.abs u).IsPred l (some (l', v))) :
    (cmap K c).IsPred k (some (join h l', v)) := by
  have hg := I.good h u l' hc (Map.mem_of hu.1)
  refine ⟨(I.cmap_join hc (Map.mem_of hu.1)).trans hu.1, (lt_of_split hg hk).2 (.inr ⟨rfl, hu.2.1⟩), ?_⟩
  intro j hj hjk
  obtain ⟨u', hu', hl'⟩ := cmap_mem.1 hj
  refine (le_of_split (Prod.eta _).symm hg).2 ?_
  rcases (lt_of_split (Prod.eta _).symm hk).1 hjk with h1 | ⟨h1, h2⟩
  · exact .inl h1
  · rw [h1, hc] at hu'
    obtain rfl := Option.some.inj hu'
    exact .inr ⟨h1, hu.2.2 _ hl' h2⟩

/-- nothing below `k` in its own child: take the greatest key of the preceding child -/
theorem isPred_sum (I : ChInv B s c) {k : K} {h : Hi} {l : Lo} (hk : splitVal k = (h, l))
    (hno : ∀ u, LC.abs c h = some u → (LT.abs u).IsPred l none) {h' : Hi}
    (hs : (LS.abs s).IsPred h (some (h', ()))) {u : T} (hc : LC.abs c h' = some u) {l' : Lo} {v : V}
    (hu : (LT.abs u).IsMax (l', v)) : (cmap K c).IsPred k (some (join h' l', v)) := by
  have hg := I.good h' u l' hc (Map.mem_of hu.1)
  refine ⟨(I.cmap_join hc (Map.mem_of hu.1)).trans hu.1, (lt_of_split hg hk).2 (.inl hs.2.1), ?_⟩
  intro j hj hjk
  obtain ⟨u', hu', hl'⟩ := cmap_mem.1 hj
  refine (le_of_split (Prod.eta _).symm hg).2 ?_
  rcases (lt_of_split (Prod.eta _).symm hk).1 hjk with h1 | ⟨h1, h2⟩
  · have hle := hs.2.2 _ (I.sum_of_child hu') h1
    rcases hle.lt_or_eq with h3 | h3
    · exact .inl h3
    · rw [h3, hc] at hu'
      obtain rfl := Option.some.inj hu'
      exact .inr ⟨h3, hu.2 _ hl'⟩
  · rw [h1] at hu'
    exact absurd h2 (hno u' hu' _ hl')

theorem isPred_none (I : ChInv B s c) {k : K} {h : Hi} {l : Lo} (hk : splitVal k = (h, l))
    (hno : ∀ u, LC.abs c h = some u → (LT.abs u).IsPred l none)
    (hs : (LS.abs s).IsPred h none) : (cmap K c).IsPred k none := by
  intro j hj hjk
  obtain ⟨u', hu', hl'⟩ := cmap_mem.1 hj
  rcases (lt_of_split (Prod.eta _).symm hk).1 hjk with h1 | ⟨h1, h2⟩
  · exact hs _ (I.sum_of_child hu') h1
  · rw [h1] at hu'
    exact absurd h2 (hno u' hu' _ hl')

theorem isSucc_child (I : ChInv B s c) {k : K} {h : Hi} {l : Lo} (hk : splitVal k = (h, l))
    {u : T} (hc : LC.abs c h = some u) {l' : Lo} {v : V} (hu : (LT.abs u).IsSucc l (some (l', v))) :
    (cmap K c).IsSucc k (some (join h l', v)) := by
  have hg := I.good h u l' hc (Map.mem_of hu.1)
  refine ⟨(I.cmap_join hc (Map.mem_of hu.1)).trans hu.1, (lt_of_split hk hg).2 (.inr ⟨rfl, hu.2.1⟩), ?_⟩
  intro j hj hjk
  obtain ⟨u', hu', hl'⟩ := cmap_mem.1 hj
  refine (le_of_split hg (Prod.eta _).symm).2 ?_
  rcases (lt_of_split hk (Prod.eta _).symm).1 hjk with h1 | ⟨h1, h2⟩
  · exact .inl h1
  · rw [← h1, hc] at hu'
    obtain rfl := Option.some.inj hu'
    exact .inr ⟨h1, hu.2.2 _ hl' h2⟩

theorem isSucc_sum (I : ChInv B s c) {k : K} {h : Hi} {l : Lo} (hk : splitVal k = (h, l))
    (hno : ∀ u, LC.abs c h = some u → (LT.abs u).IsSucc l none) {h' : Hi}
    (hs : (LS.abs s).IsSucc h (some (h', ()))) {u : T} (hc : LC.abs c h' = some u) {l' : Lo} {v : V}
    (hu : (LT.abs u).IsMin (l', v)) : (cmap K c).IsSucc k (some (join h' l', v)) := by
  have hg := I.good h' u l' hc (Map.mem_of hu.1)
  refine ⟨(I.cmap_join hc (Map.mem_of hu.1)).trans hu.1, (lt_of_split hk hg).2 (.inl hs.2.1), ?_⟩
  intro j hj hjk
  obtain ⟨u', hu', hl'⟩ := cmap_mem.1 hj
  refine (le_of_split hg (Prod.eta _).symm).2 ?_
  rcases (lt_of_split hk (Prod.eta _).symm).1 hjk with h1 | ⟨h1, h2⟩
  · have hle := hs.2.2 _ (I.sum_of_child hu') h1
    rcases hle.lt_or_eq with h3 | h3
    · exact .inl h3
    · rw [← h3, hc] at hu'
      obtain rfl := Option.some.inj hu'
      exact .inr ⟨h3, hu.2 _ hl'⟩
  · rw [← h1] at hu'
    exact absurd h2 (hno u' hu' _ hl')

theorem isSucc_none (I : ChInv B s c) {k : K} {h : Hi} {l : Lo} (hk : splitVal k = (h, l))
    (hno : ∀ u, LC.abs c h = some u → (LT.abs u).IsSucc l none)
    (hs : (LS.abs s).IsSucc h none) : (cmap K c).IsSucc k none := by
  intro j hj hjk
  obtain ⟨u', hu', hl'⟩ := cmap_mem.1 hj
  rcases (lt_of_split hk (Prod.eta _).symm).1 hjk with h1 | ⟨h1, h2⟩
  · exact hs _ (I.sum_of_child hu') h1
  · rw [← h1] at hu'
    exact absurd h2 (hno u' hu' _ hl')

/-- The contents after the child at `h` changed from `u` to `u'` at one place `l`. -/
theorem cmap_upd {c c' : C} {k : K} {h : Hi} {l : Lo} (hk : splitVal k = (h, l)) {o : Option T}
    {m m' : Map Lo V} (hm : ∀ l, m l = (LC.abs c h).bind fun u => LT.abs u l)
    (hm' : ∀ l, m' l = o.bind fun u => LT.abs u l) {w : Option V} (hw : m' = m.upd l w)
    (hc' : LC.abs c' = (LC.abs c).upd h o) : cmap K c' = (cmap K c).upd k w := by
  funext j
  rw [Map.upd_apply]
  simp only [cmap, hc', Map.upd_apply]
  by_cases h1 : (splitVal j).1 = h
  · simp only [h1, ↓reduceIte]
    rw [← hm', ← hm, hw, Map.upd_apply]
    have : (splitVal j).2 = l ↔ j = k := by
      constructor
      · intro h2
        exact split_inj (K := K) (by rw [hk, ← h1, ← h2])
      · rintro rfl; rw [hk]
    simp only [this]
  · have : j ≠ k := by rintro rfl; exact h1 (by rw [hk])
    simp [h1, this]

/-- Setting the value at `k` in an existing child. -/
theorem set_child (I : ChInv B s c) {k : K} {h : Hi} {l : Lo} (hk : splitVal k = (h, l))
    (hB : B k) {u u' : T} {c' : C} {w : V} (hc : LC.abs c h = some u) (hi : LC.Inv c')
    (hc' : LC.abs c' = (LC.abs c).upd h (some u')) (hu : LT.Inv u')
    (hu' : LT.abs u' = (LT.abs u).upd l (some w)) :
    ChInv B s c' ∧ cmap K c' = (cmap K c).upd k (some w) := by
  have hcm : cmap K c' = (cmap K c).upd k (some w) :=
    cmap_upd (m := LT.abs u) (m' := LT.abs u') hk (by simp [hc]) (by simp) hu' hc'
  refine ⟨⟨I.sInv, hi, ?_, ?_, ?_, ?_⟩, hcm⟩
  · intro h'
    rw [I.sum, hc', Map.mem_upd_some]
    constructor
    · exact .inr
    · rintro (rfl | h3)
      · exact Map.mem_of hc
      · exact h3
  · intro h' t ht
    rw [hc', Map.upd_apply] at ht
    split at ht
    · obtain rfl := Option.some.inj ht; exact hu
    · exact I.child h' t ht
  · intro h' t l' ht hl'
    rw [hc', Map.upd_apply] at ht
    split at ht
    · rename_i he
      subst he
      obtain rfl := Option.some.inj ht
      rw [hu', Map.mem_upd_some] at hl'
      rcases hl' with rfl | hl'
      · rw [join_of_split hk, hk]
      · exact I.good _ u l' hc hl'
    · exact I.good h' t l' ht hl'
  · intro j hj
    rw [hcm, Map.mem_upd_some] at hj
    rcases hj with rfl | hj
    · exact hB
    · exact I.bound j hj

/-- Adding a new child holding just `k`. -/
theorem add_child (I : ChInv B s c) {k : K} {h : Hi} {l : Lo} (hk : splitVal k = (h, l))
    (hB : B k) {s' : S} {u' : T} {c' : C} {w : V} (hc : LC.abs c h = none)
    (hi : LC.Inv c') (hc' : LC.abs c' = (LC.abs c).upd h (some u')) (hu : LT.Inv u')
    (hu' : LT.abs u' = Map.single l w) (hs : LS.Inv s') (hs' : LS.abs s' = (LS.abs s).upd h (some ())) :
    ChInv B s' c' ∧ cmap K c' = (cmap K c).upd k (some w) := by
  have hcm : cmap K c' = (cmap K c).upd k (some w) :=
    cmap_upd (m := Map.empty) (m' := LT.abs u') hk (by simp [hc]) (by simp) hu' hc'
  refine ⟨⟨hs, hi, ?_, ?_, ?_, ?_⟩, hcm⟩
  · intro h'
    rw [hc', Map.mem_upd_some, hs', Map.mem_upd_some, I.sum]
  · intro h' t ht
    rw [hc', Map.upd_apply] at ht
    split at ht
    · obtain rfl := Option.some.inj ht; exact hu
    · exact I.child h' t ht
  · intro h' t l' ht hl'
    rw [hc', Map.upd_apply] at ht
    split at ht
    · rename_i he
      subst he
      obtain rfl := Option.some.inj ht
      rw [hu', Map.mem_single] at hl'
      subst hl'
      rw [join_of_split hk, hk]
    · exact I.good h' t l' ht hl'
  · intro j hj
    rw [hcm, Map.mem_upd_some] at hj
    rcases hj with rfl | hj
    · exact hB
    · exact I.bound j hj

/-- The first child. -/
theorem first_child {k : K} {h : Hi} {l : Lo} (hk : splitVal k = (h, l)) (hB : B k)
    {s' : S} {u' : T} {c' : C} {w : V} (hi : LC.Inv c') (hc' : LC.abs c' = Map.single h u')
    (hu : LT.Inv u') (hu' : LT.abs u' = Map.single l w) (hs : LS.Inv s')
    (hs' : LS.abs s' = Map.single h ()) :
    ChInv B s' c' ∧ cmap K c' = (Map.empty : Map K V).upd k (some w) := by
  have hcm : cmap K c' = (Map.empty : Map K V).upd k (some w) := by
    funext j
    simp only [cmap, hc', Map.single_apply, Map.upd_apply, Map.empty_apply]
    by_cases h3 : (splitVal j).1 = h
    · have : (splitVal j).2 = l ↔ j = k := by
        constructor
        · intro h4
          exact split_inj (K := K) (by rw [hk, ← h3, ← h4])
        · rintro rfl; rw [hk]
      simp [h3, hu', Map.single_apply, this]
    · have : j ≠ k := by rintro rfl; exact h3 (by rw [hk])
      simp [h3, this]
  refine ⟨⟨hs, hi, ?_, ?_, ?_, ?_⟩, hcm⟩
  · intro h'
    rw [hc', Map.mem_single, hs', Map.mem_single]
  · intro h' t ht
    rw [hc', Map.single_apply] at ht
    split at ht
    · obtain rfl := Option.some.inj ht; exact hu
    · simp at ht
  · intro h' t l' ht hl'
    rw [hc', Map.single_apply] at ht
    split at ht
    · rename_i he
      subst he
      obtain rfl := Option.some.inj ht
      rw [hu', Map.mem_single] at hl'
      subst hl'
      rw [join_of_split hk, hk]
    · simp at ht
  · intro j hj
    rw [hcm, Map.mem_upd_some] at hj
    rcases hj with rfl | hj
    · exact hB
    · simp at hj

/-- Removing the last entry empties the collection. -/
theorem remove_last {k : K} {h : Hi} {l : Lo} (hk : splitVal k = (h, l)) {u : T}
    (hc : LC.abs c h = some u) {o : Option T} (ho : RemOk LT.Inv LT.abs ((LT.abs u).upd l none) o)
    (hr : CollRemOk LC.Inv LC.abs c h o (none : Option (C × Bool))) :
    (cmap K c).upd k none = Map.empty := by
  obtain ⟨rfl, hr⟩ := hr
  funext j
  rw [Map.upd_apply]
  split
  · rfl
  · rename_i hj
    by_contra hm
    obtain ⟨u', hu', hl'⟩ := cmap_mem.1 hm
    by_cases h1 : (splitVal j).1 = h
    · rw [h1, hc] at hu'
      obtain rfl := Option.some.inj hu'
      have h2 : (splitVal j).2 ≠ l := fun h2 => hj (split_inj (K := K) (by rw [hk, ← h1, ← h2]))
      have h3 := congrFun ho (splitVal j).2
      rw [Map.upd_ne _ _ h2] at h3
      exact hl' h3
    · have h3 := congrFun hr (splitVal j).1
      rw [Map.upd_ne _ _ h1, hu'] at h3
      simp at h3

/-- Removing an entry; the child stays. -/
theorem remove_keep (I : ChInv B s c) {k : K} {h : Hi} {l : Lo} (hk : splitVal k = (h, l)) {u : T}
    (hc : LC.abs c h = some u) {o : Option T} (ho : RemOk LT.Inv LT.abs ((LT.abs u).upd l none) o)
    {c' : C} (hr : CollRemOk LC.Inv LC.abs c h o (some (c', false))) :
    ChInv B s c' ∧ cmap K c' = (cmap K c).upd k none := by
  obtain ⟨ho', hi, hc'⟩ := hr
  obtain ⟨u', rfl⟩ : ∃ u', o = some u' := by
    cases o with
    | none => simp at ho'
    | some u' => exact ⟨u', rfl⟩
  obtain ⟨hu, hu'⟩ := ho
  have hcm : cmap K c' = (cmap K c).upd k none :=
    cmap_upd (m := LT.abs u) (m' := LT.abs u') hk (by simp [hc]) (by simp) hu' hc'
  refine ⟨⟨I.sInv, hi, ?_, ?_, ?_, ?_⟩, hcm⟩
  · intro h'
    rw [I.sum, hc', Map.mem_upd_some]
    constructor
    · exact .inr
    · rintro (rfl | h3)
      · exact Map.mem_of hc
      · exact h3
  · intro h' t ht
    rw [hc', Map.upd_apply] at ht
    split at ht
    · obtain rfl := Option.some.inj ht; exact hu
    · exact I.child h' t ht
  · intro h' t l' ht hl'
    rw [hc', Map.upd_apply] at ht
    split at ht
    · rename_i he
      subst he
      obtain rfl := Option.some.inj ht
      rw [hu', Map.mem_upd_none] at hl'
      exact I.good _ u l' hc hl'.2
    · exact I.good h' t l' ht hl'
  · intro j hj
    rw [hcm, Map.mem_upd_none] at hj
    exact I.bound j hj.2

/-- Removing an entry together with its child: the summary loses `h` but is not empty. -/
theorem remove_drop (I : ChInv B s c) {k : K} {h : Hi} {l : Lo} (hk : splitVal k = (h, l)) {u : T}
    (hc : LC.abs c h = some u) {o : Option T} (ho : RemOk LT.Inv LT.abs ((LT.abs u).upd l none) o)
    {c' : C} (hr : CollRemOk LC.Inv LC.abs c h o (some (c', true))) {so : Option S}
    (hso : RemOk LS.Inv LS.abs ((LS.abs s).upd h none) so) :
    ∃ s', so = some s' ∧ ChInv B s' c' ∧ cmap K c' = (cmap K c).upd k none := by
  obtain ⟨ho', hi, hc'⟩ := hr
  obtain rfl : o = none := by
    cases o with
    | none => rfl
    | some u' => simp at ho'
  replace ho : (LT.abs u).upd l none = Map.empty := ho
  have hcm : cmap K c' = (cmap K c).upd k none :=
    cmap_upd (m := LT.abs u) (m' := Map.empty) hk (by simp [hc]) (by simp) ho.symm hc'
  have hsum : ∀ h', ((LS.abs s).upd h none).Mem h' ↔ (LC.abs c').Mem h' := by
    intro h'
    rw [Map.mem_upd_none, I.sum, hc', Map.mem_upd_none]
  cases so with
  | none =>
    exfalso
    replace hso : (LS.abs s).upd h none = Map.empty := hso
    obtain ⟨h', hh'⟩ := LC.nonempty c' hi
    rw [← hsum, hso] at hh'
    exact Map.mem_empty _ hh'
  | some s' =>
    obtain ⟨hs, hs'⟩ := hso
    refine ⟨s', rfl, ⟨hs, hi, ?_, ?_, ?_, ?_⟩, hcm⟩
    · intro h'; rw [hs', hsum]
    · intro h' t ht
      rw [hc', Map.upd_apply] at ht
      split at ht
      · simp at ht
      · exact I.child h' t ht
    · intro h' t l' ht hl'
      rw [hc', Map.upd_apply] at ht
      split at ht
      · simp at ht
      · exact I.good h' t l' ht hl'
    · intro j hj
      rw [hcm, Map.mem_upd_none] at hj
      exact I.bound j hj.2

end ChInv

end Veb
