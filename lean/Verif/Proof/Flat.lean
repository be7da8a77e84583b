import Verif.SpecFlat
import Verif.Proof.Tree
import Verif.Proof.SLLemmas
import Verif.Proof.Same
import Verif.Proof.Open

/-!
A `Tree` with lawful parts, spoiled or not, does what the machine `Flat` does.
-/

set_option autoImplicit false
set_option linter.unusedSectionVars false

namespace Veb
namespace Tree
variable {K V S C Hi Lo T : Type} [LinearOrder K] [LinearOrder Hi] [LinearOrder Lo]
  [VebKey K Hi Lo] [VebKeyRef K Hi Lo] [LK : LawfulVebKey K Hi Lo]
  [VebTree S Hi Unit] [LS : LawfulVebTree S Hi Unit]
  [VebTree T Lo V] [LT : LawfulVebTree T Lo V]
  [TreeCollection C Hi T Lo V] [LC : LawfulColl C Hi T Lo V]

open VebKey (splitVal join)

/-- no condition on the keys -/
abbrev Any (K : Type) : K → Prop := fun _ => True

/-- The tree and the machine have the same minimum, maximum and inner entries. -/
inductive Sim : Tree K V S C → Flat K V → Prop
  | one (e : K × V) : Sim ⟨e, none⟩ ⟨e, none⟩
  | more {mn mx : K × V} {ch : Option (S × C)} {l : SL K V} (h : ChOK (Any K) ch) (hl : SL.Lists l (chmap K ch)) :
    Sim ⟨mn, some ⟨mx, ch⟩⟩ ⟨mn, some (mx, l)⟩

theorem Sim.min {t : Tree K V S C} {f : Flat K V} (h : Sim t f) : f.min = t.min := by cases h <;> rfl

/-- an empty inner list -/
theorem lists_none {l : SL K V} (hl : SL.Lists l (chmap K (none : Option (S × C)))) : l = [] := hl.nil_iff.2 rfl

/-! ### references -/

theorem sim_min {t : Tree K V S C} {f : Flat K V} (h : Sim t f) :
    MutX id id Sim (t.min.1, t.min.2, t.putMin) (f.write (.min, f.min)) := by
  cases h with
  | one e => exact ⟨rfl, rfl, fun w => .one _⟩
  | more h hl => exact ⟨rfl, rfl, fun w => .more h hl⟩

theorem sim_max {mn mx : K × V} {ch : Option (S × C)} {l : SL K V} (h : ChOK (Any K) ch) (hl : SL.Lists l (chmap K ch)) :
    MutX id id Sim (mx.1, mx.2, (⟨mn, some ⟨mx, ch⟩⟩ : Tree K V S C).putMax ⟨mx, ch⟩)
      ((⟨mn, some (mx, l)⟩ : Flat K V).write (.max, mx)) :=
  ⟨rfl, rfl, fun _ => .more h hl⟩

/-- writing to `k` leaves good children -/
def PutCh (s : S) (c : C) (k : K) (put : V → C) : Prop :=
  ∀ w, ChInv (Any K) s (put w) ∧ cmap K (put w) = (cmap K c).upd k (some w)

theorem putCh {s : S} {c : C} (I : ChInv (Any K) s c) {hi : Hi} {lo : Lo} {u : T} {v : V}
    (hu : LC.abs c hi = some u) (hl : LT.abs u lo = some v) {putC : T → C}
    (hputC : ∀ u, LC.Inv (putC u) ∧ LC.abs (putC u) = (LC.abs c).upd hi (some u)) {put : V → T}
    (hput : PutOk LT.Inv LT.abs u lo put) : PutCh (K := K) s c (join hi lo) fun w => putC (put w) := fun w =>
  I.set_child (I.good hi u lo hu (Map.mem_of hl)) trivial hu (hputC (put w)).1 (hputC (put w)).2 (hput w).1 (hput w).2

theorem sim_inner {mn mx : K × V} {s : S} {c : C} {l : SL K V} (hl : SL.Lists l (cmap K c)) {k : K} {v : V}
    (hk : cmap K c k = some v) {put : V → C} (hp : PutCh (K := K) s c k put) :
    MutX id id Sim (k, v, fun w => (⟨mn, some ⟨mx, some (s, c)⟩⟩ : Tree K V S C).putChildren ⟨mx, some (s, c)⟩ s (put w))
      ((⟨mn, some (mx, l)⟩ : Flat K V).write (.inner, k, v)) := by
  refine ⟨rfl, rfl, fun w => .more (hp w).1 ?_⟩
  have := hl.set w (Map.mem_of hk)
  rw [← (hp w).2] at this
  exact this

/-! ### extremes and neighbours among the children -/

theorem fl_max {s : S} {c : C} {l : SL K V} (I : ChInv (Any K) s c) (hl : SL.Lists l (cmap K c)) :
    ∃ hi u lo val putC put, VebTree.maxVal s = .ok (hi, ()) ∧ TreeCollection.get c hi = .ok (some u) ∧
      VebTree.maxVal u = .ok (lo, val) ∧ TreeCollection.getMut c hi = .ok (some (u, putC)) ∧
      VebTree.maxValMut u = .ok (lo, val, put) ∧ SL.maxE l = some (join hi lo, val) ∧
      cmap K c (join hi lo) = some val ∧ PutCh (K := K) s c (join hi lo) fun w => putC (put w) := by
  obtain ⟨hi, u, lo, val, h1, h2, h2', h3, _, h3', h4⟩ := ch_max I
  obtain ⟨putC, hp, hpc⟩ := LC.getMut_some _ _ _ I.cInv h2
  obtain ⟨⟨lo'', v'', put⟩, hr, hr1, hr2⟩ := LT.maxValMut u h2'
  cases hr1.unique h3'
  exact ⟨hi, u, _, _, putC, put, h1, by rw [LC.get _ _ I.cInv, h2], h3, hp, hr, hl.maxE.2 h4, h4.1,
    putCh I h2 h3'.1 hpc hr2⟩

theorem fl_min {s : S} {c : C} {l : SL K V} (I : ChInv (Any K) s c) (hl : SL.Lists l (cmap K c)) :
    ∃ hi u lo val putC put, VebTree.minVal s = .ok (hi, ()) ∧ TreeCollection.get c hi = .ok (some u) ∧
      VebTree.minVal u = .ok (lo, val) ∧ TreeCollection.getMut c hi = .ok (some (u, putC)) ∧
      VebTree.minValMut u = .ok (lo, val, put) ∧ SL.minE l = some (join hi lo, val) ∧
      cmap K c (join hi lo) = some val ∧ PutCh (K := K) s c (join hi lo) fun w => putC (put w) := by
  obtain ⟨hi, u, lo, val, h1, h2, h2', h3, _, h3', h4⟩ := ch_min I
  obtain ⟨putC, hp, hpc⟩ := LC.getMut_some _ _ _ I.cInv h2
  obtain ⟨⟨lo'', v'', put⟩, hr, hr1, hr2⟩ := LT.minValMut u h2'
  cases hr1.unique h3'
  exact ⟨hi, u, _, _, putC, put, h1, by rw [LC.get _ _ I.cInv, h2], h3, hp, hr, hl.minE.2 h4, h4.1,
    putCh I h2 h3'.1 hpc hr2⟩

/-- what the code after the failed search in the child does -/
theorem fl_pred {s : S} {c : C} {l : SL K V} (I : ChInv (Any K) s c) (hl : SL.Lists l (cmap K c)) {k : K}
    {hi : Hi} {lo : Lo} (hs : splitVal k = (hi, lo)) (hno : ∀ u, LC.abs c hi = some u → (LT.abs u).IsPred lo none) :
    (VebTree.predecessor s hi = .ok none ∧ SL.pred l k = none) ∨
    ∃ hi' u lo' v putC put, VebTree.predecessor s hi = .ok (some (hi', ())) ∧ TreeCollection.get c hi' = .ok (some u) ∧
      VebTree.maxVal u = .ok (lo', v) ∧ TreeCollection.getMut c hi' = .ok (some (u, putC)) ∧
      VebTree.maxValMut u = .ok (lo', v, put) ∧ SL.pred l k = some (join hi' lo', v) ∧
      cmap K c (join hi' lo') = some v ∧ PutCh (K := K) s c (join hi' lo') fun w => putC (put w) := by
  rcases ch_predecessor I hs hno with ⟨h1, h2⟩ | ⟨hi', u', lo', v, h1, h2, h2', h3, h3', h4⟩
  · exact .inl ⟨h1, (hl.pred_eq h2).symm⟩
  · obtain ⟨putC, hp, hpc⟩ := LC.getMut_some _ _ _ I.cInv h2
    obtain ⟨⟨lo'', v'', put⟩, hr, hr1, hr2⟩ := LT.maxValMut u' h2'
    cases hr1.unique h3'
    exact .inr ⟨hi', u', _, _, putC, put, h1, by rw [LC.get _ _ I.cInv, h2], h3, hp, hr, (hl.pred_eq h4).symm, h4.1,
      putCh I h2 h3'.1 hpc hr2⟩

theorem fl_succ {s : S} {c : C} {l : SL K V} (I : ChInv (Any K) s c) (hl : SL.Lists l (cmap K c)) {k : K}
    {hi : Hi} {lo : Lo} (hs : splitVal k = (hi, lo)) (hno : ∀ u, LC.abs c hi = some u → (LT.abs u).IsSucc lo none) :
    (VebTree.successor s hi = .ok none ∧ SL.succ l k = none) ∨
    ∃ hi' u lo' v putC put, VebTree.successor s hi = .ok (some (hi', ())) ∧ TreeCollection.get c hi' = .ok (some u) ∧
      VebTree.minVal u = .ok (lo', v) ∧ TreeCollection.getMut c hi' = .ok (some (u, putC)) ∧
      VebTree.minValMut u = .ok (lo', v, put) ∧ SL.succ l k = some (join hi' lo', v) ∧
      cmap K c (join hi' lo') = some v ∧ PutCh (K := K) s c (join hi' lo') fun w => putC (put w) := by
  rcases ch_successor I hs hno with ⟨h1, h2⟩ | ⟨hi', u', lo', v, h1, h2, h2', h3, h3', h4⟩
  · exact .inl ⟨h1, (hl.succ_eq h2).symm⟩
  · obtain ⟨putC, hp, hpc⟩ := LC.getMut_some _ _ _ I.cInv h2
    obtain ⟨⟨lo'', v'', put⟩, hr, hr1, hr2⟩ := LT.minValMut u' h2'
    cases hr1.unique h3'
    exact .inr ⟨hi', u', _, _, putC, put, h1, by rw [LC.get _ _ I.cInv, h2], h3, hp, hr, (hl.succ_eq h4).symm, h4.1,
      putCh I h2 h3'.1 hpc hr2⟩

/-! ### the queries -/

theorem flat_find {t : Tree K V S C} {f : Flat K V} (h : Sim t f) (k : K) :
    t.find k = .ok ((f.lookup k).map Prod.snd) ∧
    ∃ r, t.findMut k = .ok r ∧ Option.Rel (MutX id id Sim) r ((f.lookup k).map f.write) := by
  have hm := sim_min h
  have hmin := h.min
  rcases lt_trichotomy k t.min.1 with hk | hk | hk
  · simp only [find, findMut, Flat.lookup, hmin, cmp_lt hk, hk, if_true]
    exact ⟨rfl, _, rfl, .none⟩
  · simp only [find, findMut, Flat.lookup, hmin, hk, cmp_self, lt_irrefl, if_false, if_true]
    rw [hmin] at hm
    exact ⟨rfl, _, rfl, .some hm⟩
  · simp only [find, findMut, Flat.lookup, hmin, cmp_gt hk, not_lt.2 hk.le, hk.ne', if_false]
    cases h with
    | one e => exact ⟨rfl, _, rfl, .none⟩
    | @more mn mx ch l h hl =>
      by_cases hx : k = mx.1
      · simp only [hx, if_true]
        exact ⟨rfl, _, rfl, .some (sim_max h hl)⟩
      · simp only [hx, if_false]
        obtain _ | ⟨s, c⟩ := ch
        · obtain rfl := lists_none hl
          exact ⟨rfl, _, rfl, .none⟩
        · have I : ChInv (Any K) s c := h
          simp only [LK.ref_eq, hl.find, chmap]
          rcases hs : splitVal k with ⟨hi, lo⟩
          have hj := join_of_split hs
          rcases hc : LC.abs c hi with _ | u
          · simp only [LC.get _ _ I.cInv, LC.getMut_none _ _ I.cInv hc, R.ok_bind, hc, cmap_split hs, Option.bind_none]
            exact ⟨rfl, _, rfl, .none⟩
          · obtain ⟨putC, hp, hpc⟩ := LC.getMut_some _ _ _ I.cInv hc
            obtain ⟨r, hr, hr1, hr2⟩ := LT.findMut u lo (I.child _ _ hc)
            have hcm : cmap K c k = LT.abs u lo := by rw [cmap_split hs, hc, Option.bind_some]
            simp only [LC.get _ _ I.cInv, hc, LT.find _ _ (I.child _ _ hc), hp, hr, R.ok_bind]
            rw [hcm]
            rcases hv : LT.abs u lo with _ | v
            · rw [hv] at hr1
              obtain rfl : r = none := by simpa using hr1
              exact ⟨rfl, _, rfl, .none⟩
            · rw [hv] at hr1 hcm
              obtain ⟨⟨lo', v', put⟩, rfl⟩ : ∃ p, r = some p := by
                cases r with
                | none => simp at hr1
                | some p => exact ⟨p, rfl⟩
              simp only [Option.map_some, Option.some.injEq, Prod.mk.injEq] at hr1
              obtain ⟨rfl, rfl⟩ := hr1
              have hpp := putCh I hc hv hpc (hr2 _ _ _ rfl)
              rw [hj] at hpp
              simp only [Option.map_some, hj, Flat.inner]
              exact ⟨rfl, _, rfl, .some (sim_inner hl hcm hpp)⟩

theorem flat_predecessor {t : Tree K V S C} {f : Flat K V} (h : Sim t f) (k : K) :
    t.predecessor k = .ok ((f.before k).map Prod.snd) ∧
    ∃ r, t.predecessorMut k = .ok r ∧ Option.Rel (MutX id id Sim) r ((f.before k).map f.write) := by
  have hm := sim_min h
  have hmin := h.min
  by_cases hk : k ≤ t.min.1
  · simp only [predecessor, predecessorMut, Flat.before, hmin, hk, if_true]
    exact ⟨rfl, _, rfl, .none⟩
  simp only [predecessor, predecessorMut, Flat.before, hmin, hk, if_false]
  rw [hmin] at hm
  cases h with
  | one e => exact ⟨rfl, _, rfl, .some hm⟩
  | @more mn mx ch l h hl =>
    rcases lt_trichotomy k mx.1 with hx | hx | hx
    · simp only [cmp_lt hx, not_lt.2 hx.le, hx.ne, if_false]
      obtain _ | ⟨s, c⟩ := ch
      · obtain rfl := lists_none hl
        exact ⟨rfl, _, rfl, .some hm⟩
      · have I : ChInv (Any K) s c := h
        have hl' : SL.Lists l (cmap K c) := hl
        simp only [LK.ref_eq]
        rcases hs : splitVal k with ⟨hi, lo⟩
        have fin := fl_pred I hl' hs
        rcases hc : LC.abs c hi with _ | u
        · simp only [LC.get _ _ I.cInv, LC.getMut_none _ _ I.cInv hc, R.ok_bind, R.pure_eq, hc]
          rcases fin (by simp [hc]) with ⟨h1, h2⟩ | ⟨hi', u', lo', v, putC, put, h1, h2, h3, h4, h5, h6, h7, h8⟩
          · simp only [h1, h2, R.ok_bind]
            exact ⟨rfl, _, rfl, .some hm⟩
          · rw [LC.get _ _ I.cInv, Except.ok.injEq] at h2
            simp only [h1, h2, h3, h4, h5, h6, R.ok_bind, expect_some]
            exact ⟨rfl, _, rfl, .some (sim_inner hl' h7 h8)⟩
        · obtain ⟨putC, hp, hpc⟩ := LC.getMut_some _ _ _ I.cInv hc
          obtain ⟨r, hr, hr1, hr2⟩ := LT.predecessorMut u lo (I.child _ _ hc)
          obtain ⟨q, hq, hq1⟩ := LT.predecessor u lo (I.child _ _ hc)
          cases hq1.unique hr1
          simp only [LC.get _ _ I.cInv, hc, hp, hr, hq, R.ok_bind, R.pure_eq]
          obtain _ | ⟨lo', v, put⟩ := r
          · simp only [Option.map_none]
            rcases fin (by simpa [hc] using hr1) with ⟨h1, h2⟩ | ⟨hi', u', lo', v, putC, put, h1, h2, h3, h4, h5, h6, h7, h8⟩
            · simp only [h1, h2, R.ok_bind]
              exact ⟨rfl, _, rfl, .some hm⟩
            · rw [LC.get _ _ I.cInv, Except.ok.injEq] at h2
              simp only [h1, h2, h3, h4, h5, h6, R.ok_bind, expect_some]
              exact ⟨rfl, _, rfl, .some (sim_inner hl' h7 h8)⟩
          · have hpr := I.isPred_child hs hc hr1
            have h6 := (hl'.pred_eq hpr).symm
            simp only [Option.map_some, h6, mapPut]
            exact ⟨rfl, _, rfl, .some (sim_inner hl' hpr.1 (putCh I hc hr1.1 hpc (hr2 _ _ _ rfl)))⟩
    · have hk' : mn.1 < k := not_le.1 hk
      simp only [hx, cmp_self, lt_irrefl, if_false, if_true]
      obtain _ | ⟨s, c⟩ := ch
      · obtain rfl := lists_none hl
        exact ⟨rfl, _, rfl, .some hm⟩
      · have I : ChInv (Any K) s c := h
        have hl' : SL.Lists l (cmap K c) := hl
        obtain ⟨hi', u', lo', v, putC, put, h1, h2, h3, h4, h5, h6, h7, h8⟩ := fl_max I hl'
        rw [hx] at hk'
        simp only [h1, h2, h3, h4, h5, h6, R.ok_bind, expect_some, debugAssert, hk', decide_true, if_true, R.pure_eq]
        exact ⟨rfl, _, rfl, .some (sim_inner hl' h7 h8)⟩
    · simp only [cmp_gt hx, hx, if_true]
      exact ⟨rfl, _, rfl, .some (sim_max h hl)⟩

theorem flat_successor {t : Tree K V S C} {f : Flat K V} (h : Sim t f) (k : K) :
    t.successor k = .ok ((f.after k).map Prod.snd) ∧
    ∃ r, t.successorMut k = .ok r ∧ Option.Rel (MutX id id Sim) r ((f.after k).map f.write) := by
  have hm := sim_min h
  have hmin := h.min
  rw [hmin] at hm
  by_cases hk : k < t.min.1
  · simp only [successor, successorMut, Flat.after, hmin, hk, if_true]
    exact ⟨rfl, _, rfl, .some hm⟩
  simp only [successor, successorMut, Flat.after, hmin, hk, if_false]
  cases h with
  | one e => exact ⟨rfl, _, rfl, .none⟩
  | @more mn mx ch l h hl =>
    by_cases hx : mx.1 ≤ k
    · simp only [hx, if_true]
      exact ⟨rfl, _, rfl, .none⟩
    simp only [hx, if_false]
    obtain _ | ⟨s, c⟩ := ch
    · obtain rfl := lists_none hl
      have : (if k = mn.1 then SL.minE ([] : SL K V) else SL.succ [] k) = none := by split <;> rfl
      simp only [this]
      exact ⟨rfl, _, rfl, .some (sim_max h hl)⟩
    · have I : ChInv (Any K) s c := h
      have hl' : SL.Lists l (cmap K c) := hl
      by_cases he : k = mn.1
      · simp only [he, if_true]
        obtain ⟨hi', u', lo', v, putC, put, h1, h2, h3, h4, h5, h6, h7, h8⟩ := fl_min I hl'
        simp only [h1, h2, h3, h4, h5, h6, R.ok_bind, expect_some]
        exact ⟨rfl, _, rfl, .some (sim_inner hl' h7 h8)⟩
      simp only [he, if_false, LK.ref_eq]
      rcases hs : splitVal k with ⟨hi, lo⟩
      have fin := fl_succ I hl' hs
      rcases hc : LC.abs c hi with _ | u
      · simp only [LC.get _ _ I.cInv, LC.getMut_none _ _ I.cInv hc, R.ok_bind, R.pure_eq, hc]
        rcases fin (by simp [hc]) with ⟨h1, h2⟩ | ⟨hi', u', lo', v, putC, put, h1, h2, h3, h4, h5, h6, h7, h8⟩
        · simp only [h1, h2, R.ok_bind]
          exact ⟨rfl, _, rfl, .some (sim_max h hl)⟩
        · rw [LC.get _ _ I.cInv, Except.ok.injEq] at h2
          simp only [h1, h2, h3, h4, h5, h6, R.ok_bind, expect_some]
          exact ⟨rfl, _, rfl, .some (sim_inner hl' h7 h8)⟩
      · obtain ⟨putC, hp, hpc⟩ := LC.getMut_some _ _ _ I.cInv hc
        obtain ⟨r, hr, hr1, hr2⟩ := LT.successorMut u lo (I.child _ _ hc)
        obtain ⟨q, hq, hq1⟩ := LT.successor u lo (I.child _ _ hc)
        cases hq1.unique hr1
        simp only [LC.get _ _ I.cInv, hc, hp, hr, hq, R.ok_bind, R.pure_eq]
        obtain _ | ⟨lo', v, put⟩ := r
        · simp only [Option.map_none]
          rcases fin (by simpa [hc] using hr1) with ⟨h1, h2⟩ | ⟨hi', u', lo', v, putC, put, h1, h2, h3, h4, h5, h6, h7, h8⟩
          · simp only [h1, h2, R.ok_bind]
            exact ⟨rfl, _, rfl, .some (sim_max h hl)⟩
          · rw [LC.get _ _ I.cInv, Except.ok.injEq] at h2
            simp only [h1, h2, h3, h4, h5, h6, R.ok_bind, expect_some]
            exact ⟨rfl, _, rfl, .some (sim_inner hl' h7 h8)⟩
        · have hpr := I.isSucc_child hs hc hr1
          have h6 := (hl'.succ_eq hpr).symm
          simp only [Option.map_some, h6, mapPut]
          exact ⟨rfl, _, rfl, .some (sim_inner hl' hpr.1 (putCh I hc hr1.1 hpc (hr2 _ _ _ rfl)))⟩

/-! ### insertion and removal -/

theorem flat_store (hS : ∀ P k, LS.Safe P k) (hT : ∀ P k, LT.Safe P k) {mn mx : K × V} {ch : Option (S × C)}
    {l : SL K V} (h : ChOK (Any K) ch) (hl : SL.Lists l (chmap K ch)) (e : K × V) :
    ∃ t', insertBelow mn ⟨mx, ch⟩ e.1 e.2 = .ok (t', (Flat.store mn mx l e).2) ∧ Sim t' (Flat.store mn mx l e).1 := by
  obtain ⟨ch', e1, e2, e3⟩ := insertBelow_ok (mn := mn) (mx := mx) (k := e.1) (v := e.2) h trivial
    fun s c _ => ⟨fun u _ => hT _ _, fun _ => hS _ _⟩
  refine ⟨_, by rw [e1, Flat.store, hl.find], .more e2 ?_⟩
  rw [e3]
  exact hl.insert _ _

theorem flat_insert (hS : ∀ P k, LS.Safe P k) (hT : ∀ P k, LT.Safe P k) {t : Tree K V S C} {f : Flat K V} (h : Sim t f)
    (k : K) (v : V) : ∃ t', t.insert k v = .ok (t', (f.insert k v).2) ∧ Sim t' (f.insert k v).1 := by
  have hmin := h.min
  rcases lt_trichotomy k t.min.1 with hk | hk | hk
  · simp only [insert, Flat.insert, hmin, cmp_lt hk, hk.ne, hk, if_false, if_true]
    cases h with
    | one e => exact ⟨_, rfl, .more trivial SL.lists_nil⟩
    | @more mn mx ch l h hl =>
      rcases lt_trichotomy mx.1 mn.1 with hx | hx | hx
      · simp only [cmp_lt hx, hx.ne, not_lt.2 hx.le, if_false]
        exact flat_store hS hT h hl _
      · simp only [hx, cmp_self, if_true]
        exact ⟨_, rfl, .more h hl⟩
      · simp only [cmp_gt hx, hx.ne', hx, if_false, if_true]
        exact flat_store hS hT h hl _
  · simp only [insert, Flat.insert, hmin, hk, cmp_self, if_true]
    cases h with
    | one e => exact ⟨_, rfl, .one _⟩
    | more h hl => exact ⟨_, rfl, .more h hl⟩
  · simp only [insert, Flat.insert, hmin, cmp_gt hk, hk.ne', not_lt.2 hk.le, if_false]
    cases h with
    | one e => exact ⟨_, rfl, .more trivial SL.lists_nil⟩
    | @more mn mx ch l h hl =>
      rcases lt_trichotomy k mx.1 with hx | hx | hx
      · simp only [cmp_lt hx, hx.ne, not_lt.2 hx.le, if_false]
        exact flat_store hS hT h hl (k, v)
      · simp only [hx, cmp_self, if_true]
        exact ⟨_, rfl, .more h hl⟩
      · simp only [cmp_gt hx, hx.ne', hx, if_false, if_true]
        exact flat_store hS hT h hl _

theorem flat_removeMin {t : Tree K V S C} {f : Flat K V} (h : Sim t f) :
    ∃ o, t.removeMin = .ok (o, f.min) ∧ Option.Rel Sim o f.popMin := by
  cases h with
  | one e => exact ⟨none, rfl, .none⟩
  | @more mn mx ch l h hl =>
    obtain _ | ⟨s, c⟩ := ch
    · obtain rfl := lists_none hl
      exact ⟨_, rfl, .some (.one _)⟩
    · have I : ChInv (Any K) s c := h
      have hl' : SL.Lists l (cmap K c) := hl
      obtain ⟨hi, lo, val, res, h1, h2, h3, ch', h4, h5, h6⟩ := ch_removeMin I
      refine ⟨some ⟨(join hi lo, val), some ⟨mx, ch'⟩⟩, ?_, ?_⟩
      · rcases h6 with ⟨rfl, rfl⟩ | ⟨c', rfl, rfl⟩ | ⟨c', s', x, rfl, hx, rfl⟩
        · simp [removeMin, h1, h2]
        · simp [removeMin, h1, h2]
        · simp [removeMin, h1, h2, hx]
      · simp only [Flat.popMin, hl'.minE.2 h3]
        refine .some (.more h4 ?_)
        rw [h5]
        exact hl'.erase _

theorem flat_removeMax {t : Tree K V S C} {f : Flat K V} (h : Sim t f) :
    ∃ o, t.removeMax = .ok (o, f.top.2) ∧ Option.Rel Sim o f.popMax := by
  cases h with
  | one e => exact ⟨none, rfl, .none⟩
  | @more mn mx ch l h hl =>
    obtain _ | ⟨s, c⟩ := ch
    · obtain rfl := lists_none hl
      exact ⟨_, rfl, .some (.one _)⟩
    · have I : ChInv (Any K) s c := h
      have hl' : SL.Lists l (cmap K c) := hl
      obtain ⟨hi, lo, val, res, h1, h2, h3, ch', h4, h5, h6⟩ := ch_removeMax I
      refine ⟨some ⟨mn, some ⟨(join hi lo, val), ch'⟩⟩, ?_, ?_⟩
      · rcases h6 with ⟨rfl, rfl⟩ | ⟨c', rfl, rfl⟩ | ⟨c', s', x, rfl, hx, rfl⟩
        · simp [removeMax, h1, h2, Flat.top]
        · simp [removeMax, h1, h2, Flat.top]
        · simp [removeMax, h1, h2, hx, Flat.top]
      · simp only [Flat.popMax, hl'.maxE.2 h3]
        refine .some (.more h4 ?_)
        rw [h5]
        exact hl'.erase _

theorem flat_remove {t : Tree K V S C} {f : Flat K V} (h : Sim t f) (k : K) :
    ∃ r, t.remove k = .ok r ∧ ResR (RemX id id Sim) Sim r (f.remove k) := by
  have hmin := h.min
  by_cases hk : k = t.min.1
  · obtain ⟨o, e1, e2⟩ := flat_removeMin h
    refine ⟨.Ok (o, f.min), by rw [remove, if_pos hk, e1]; rfl, ?_⟩
    rw [Flat.remove, hmin, if_pos hk]
    exact .ok ⟨e2, rfl⟩
  cases h with
  | one e =>
    replace hk : k ≠ e.1 := hk
    simp only [remove, Flat.remove, hk, if_false]
    exact ⟨_, rfl, .err (.one e)⟩
  | @more mn mx ch l h hl =>
    replace hk : k ≠ mn.1 := hk
    by_cases hx : k = mx.1
    · have hm : (⟨mn, some ⟨mx, ch⟩⟩ : Tree K V S C).remove k =
          (⟨mn, some ⟨mx, ch⟩⟩ : Tree K V S C).removeMax >>= fun r => pure (.Ok r) := by
        obtain _ | ⟨s, c⟩ := ch
        · simp [remove, removeMax, hk, hx.symm]
        · have hk' : mx.1 ≠ mn.1 := hx ▸ hk
          simp [remove, removeMax, hk', hx]
      obtain ⟨o, e1, e2⟩ := flat_removeMax (.more (mn := mn) (mx := mx) h hl)
      refine ⟨.Ok (o, mx), by rw [hm, e1]; rfl, ?_⟩
      simp only [Flat.remove, if_neg hk, if_pos hx]
      exact .ok ⟨e2, rfl⟩
    · simp only [remove, Flat.remove, hk, hx, Ne.symm hx, if_false]
      obtain _ | ⟨s, c⟩ := ch
      · obtain rfl := lists_none hl
        exact ⟨_, rfl, .err (.more h hl)⟩
      · have I : ChInv (Any K) s c := h
        have hl' : SL.Lists l (cmap K c) := hl
        rcases hs : splitVal k with ⟨hi, lo⟩
        simp only [LK.ref_eq, hs, hl'.find, cmap_split hs]
        rcases hc : LC.abs c hi with _ | u
        · simp only [LC.maybe_absent c hi _ I.cInv hc, R.ok_bind, Option.bind_none, Option.map_none]
          exact ⟨_, rfl, .err (.more h hl)⟩
        rcases hv : LT.abs u lo with _ | v
        · simp only [LC.maybe_err c hi u (fun v => VebTree.remove v lo) I.cInv hc
            (LT.remove_none u lo (I.child _ _ hc) hv), R.ok_bind, Option.bind_some, hv, Option.map_none]
          exact ⟨_, rfl, .err (.more h hl)⟩
        obtain ⟨o, hr, ho⟩ := LT.remove_some u lo v (I.child _ _ hc) hv
        obtain ⟨res, hres, hcr⟩ := LC.maybe_ok c hi u (fun v => VebTree.remove v lo) o (lo, v) I.cInv hc hr
        have her := hl'.erase k
        simp only [hres, R.ok_bind, Option.bind_some, hv, Option.map_some]
        obtain _ | ⟨c', _ | _⟩ := res
        · rw [ChInv.remove_last hs hc ho hcr] at her
          exact ⟨_, rfl, .ok ⟨.some (.more (ch := none) trivial her), by rw [← join_of_split hs]; rfl⟩⟩
        · obtain ⟨e1, e2⟩ := I.remove_keep hs hc ho hcr
          rw [← e2] at her
          exact ⟨_, rfl, .ok ⟨.some (.more (ch := some (s, c')) e1 her), by rw [← join_of_split hs]; rfl⟩⟩
        · obtain ⟨⟨⟩, hsv⟩ := Map.mem_iff.1 (I.sum_of_child hc)
          obtain ⟨so, hsr, hso⟩ := LS.remove_some s hi () I.sInv hsv
          obtain ⟨s', rfl, e1, e2⟩ := I.remove_drop hs hc ho hcr hso
          rw [← e2] at her
          simp only [hsr, R.ok_bind, R.pure_eq, expect_some]
          exact ⟨_, rfl, .ok ⟨.some (.more (ch := some (s', c')) e1 her), by rw [← join_of_split hs]; rfl⟩⟩

/-! ### the simulation -/

theorem sameFlat (hS : ∀ P k, LS.Safe P k) (hT : ∀ P k, LT.Safe P k) :
    SameTree (T := Tree K V S C) (T' := Flat K V) id id Sim := by
  have hopt : ∀ o : Option (K × V), o = o.map (kvf id id) := fun o => by cases o <;> rfl
  constructor
  case fromMonad => intro k v; exact .one _
  case isMonad =>
    intro t f h
    cases h with
    | one => exact .ok rfl
    | more => exact .ok rfl
  case intoMonad =>
    intro t f h
    cases h with
    | one => exact .ok (.ok rfl)
    | more h hl => exact .ok (.err (.more h hl))
  case minVal => intro t f h; exact .ok h.min
  case minValMut => intro t f h; exact .ok (sim_min h)
  case maxVal =>
    intro t f h
    cases h with
    | one => exact .ok rfl
    | more => exact .ok rfl
  case maxValMut =>
    intro t f h
    cases h with
    | one e => exact .ok (sim_min (.one e))
    | more h hl => exact .ok (sim_max h hl)
  case find =>
    intro t f h k
    have e := (flat_find h k).1
    show Rx _ (t.find k) _
    rw [e]
    exact .ok (hopt _)
  case findMut =>
    intro t f h k
    obtain ⟨r, e, hr⟩ := (flat_find h k).2
    show Rx _ (t.findMut k) _
    rw [e]
    exact .ok hr
  case predecessor =>
    intro t f h k
    have e := (flat_predecessor h k).1
    show Rx _ (t.predecessor k) _
    rw [e]
    exact .ok (hopt _)
  case predecessorMut =>
    intro t f h k
    obtain ⟨r, e, hr⟩ := (flat_predecessor h k).2
    show Rx _ (t.predecessorMut k) _
    rw [e]
    exact .ok hr
  case successor =>
    intro t f h k
    have e := (flat_successor h k).1
    show Rx _ (t.successor k) _
    rw [e]
    exact .ok (hopt _)
  case successorMut =>
    intro t f h k
    obtain ⟨r, e, hr⟩ := (flat_successor h k).2
    show Rx _ (t.successorMut k) _
    rw [e]
    exact .ok hr
  case insert =>
    intro t f h k v
    obtain ⟨t', e, ht⟩ := flat_insert hS hT h k v
    show Rx _ (t.insert k v) _
    rw [e]
    exact .ok ⟨ht, hopt _⟩
  case remove =>
    intro t f h k
    obtain ⟨r, e, hr⟩ := flat_remove h k
    show Rx _ (t.remove k) _
    rw [e]
    exact .ok hr
  case removeMin =>
    intro t f h
    obtain ⟨o, e, ho⟩ := flat_removeMin h
    show Rx _ t.removeMin _
    rw [e]
    exact .ok ⟨ho, rfl⟩
  case removeMax =>
    intro t f h
    obtain ⟨o, e, ho⟩ := flat_removeMax h
    show Rx _ t.removeMax _
    rw [e]
    exact .ok ⟨ho, rfl⟩

end Tree

/-! ## The machine alone -/

namespace Flat
variable {K V : Type} [LinearOrder K]

theorem step_total (f : Option (Flat K V)) (op : Op K V) : ∃ r, Exec.step f op = .ok r := by
  cases f with
  | none => cases op <;> exact ⟨_, rfl⟩
  | some f =>
    cases op with
    | remove k =>
      simp only [Exec.step, Exec.stepTree, VebTree.remove, R.pure_eq, R.ok_bind]
      cases f.remove k <;> exact ⟨_, rfl⟩
    | intoMonad =>
      simp only [Exec.step, Exec.stepTree, VebTree.intoMonad, R.pure_eq, R.ok_bind]
      by_cases h : f.rest.isNone
      · simp only [h, if_true]; exact ⟨_, rfl⟩
      · simp only [h]; exact ⟨_, rfl⟩
    | _ => exact ⟨_, rfl⟩

theorem run_total (f : Option (Flat K V)) (ops : List (Op K V)) : ∃ r, Exec.run f ops = .ok r := by
  induction ops generalizing f with
  | nil => exact ⟨_, rfl⟩
  | cons op ops ih =>
    obtain ⟨⟨f', o⟩, e⟩ := step_total f op
    obtain ⟨r, e'⟩ := ih f'
    exact ⟨_, by simp only [Exec.run, e, R.ok_bind, e']; rfl⟩

/-- keys split into themselves and nothing -/
@[reducible] def idKey : VebKey K K Unit where
  splitVal k := (k, ())
  join k _ := k
@[reducible] def idKeyRef : VebKeyRef K K Unit := { splitRef := fun k => (k, ()) }

theorem goodKey_id : @GoodKey K K Unit _ _ _ idKey idKeyRef :=
  letI := idKey (K := K)
  letI := idKeyRef (K := K)
  ⟨fun _ => rfl, fun _ => rfl, fun _ _ => ⟨.inl, fun h => h.elim id fun h => absurd h.2 (lt_irrefl _)⟩⟩

theorem erase_head {e : K × V} {l : SL K V} (h : SL.Sorted (e :: l)) : SL.erase (e :: l) e.1 = l := by
  simp only [SL.erase, ne_eq, decide_not]
  rw [List.filter_cons_of_neg (by simp), List.filter_eq_self]
  intro p hp
  simpa using (h.head p hp).ne'

theorem erase_last {e : K × V} {l : SL K V} (h : SL.Sorted (l ++ [e])) : SL.erase (l ++ [e]) e.1 = l := by
  simp only [SL.erase, ne_eq, decide_not, List.filter_append]
  rw [List.filter_cons_of_neg (by simp), List.filter_nil, List.append_nil, List.filter_eq_self]
  intro p hp
  simpa using ((List.pairwise_append.1 h).2.2 p hp e (by simp)).ne

/-- what `n` times the same operation does -/
theorem run_replicate {T : Type} [VebTree T K V] {t t' : Option T} {op : Op K V} {o : Out K V} {n : Nat}
    {r : Option T × List (Out K V)} (h : Exec.step t op = .ok (t', o)) (hr : Exec.run t' (List.replicate n op) = .ok r) :
    Exec.run t (List.replicate (n + 1) op) = .ok (r.1, o :: r.2) := by
  simp only [List.replicate_succ, Exec.run, h, R.ok_bind, hr]
  rfl

theorem run_append {T : Type} [VebTree T K V] {t t' : Option T} {a b : List (Op K V)} {os : List (Out K V)}
    (h : Exec.run t a = .ok (t', os)) :
    Exec.run t (a ++ b) = (Exec.run t' b).map fun r => (r.1, os ++ r.2) := by
  induction a generalizing t os with
  | nil =>
    cases h
    show Exec.run t' b = _
    cases Exec.run t' b <;> rfl
  | cons op a ih =>
    simp only [Exec.run, List.cons_append] at h ⊢
    cases hx : Exec.step t op with
    | error e => rw [hx] at h; cases h
    | ok r =>
      rw [hx] at h
      simp only [R.ok_bind] at h ⊢
      cases hy : Exec.run r.1 a with
      | error e => rw [hy] at h; cases h
      | ok q =>
        obtain ⟨q1, q2⟩ := q
        rw [hy] at h
        cases h
        rw [ih hy]
        cases Exec.run q1 b <;> rfl

theorem drainUp (mx : K × V) (l : SL K V) (hl : SL.Sorted l) (mn : K × V) :
    Exec.run (some (⟨mn, some (mx, l)⟩ : Flat K V)) (List.replicate (l.length + 2) .removeMin) =
      .ok (none, (mn :: (l ++ [mx])).map fun e => .kv (some e)) := by
  induction l generalizing mn with
  | nil => rfl
  | cons e l ih =>
    have h1 : Exec.step (some (⟨mn, some (mx, e :: l)⟩ : Flat K V)) .removeMin =
        .ok (some ⟨e, some (mx, l)⟩, .kv (some mn)) := by
      simp only [Exec.step, Exec.stepTree, VebTree.removeMin, popMin, SL.minE, List.head?_cons, erase_head hl]
      rfl
    exact run_replicate h1 (ih hl.tail e)

theorem drainDown (mn : K × V) (l : SL K V) (hl : SL.Sorted l) (mx : K × V) :
    Exec.run (some (⟨mn, some (mx, l)⟩ : Flat K V)) (List.replicate (l.length + 2) .removeMax) =
      .ok (none, (mn :: (l ++ [mx])).reverse.map fun e => .kv (some e)) := by
  induction l using List.reverseRecOn generalizing mx with
  | nil => rfl
  | append_singleton l e ih =>
    have h1 : Exec.step (some (⟨mn, some (mx, l ++ [e])⟩ : Flat K V)) .removeMax =
        .ok (some ⟨mn, some (e, l)⟩, .kv (some mx)) := by
      simp only [Exec.step, Exec.stepTree, VebTree.removeMax, popMax, SL.maxE, List.getLast?_append, List.getLast?_singleton,
        Option.some_or, erase_last hl, top]
      rfl
    have := run_replicate h1 (ih (hl.sublist (List.sublist_append_left _ _)) e)
    rw [List.length_append, List.length_singleton]
    refine this.trans ?_
    simp

end Flat
end Veb
