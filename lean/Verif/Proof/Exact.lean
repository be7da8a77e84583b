import Verif.Proof.Hist

/-!
An insertion that is not safe always shows: afterwards `max_val`, or `predecessor` of some stored key, does not
give what the map with the new entry would give.
-/

set_option autoImplicit false
set_option linter.unusedSectionVars false

namespace Veb
open VebKey (splitVal join)

section
variable {T K V : Type} [LinearOrder K] [VebTree T K V]

/-- `t` does not behave like `M`: `max_val` names a stored key that is not the greatest, or `predecessor` of a
stored key that has a predecessor finds none or names another stored key. A panic is fine for both. -/
def Shows (t : T) (M : Map K V) : Prop :=
  (∃ e, M.IsMax e ∧ ∀ p, VebTree.maxVal t = .ok p → M.Mem p.1 ∧ p.1 ≠ e.1) ∨
  ∃ j e, M.Mem j ∧ M.IsPred j (some e) ∧
    ∀ p, VebTree.predecessor t j = .ok (some p) → M.Mem p.1 ∧ p.1 ≠ e.1

/-- Every insertion that is not safe shows. -/
def Exact (L : LawfulVebTree T K V) : Prop :=
  ∀ t k v t' o, L.Inv t → ¬ L.Safe (L.abs t).Mem k → VebTree.insert t k v = .ok (t', o) →
    Shows t' ((L.abs t).upd k (some v))

end

/-! ### maps of maps -/

section grid
variable {K V Hi Lo : Type} [LinearOrder K] [LinearOrder Hi] [LinearOrder Lo]
  [VebKey K Hi Lo] [VebKeyRef K Hi Lo] [LK : LawfulVebKey K Hi Lo]

/-- A map of maps, read as one map. -/
def grid (K : Type) [VebKey K Hi Lo] (N : Hi → Option (Map Lo V)) : Map K V := fun k =>
  (N (splitVal k).1).bind fun U => U (splitVal k).2

/-- All pairs stored are the halves of a key. -/
def GoodGrid (K : Type) [VebKey K Hi Lo] (N : Hi → Option (Map Lo V)) : Prop :=
  ∀ h U l, N h = some U → U.Mem l → splitVal (join h l : K) = (h, l)

variable {N : Hi → Option (Map Lo V)}

theorem grid_mem {k : K} : (grid K N).Mem k ↔ ∃ U, N (splitVal k).1 = some U ∧ U.Mem (splitVal k).2 := by
  simp only [Map.mem_iff, grid, Option.bind_eq_some_iff]
  exact ⟨fun ⟨v, u, a, b⟩ => ⟨u, a, v, b⟩, fun ⟨u, a, v, b⟩ => ⟨v, u, a, b⟩⟩

variable (G : GoodGrid K N)
include G

theorem grid_join {h : Hi} {U : Map Lo V} {l : Lo} (hN : N h = some U) (hl : U.Mem l) :
    grid K N (join h l) = U l := by
  simp [grid, G h U l hN hl, hN]

theorem grid_join_mem {h : Hi} {U : Map Lo V} {l : Lo} (hN : N h = some U) (hl : U.Mem l) :
    (grid K N).Mem (join h l) := by
  rw [Map.Mem, grid_join G hN hl]; exact hl

theorem grid_ne_hi {h h' : Hi} {U U' : Map Lo V} {l l' : Lo} (hN : N h = some U) (hl : U.Mem l)
    (hN' : N h' = some U') (hl' : U'.Mem l') (hne : h ≠ h') : (join h l : K) ≠ join h' l' := by
  intro e
  have h1 := G h U l hN hl
  have h2 := G h' U' l' hN' hl'
  rw [e, h2] at h1
  exact hne (congrArg Prod.fst h1).symm

theorem grid_ne_lo {h : Hi} {U : Map Lo V} {l l' : Lo} (hN : N h = some U) (hl : U.Mem l) (hl' : U.Mem l')
    (hne : l ≠ l') : (join h l : K) ≠ join h l' := by
  intro e
  have h1 := G h U l hN hl
  have h2 := G h U l' hN hl'
  rw [e, h2] at h1
  exact hne (congrArg Prod.snd h1).symm

theorem grid_isMax {h : Hi} {U : Map Lo V} {l : Lo} {v : V} (hmax : ∀ h', N h' ≠ none → h' ≤ h)
    (hN : N h = some U) (hU : U.IsMax (l, v)) : (grid K N).IsMax (join h l, v) := by
  refine ⟨(grid_join G hN (Map.mem_of hU.1)).trans hU.1, fun j hj => ?_⟩
  obtain ⟨U', hU', hl'⟩ := grid_mem.1 hj
  have hle := hmax (splitVal j).1 (by rw [hU']; simp)
  refine (le_of_split (Prod.eta _).symm (G h U l hN (Map.mem_of hU.1))).2 ?_
  rcases hle.lt_or_eq with h1 | h1
  · exact .inl h1
  · rw [h1, hN] at hU'
    obtain rfl := Option.some.inj hU'
    exact .inr ⟨h1, hU.2 _ hl'⟩

theorem grid_pred_child {k : K} {h : Hi} {l : Lo} (hk : splitVal k = (h, l)) {U : Map Lo V} (hN : N h = some U)
    {l' : Lo} {v : V} (hU : U.IsPred l (some (l', v))) : (grid K N).IsPred k (some (join h l', v)) := by
  have hg := G h U l' hN (Map.mem_of hU.1)
  refine ⟨(grid_join G hN (Map.mem_of hU.1)).trans hU.1, (lt_of_split hg hk).2 (.inr ⟨rfl, hU.2.1⟩), ?_⟩
  intro j hj hjk
  obtain ⟨U', hU', hl'⟩ := grid_mem.1 hj
  refine (le_of_split (Prod.eta _).symm hg).2 ?_
  rcases (lt_of_split (Prod.eta _).symm hk).1 hjk with h1 | ⟨h1, h2⟩
  · exact .inl h1
  · rw [h1, hN] at hU'
    obtain rfl := Option.some.inj hU'
    exact .inr ⟨h1, hU.2.2 _ hl' h2⟩

theorem grid_pred_sum {k : K} {h : Hi} {l : Lo} (hk : splitVal k = (h, l))
    (hno : ∀ U, N h = some U → U.IsPred l none) {h' : Hi} (hlt : h' < h)
    (hbig : ∀ j, N j ≠ none → j < h → j ≤ h') {U : Map Lo V} (hN : N h' = some U) {l' : Lo} {v : V}
    (hU : U.IsMax (l', v)) : (grid K N).IsPred k (some (join h' l', v)) := by
  have hg := G h' U l' hN (Map.mem_of hU.1)
  refine ⟨(grid_join G hN (Map.mem_of hU.1)).trans hU.1, (lt_of_split hg hk).2 (.inl hlt), ?_⟩
  intro j hj hjk
  obtain ⟨U', hU', hl'⟩ := grid_mem.1 hj
  refine (le_of_split (Prod.eta _).symm hg).2 ?_
  rcases (lt_of_split (Prod.eta _).symm hk).1 hjk with h1 | ⟨h1, h2⟩
  · rcases (hbig _ (by rw [hU']; simp) h1).lt_or_eq with h3 | h3
    · exact .inl h3
    · rw [h3, hN] at hU'
      obtain rfl := Option.some.inj hU'
      exact .inr ⟨h3, hU.2 _ hl'⟩
  · rw [h1] at hU'
    exact absurd h2 (hno U' hU' _ hl')

end grid

/-! ### the tree -/

namespace Tree
variable {K V S C Hi Lo T : Type} [LinearOrder K] [LinearOrder Hi] [LinearOrder Lo]
  [VebKey K Hi Lo] [VebKeyRef K Hi Lo] [LK : LawfulVebKey K Hi Lo]
  [VebTree S Hi Unit] [LS : LawfulVebTree S Hi Unit]
  [VebTree T Lo V] [LT : LawfulVebTree T Lo V]
  [TreeCollection C Hi T Lo V] [LC : LawfulColl C Hi T Lo V]

section
variable {mn mx : K × V} {s : S} {c : C} {N : Hi → Option (Map Lo V)}

/-- `predecessor` of the maximum, if the call succeeds -/
theorem predecessor_max (hlt : mn.1 < mx.1) (Ic : LC.Inv c) {p : K × V}
    (h : (⟨mn, some ⟨mx, some (s, c)⟩⟩ : Tree K V S C).predecessor mx.1 = .ok (some p)) :
    ∃ hi u lo val, VebTree.maxVal s = .ok (hi, ()) ∧ LC.abs c hi = some u ∧
      VebTree.maxVal u = .ok (lo, val) ∧ p = (join hi lo, val) := by
  simp only [predecessor, not_le.2 hlt, if_false, cmp_self] at h
  rcases hm : VebTree.maxVal s with e | ⟨hi, ⟨⟩⟩
  · rw [hm] at h; cases h
  · simp only [hm, R.ok_bind, LC.get _ _ Ic] at h
    rcases hc : LC.abs c hi with _ | u
    · rw [hc] at h; cases h
    · simp only [hc, expect, R.ok_bind, R.pure_eq] at h
      rcases hu : VebTree.maxVal u with e | ⟨lo, val⟩
      · rw [hu] at h; cases h
      · rw [hu] at h
        cases h
        exact ⟨hi, u, lo, val, rfl, hc, hu, rfl⟩

/-- `predecessor` of a key between the extremes, if the call succeeds -/
theorem predecessor_inner {k : K} (h1 : mn.1 < k) (h2 : k < mx.1) (Ic : LC.Inv c) {hi : Hi} {lo : Lo}
    (hs : splitVal k = (hi, lo)) {u : T} (hu : LC.abs c hi = some u) {p : K × V}
    (h : (⟨mn, some ⟨mx, some (s, c)⟩⟩ : Tree K V S C).predecessor k = .ok (some p)) :
    (∃ lo' val, VebTree.predecessor u lo = .ok (some (lo', val)) ∧ p = (join hi lo', val)) ∨
    VebTree.predecessor u lo = .ok none ∧
      ((VebTree.predecessor s hi = .ok none ∧ p = mn) ∨
       ∃ hi' u' lo' val, VebTree.predecessor s hi = .ok (some (hi', ())) ∧ LC.abs c hi' = some u' ∧
        VebTree.maxVal u' = .ok (lo', val) ∧ p = (join hi' lo', val)) := by
  simp only [predecessor, not_le.2 h1, if_false, cmp_lt h2, LK.ref_eq, hs, LC.get _ _ Ic, hu, R.ok_bind] at h
  rcases hp : VebTree.predecessor u lo with e | _ | ⟨lo', val⟩
  · rw [hp] at h; cases h
  · refine .inr ⟨rfl, ?_⟩
    simp only [hp, R.ok_bind] at h
    rcases hq : VebTree.predecessor s hi with e | _ | ⟨hi', ⟨⟩⟩
    · rw [hq] at h; cases h
    · rw [hq] at h; cases h; exact .inl ⟨rfl, rfl⟩
    · simp only [hq, R.ok_bind] at h
      rcases hc : LC.abs c hi' with _ | u'
      · rw [hc] at h; cases h
      · simp only [hc, expect, R.ok_bind, R.pure_eq] at h
        rcases hm : VebTree.maxVal u' with e | ⟨lo', val⟩
        · rw [hm] at h; cases h
        · rw [hm] at h
          cases h
          exact .inr ⟨hi', u', lo', val, rfl, hc, hm, rfl⟩
  · rw [hp] at h
    cases h
    exact .inl ⟨lo', val, rfl, rfl⟩

variable (hlt : mn.1 < mx.1) (hb : (grid K N).Between mn.1 mx.1) (G : GoodGrid K N) (Ic : LC.Inv c)
include hlt hb G Ic

/-- a child that shows -/
theorem shows_child (Is : LS.Inv s) (hsum : ∀ h, (LS.abs s).Mem h ↔ N h ≠ none) {hi : Hi} {u' : T}
    {U : Map Lo V} (hc : LC.abs c hi = some u') (hN : N hi = some U) (hsh : Shows u' U)
    (hoth : ∀ h, h ≠ hi → ∀ W, N h = some W → ∃ u, LC.abs c h = some u ∧ LT.Inv u ∧ LT.abs u = W) :
    Shows (⟨mn, some ⟨mx, some (s, c)⟩⟩ : Tree K V S C) (Map.ends mn mx (grid K N)) := by
  have hmem : ∀ j, (grid K N).Mem j → (Map.ends mn mx (grid K N)).Mem j := fun j hj =>
    (Map.mem_ends j).2 (.inr (.inr hj))
  have hNhi : N hi ≠ none := by rw [hN]; simp
  rcases hsh with ⟨⟨m, vm⟩, he, ha⟩ | ⟨j, ⟨m, vm⟩, hj, he, ha⟩
  · -- the child's `max_val` is wrong
    have hmm := Map.mem_of he.1
    refine .inr ?_
    obtain ⟨r, hr, hr'⟩ := LS.successor s hi Is
    obtain _ | ⟨h2, ⟨⟩⟩ := r
    · -- it is the last child: ask for the predecessor of the maximum
      have hmax : ∀ h', N h' ≠ none → h' ≤ hi := fun h' hh => not_lt.1 (hr' h' ((hsum h').2 hh))
      refine ⟨mx.1, _, (Map.mem_ends _).2 (.inr (.inl rfl)),
        Map.isPred_max hlt hb (grid_isMax G hmax hN he), fun p hp => ?_⟩
      obtain ⟨hi', u, lo, val, e1, e2, e3, rfl⟩ := predecessor_max hlt Ic hp
      obtain ⟨kv, e4, e5⟩ := LS.maxVal s Is
      rw [e1] at e4
      cases e4
      obtain rfl : hi = hi' := le_antisymm (e5.2 _ ((hsum hi).2 hNhi)) (hmax hi' ((hsum hi').1 (Map.mem_of e5.1)))
      rw [hc] at e2
      cases e2
      obtain ⟨a1, a2⟩ := ha _ e3
      exact ⟨hmem _ (grid_join_mem G hN a1), grid_ne_lo G hN a1 hmm a2⟩
    · -- otherwise ask for the predecessor of the least key of the next child
      obtain ⟨hs2, hlt2, hnext⟩ := hr'
      obtain ⟨W, hW⟩ : ∃ W, N h2 = some W := Option.ne_none_iff_exists'.1 ((hsum h2).1 (Map.mem_of hs2))
      obtain ⟨u2, hu2, Iu2, rfl⟩ := hoth h2 hlt2.ne' W hW
      obtain ⟨⟨l2, v2⟩, _, hl2⟩ := LT.minVal u2 Iu2
      have hl2m := Map.mem_of hl2.1
      have hy := grid_join_mem G hW hl2m
      have hsp := G h2 _ l2 hW hl2m
      have hno : (LT.abs u2).IsPred l2 none := fun i hi' hlt' => absurd (hl2.2 i hi') (not_le.2 hlt')
      have hbig : ∀ j, N j ≠ none → j < h2 → j ≤ hi := fun j hj hj2 => by
        by_contra hn
        exact absurd (hnext j ((hsum j).2 hj) (not_le.1 hn)) (not_le.2 hj2)
      have hpred := grid_pred_sum G hsp (fun U' hU' => by rw [hW] at hU'; cases hU'; exact hno) hlt2 hbig hN he
      refine ⟨join h2 l2, _, hmem _ hy, Map.isPred_inner_some hlt hb (hb _ hy).2.le hpred, fun p hp => ?_⟩
      rcases predecessor_inner (hb _ hy).1 (hb _ hy).2 Ic hsp hu2 hp with ⟨lo', val, e1, rfl⟩ | ⟨_, e⟩
      · obtain ⟨r, e2, e3⟩ := LT.predecessor u2 l2 Iu2
        rw [e1] at e2
        cases e2
        cases e3.unique hno
      · have hps : (LS.abs s).IsPred h2 (some (hi, ())) := by
          obtain ⟨w, hw⟩ := Map.mem_iff.1 ((hsum hi).2 hNhi)
          exact ⟨hw, hlt2, fun j hj hj2 => hbig j ((hsum j).1 hj) hj2⟩
        obtain ⟨r, e2, e3⟩ := LS.predecessor s h2 Is
        cases e3.unique hps
        rcases e with ⟨e4, _⟩ | ⟨hi', u, lo', val, e4, e5, e6, rfl⟩
        · rw [e2] at e4; cases e4
        · rw [e2] at e4
          cases e4
          rw [hc] at e5
          cases e5
          obtain ⟨a1, a2⟩ := ha _ e6
          exact ⟨hmem _ (grid_join_mem G hN a1), grid_ne_lo G hN a1 hmm a2⟩
  · -- the child's `predecessor` is wrong
    have hmm := Map.mem_of he.1
    have hy := grid_join_mem G hN hj
    have hsp := G hi U j hN hj
    have hpred := grid_pred_child G hsp hN he
    refine .inr ⟨join hi j, _, hmem _ hy, Map.isPred_inner_some hlt hb (hb _ hy).2.le hpred, fun p hp => ?_⟩
    rcases predecessor_inner (hb _ hy).1 (hb _ hy).2 Ic hsp hc hp with
      ⟨lo', val, e1, rfl⟩ | ⟨_, ⟨_, rfl⟩ | ⟨hi', u, lo', val, e2, e3, e4, rfl⟩⟩
    · obtain ⟨a1, a2⟩ := ha _ e1
      exact ⟨hmem _ (grid_join_mem G hN a1), grid_ne_lo G hN a1 hmm a2⟩
    · exact ⟨(Map.mem_ends _).2 (.inl rfl), (hb _ (grid_join_mem G hN hmm)).1.ne⟩
    · obtain ⟨r, e5, e6⟩ := LS.predecessor s hi Is
      rw [e2] at e5
      cases e5
      obtain ⟨hs2, hlt2, _⟩ := e6
      obtain ⟨W, hW⟩ : ∃ W, N hi' = some W := Option.ne_none_iff_exists'.1 ((hsum hi').1 (Map.mem_of hs2))
      obtain ⟨u2, hu2, Iu2, rfl⟩ := hoth hi' hlt2.ne W hW
      rw [e3] at hu2
      cases hu2
      obtain ⟨kv, e7, e8⟩ := LT.maxVal u Iu2
      rw [e4] at e7
      cases e7
      have hm2 := Map.mem_of e8.1
      exact ⟨hmem _ (grid_join_mem G hW hm2), grid_ne_hi G hW hm2 hN hmm hlt2.ne⟩

/-- a summary that shows -/
theorem shows_sum {M : Map Hi Unit} (hsh : Shows s M) (hsum : ∀ h, M.Mem h ↔ N h ≠ none)
    (hch : ∀ h W, N h = some W → ∃ u, LC.abs c h = some u ∧ LT.Inv u ∧ LT.abs u = W) :
    Shows (⟨mn, some ⟨mx, some (s, c)⟩⟩ : Tree K V S C) (Map.ends mn mx (grid K N)) := by
  have hmem : ∀ j, (grid K N).Mem j → (Map.ends mn mx (grid K N)).Mem j := fun j hj =>
    (Map.mem_ends j).2 (.inr (.inr hj))
  have child : ∀ h, M.Mem h → ∃ u, N h = some (LT.abs u) ∧ LC.abs c h = some u ∧ LT.Inv u := by
    intro h hh
    obtain ⟨W, hW⟩ := Option.ne_none_iff_exists'.1 ((hsum h).1 hh)
    obtain ⟨u, a, b, rfl⟩ := hch h W hW
    exact ⟨u, hW, a, b⟩
  rcases hsh with ⟨⟨m, ⟨⟩⟩, he, ha⟩ | ⟨j, ⟨m, ⟨⟩⟩, hj, he, ha⟩
  · obtain ⟨u, hN, hu, Iu⟩ := child m (Map.mem_of he.1)
    obtain ⟨⟨l, v⟩, _, hl⟩ := LT.maxVal u Iu
    refine .inr ⟨mx.1, _, (Map.mem_ends _).2 (.inr (.inl rfl)), Map.isPred_max hlt hb
      (grid_isMax G (fun h' hh => he.2 h' ((hsum h').2 hh)) hN hl), fun p hp => ?_⟩
    obtain ⟨hi', u2, lo, val, e1, e2, e3, rfl⟩ := predecessor_max hlt Ic hp
    obtain ⟨a1, a2⟩ := ha _ e1
    obtain ⟨u3, hN3, hu3, Iu3⟩ := child hi' a1
    rw [e2] at hu3
    cases hu3
    obtain ⟨kv, e7, e8⟩ := LT.maxVal u2 Iu3
    rw [e3] at e7
    cases e7
    have hm2 := Map.mem_of e8.1
    exact ⟨hmem _ (grid_join_mem G hN3 hm2), grid_ne_hi G hN3 hm2 hN (Map.mem_of hl.1) a2⟩
  · obtain ⟨u, hN, hu, Iu⟩ := child m (Map.mem_of he.1)
    obtain ⟨⟨l, v⟩, _, hl⟩ := LT.maxVal u Iu
    obtain ⟨u2, hW, hu2, Iu2⟩ := child j hj
    obtain ⟨⟨l2, v2⟩, _, hl2⟩ := LT.minVal u2 Iu2
    have hl2m := Map.mem_of hl2.1
    have hy := grid_join_mem G hW hl2m
    have hsp := G j _ l2 hW hl2m
    have hno : (LT.abs u2).IsPred l2 none := fun i hi' hlt' => absurd (hl2.2 i hi') (not_le.2 hlt')
    have hpred := grid_pred_sum G hsp (fun U' hU' => by rw [hW] at hU'; cases hU'; exact hno) he.2.1
      (fun i hi' => he.2.2 i ((hsum i).2 hi')) hN hl
    refine .inr ⟨join j l2, _, hmem _ hy, Map.isPred_inner_some hlt hb (hb _ hy).2.le hpred, fun p hp => ?_⟩
    rcases predecessor_inner (hb _ hy).1 (hb _ hy).2 Ic hsp hu2 hp with
      ⟨lo', val, e1, rfl⟩ | ⟨_, ⟨_, rfl⟩ | ⟨hi', u3, lo', val, e2, e3, e4, rfl⟩⟩
    · obtain ⟨r, e2, e3⟩ := LT.predecessor u2 l2 Iu2
      rw [e1] at e2
      cases e2
      cases e3.unique hno
    · exact ⟨(Map.mem_ends _).2 (.inl rfl), (hb _ (grid_join_mem G hN (Map.mem_of hl.1))).1.ne⟩
    · obtain ⟨a1, a2⟩ := ha _ e2
      obtain ⟨u4, hN4, hu4, Iu4⟩ := child hi' a1
      rw [e3] at hu4
      cases hu4
      obtain ⟨kv, e7, e8⟩ := LT.maxVal u3 Iu4
      rw [e4] at e7
      cases e7
      have hm2 := Map.mem_of e8.1
      exact ⟨hmem _ (grid_join_mem G hN4 hm2), grid_ne_hi G hN4 hm2 hN (Map.mem_of hl.1) a2⟩

end

/-- the children after an insertion of `x`, as they should be -/
def want (c : C) (x : K) (v : V) : Hi → Option (Map Lo V) := fun h =>
  if h = (splitVal x).1 then
    some (((LC.abs c h).elim Map.empty LT.abs).upd (splitVal x).2 (some v))
  else (LC.abs c h).map LT.abs

theorem grid_want (c : C) (x : K) (v : V) : grid K (want c x v) = (cmap K c).upd x (some v) := by
  funext j
  simp only [grid, want, cmap, Map.upd_apply]
  by_cases h1 : (splitVal j).1 = (splitVal x).1
  · simp only [h1, if_true, Option.bind_some, Map.upd_apply]
    by_cases h2 : (splitVal j).2 = (splitVal x).2
    · rw [if_pos h2, if_pos (split_inj (K := K) (Prod.ext h1 h2))]
    · rw [if_neg h2, if_neg (fun e => h2 (by rw [e]))]
      rcases LC.abs c (splitVal x).1 with _ | u <;> rfl
  · rw [if_neg h1, if_neg (fun e => h1 (by rw [e]))]
    rcases LC.abs c (splitVal j).1 with _ | u <;> rfl

theorem want_good {B : K → Prop} {s : S} {c : C} (I : ChInv B s c) (x : K) (v : V) :
    GoodGrid K (want c x v) := by
  intro h U l hN hl
  simp only [want] at hN
  split at hN
  · rename_i e
    subst e
    cases hN
    rw [Map.mem_upd_some] at hl
    rcases hl with rfl | hl
    · rw [LK.join_split]
    · rcases hc : LC.abs c (splitVal x).1 with _ | u
      · rw [hc] at hl; exact absurd hl (Map.mem_empty l)
      · rw [hc] at hl; exact I.good _ u l hc hl
  · obtain ⟨u, hu, rfl⟩ := Option.map_eq_some_iff.1 hN
    exact I.good _ u l hu hl

/-- the condition of `Safe` on the child or the summary the insertion of `x` continues in -/
def BelowSafe (s : S) (c : C) (x : K) : Prop :=
  (∀ u, LC.abs c (splitVal x).1 = some u → LT.Safe (LT.abs u).Mem (splitVal x).2) ∧
  (LC.abs c (splitVal x).1 = none → LS.Safe (LS.abs s).Mem (splitVal x).1)

theorem insertBelow_shows (ES : Exact LS) (ET : Exact LT) {mn mx : K × V} {s : S} {c : C}
    (I : ChInv (Btw mn.1 mx.1) s c) (hlt : mn.1 < mx.1) {x : K} {v : V} (h1 : mn.1 < x) (h2 : x < mx.1)
    (hns : ¬ BelowSafe s c x) {t' : Tree K V S C} {o : Option (K × V)}
    (h : insertBelow mn ⟨mx, some (s, c)⟩ x v = .ok (t', o)) :
    Shows t' (Map.ends mn mx ((cmap K c).upd x (some v))) := by
  have hb : (grid K (want c x v)).Between mn.1 mx.1 := by
    rw [grid_want]
    intro j hj
    rw [Map.mem_upd_some] at hj
    rcases hj with rfl | hj
    · exact ⟨h1, h2⟩
    · exact I.bound j hj
  have G := want_good I x v
  rw [← grid_want]
  rcases hs : splitVal x with ⟨hi, lo⟩
  simp only [insertBelow, hs] at h
  rcases hc : LC.abs c hi with _ | u
  · -- a new child; the summary insertion was not safe
    have hnS : ¬ LS.Safe (LS.abs s).Mem hi := fun hh => hns ⟨by simp [hs, hc], by simpa [hs, hc] using hh⟩
    obtain ⟨c', hc1, hc2, hc3⟩ := LC.insert_none c hi lo v I.cInv hc
    simp only [hc1, R.ok_bind] at h
    rcases hi' : VebTree.insert s hi () with e | ⟨s', o'⟩
    · rw [hi'] at h; cases h
    · rw [hi'] at h
      cases h
      have hsh := ES s hi () s' o' I.sInv hnS hi'
      refine shows_sum hlt hb G hc2 hsh ?_ ?_
      · intro h
        rw [Map.mem_upd_some, I.sum]
        simp only [want, hs]
        by_cases e : h = hi
        · simp [e]
        · simp [e, Map.Mem]
      · intro h W hW
        simp only [want, hs] at hW
        rw [hc3, Map.upd_apply]
        obtain ⟨f1, f2⟩ := LT.fromMonad lo v
        split at hW
        · rename_i e
          subst e
          cases hW
          refine ⟨_, if_pos rfl, f1, ?_⟩
          rw [f2, hc]; rfl
        · rename_i e
          obtain ⟨u, hu, rfl⟩ := Option.map_eq_some_iff.1 hW
          exact ⟨u, by rw [if_neg e, hu], I.child _ _ hu, rfl⟩
  · -- an existing child; the insertion into it was not safe
    have hnT : ¬ LT.Safe (LT.abs u).Mem lo := fun hh =>
      hns ⟨by rw [hs]; intro u' hu'; rw [hc] at hu'; cases hu'; exact hh, by simp [hs, hc]⟩
    rcases hi' : VebTree.insert u lo v with e | ⟨u', o'⟩
    · rw [LC.insert_panic c hi lo v u e I.cInv hc hi'] at h; cases h
    · obtain ⟨c', hc1, hc2, hc3⟩ := LC.insert_some c hi lo v u u' o' I.cInv hc hi'
      have hsh := ET u lo v u' o' (I.child _ _ hc) hnT hi'
      have ht : t' = ⟨mn, some ⟨mx, some (s, c')⟩⟩ := by
        simp only [hc1, R.ok_bind] at h
        obtain _ | ⟨lo', v'⟩ := o' <;> · cases h; rfl
      subst ht
      refine shows_child hlt hb G hc2 I.sInv ?_ (hi := hi) (u' := u')
        (U := (LT.abs u).upd lo (some v)) (by simp [hc3]) (by simp [want, hs, hc]) hsh ?_
      · intro h
        rw [I.sum]
        simp only [want, hs]
        by_cases e : h = hi
        · simp [e, Map.Mem, hc]
        · simp [e, Map.Mem]
      · intro h hne W hW
        simp only [want, hs, if_neg hne] at hW
        obtain ⟨u2, hu2, rfl⟩ := Option.map_eq_some_iff.1 hW
        exact ⟨u2, by rw [hc3, Map.upd_ne _ _ hne, hu2], I.child _ _ hu2, rfl⟩

/-- converse of `safe_below` -/
theorem safe_of_below {mn mx : K × V} {ch : Option (S × C)} (h1 : mn.1 < mx.1) (hb : ChOK (Btw mn.1 mx.1) ch)
    {k x : K} (hx : x = if mx.1 < k then mx.1 else k) (hk : mn.1 ≤ k)
    (hs : ∀ s c, ch = some (s, c) → BelowSafe s c x) :
    Safe LS.Safe LT.Safe (⟨mn, some ⟨mx, ch⟩⟩ : Tree K V S C).abs.Mem k := by
  have hmn := Map.isMin_ends h1 hb.between
  have hmx := Map.isMax_ends h1 hb.between
  intro mn' mx' hm1 hm2 _ hbd
  obtain rfl : mn' = mn.1 := le_antisymm (hbd _ (Map.mem_of hmn.1)).1 (hmn.2 _ hm1)
  obtain rfl : mx' = mx.1 := le_antisymm (hmx.2 _ hm2) (hbd _ (Map.mem_of hmx.1)).2
  refine ⟨hk, .inr (.inr ?_)⟩
  rintro x' hx'
  obtain rfl : x' = x := hx'.trans hx.symm
  have inner : ∀ j, ((⟨mn, some ⟨mx, ch⟩⟩ : Tree K V S C).abs.Mem j ∧ j ≠ mn.1 ∧ j ≠ mx.1) ↔
      (chmap K ch).Mem j := by
    intro j
    rw [abs_some, Map.mem_ends]
    constructor
    · rintro ⟨h | h | h, h2, h3⟩
      · exact absurd h h2
      · exact absurd h h3
      · exact h
    · intro h
      exact ⟨.inr (.inr h), (hb.between j h).1.ne', (hb.between j h).2.ne⟩
  obtain _ | ⟨s, c⟩ := ch
  · refine ⟨fun child hc he => ?_, fun sum hsu _ he => ?_⟩
    · obtain ⟨l, hl⟩ := he
      obtain ⟨j, a, b, d, _⟩ := (hc l).1 hl
      exact absurd ((inner j).1 ⟨a, b, d⟩) (Map.mem_empty j)
    · obtain ⟨l, hl⟩ := he
      obtain ⟨j, a, b, d, _⟩ := (hsu l).1 hl
      exact absurd ((inner j).1 ⟨a, b, d⟩) (Map.mem_empty j)
  have I : ChInv (Btw mn.1 mx.1) s c := hb
  obtain ⟨hT, hS⟩ := hs s c rfl
  refine ⟨fun child hc he => ?_, fun sum hsu hn he => ?_⟩
  · obtain ⟨l, hl⟩ := he
    obtain ⟨j, a, b, d, e⟩ := (hc l).1 hl
    obtain ⟨u, hu, -⟩ := cmap_mem.1 ((inner j).1 ⟨a, b, d⟩)
    rw [e] at hu
    have : child = (LT.abs u).Mem := by
      funext l'
      refine propext ⟨fun hl' => ?_, fun hl' => ?_⟩
      · obtain ⟨j, a, b, d, e⟩ := (hc l').1 hl'
        obtain ⟨u', hu', hl''⟩ := cmap_mem.1 ((inner j).1 ⟨a, b, d⟩)
        rw [e] at hu' hl''
        rw [hu] at hu'
        cases hu'
        exact hl''
      · have hg := I.good _ u l' hu hl'
        have hm : (cmap K c).Mem (join (splitVal x').1 l') := by
          rw [Map.Mem, I.cmap_join hu hl']; exact hl'
        obtain ⟨a, b, d⟩ := (inner _).2 hm
        exact (hc l').2 ⟨_, a, b, d, hg⟩
    rw [this]
    exact hT u hu
  · have : sum = (LS.abs s).Mem := by
      funext h
      refine propext ⟨fun hh => ?_, fun hh => ?_⟩
      · obtain ⟨j, a, b, d, e⟩ := (hsu h).1 hh
        obtain ⟨u, hu, -⟩ := cmap_mem.1 ((inner j).1 ⟨a, b, d⟩)
        rw [e] at hu
        exact I.sum_of_child hu
      · obtain ⟨u, hu, hui⟩ := I.child_of_sum hh
        obtain ⟨l, hl⟩ := LT.nonempty u hui
        have hg := I.good _ u l hu hl
        have hm : (cmap K c).Mem (join h l) := by
          rw [Map.Mem, I.cmap_join hu hl]; exact hl
        obtain ⟨a, b, d⟩ := (inner _).2 hm
        exact (hsu h).2 ⟨_, a, b, d, by rw [hg]⟩
    rw [this] at hn ⊢
    refine hS ?_
    rw [I.sum] at hn
    exact Map.not_mem.1 hn

/-- the defective arm puts the old minimum in the place of the maximum -/
theorem insert_below_min {mn : K × V} {d : TreeData K V S C} {k : K} {v : V} (h : mn.1 < d.max.1)
    (hk : k < mn.1) {t' : Tree K V S C} {o : Option (K × V)}
    (hi : (⟨mn, some d⟩ : Tree K V S C).insert k v = .ok (t', o)) :
    VebTree.maxVal t' = .ok mn ∧ VebTree.minVal t' = .ok (k, v) := by
  simp only [insert, cmp_lt hk, cmp_gt h, insertBelow] at hi
  rcases hs : splitVal d.max.1 with ⟨a, b⟩
  obtain ⟨mx, _ | ⟨s, c⟩⟩ := d
  · rcases hc : (TreeCollection.create a (VebTree.fromMonad b mx.2) : R C) with e | c'
    · simp only [hs, hc] at hi; cases hi
    · simp only [hs, hc] at hi; cases hi; exact ⟨rfl, rfl⟩
  · rcases hc : TreeCollection.insertKey c a (b, mx.2) with e | ⟨c', h' | ⟨h', _ | ⟨l', w'⟩⟩⟩
    · simp only [hs, hc] at hi; cases hi
    · simp only [hs, hc, R.ok_bind] at hi
      rcases hs' : VebTree.insert s h' () with e | ⟨s', o'⟩
      · rw [hs'] at hi; cases hi
      · rw [hs'] at hi; cases hi; exact ⟨rfl, rfl⟩
    · simp only [hs, hc] at hi; cases hi; exact ⟨rfl, rfl⟩
    · simp only [hs, hc] at hi; cases hi; exact ⟨rfl, rfl⟩

/-- … and it does not panic, as long as the counters below do not overflow: the old maximum is appended to a child -/
theorem insert_below_min_ok [MS : MonoSafe S Hi Unit] [MT : MonoSafe T Lo V] {mn : K × V}
    {d : TreeData K V S C} {k : K} {v : V} (I : (⟨mn, some d⟩ : Tree K V S C).Inv) (hk : k < mn.1)
    (hcard : (⟨mn, some d⟩ : Tree K V S C).abs.card ≤ usizeMax) :
    ∃ t', (⟨mn, some d⟩ : Tree K V S C).insert k v = .ok (t', none) := by
  obtain ⟨mx, ch⟩ := d
  have h1 : mn.1 < mx.1 := I.1
  simp only [insert, cmp_lt hk, cmp_gt h1, insertBelow]
  rcases hs : splitVal mx.1 with ⟨hi, lo⟩
  obtain _ | ⟨s, c⟩ := ch
  · obtain ⟨c', hc, -⟩ := LC.create hi (VebTree.fromMonad lo mx.2)
    exact ⟨_, by simp [hc]; rfl⟩
  · have J : ChInv (Btw mn.1 mx.1) s c := I.2
    have hsmall : Set.ncard {j | (cmap K c).Mem j} < usizeMax := by
      refine lt_of_lt_of_le (Set.ncard_lt_ncard ⟨?_, ?_⟩ ?_) hcard
      · intro j hj
        exact (Map.mem_ends j).2 (.inr (.inr hj))
      · intro hsub
        exact absurd (J.bound _ (hsub ((Map.mem_ends mn.1).2 (.inl rfl)))).1 (lt_irrefl _)
      · refine Set.Finite.subset (((J.finite).insert mx.1).insert mn.1) ?_
        intro j hj
        rcases (Map.mem_ends j).1 hj with h | h | h
        · exact .inl h
        · exact .inr (.inl h)
        · exact .inr (.inr h)
    simp only
    rcases hc : LC.abs c hi with _ | u
    · obtain ⟨c', hc1, -⟩ := LC.insert_none c hi lo mx.2 J.cInv hc
      have hsafe : LS.Safe (LS.abs s).Mem hi := by
        refine MS.append _ _ (LS.finite s J.sInv) ?_ ?_
        · intro h hh
          obtain ⟨u, hu, hui⟩ := J.child_of_sum hh
          obtain ⟨l, hl⟩ := LT.nonempty u hui
          have hg := J.good _ u l hu hl
          have hm : (cmap K c).Mem (join h l) := by
            rw [Map.Mem, J.cmap_join hu hl]; exact hl
          rcases (lt_of_split hg hs).1 (J.bound _ hm).2 with h' | ⟨rfl, _⟩
          · exact h'
          · rw [hc] at hu; cases hu
        · refine lt_of_le_of_lt ?_ hsmall
          refine le_trans (Set.ncard_le_ncard (t := (fun j => (splitVal j).1) '' {j : K | (cmap K c).Mem j}) ?_
            (J.finite.image _)) (Set.ncard_image_le J.finite)
          intro h hh
          obtain ⟨u, hu, hui⟩ := J.child_of_sum hh
          obtain ⟨l, hl⟩ := LT.nonempty u hui
          exact ⟨join h l, by
            show (cmap K c).Mem _
            rw [Map.Mem, J.cmap_join hu hl]; exact hl, by simp [J.good _ u l hu hl]⟩
      obtain ⟨s', hs1, -⟩ := LS.insert s hi () J.sInv hsafe
      exact ⟨_, by simp [hc1, hs1]; rfl⟩
    · have hlt : ∀ l, (LT.abs u).Mem l → l < lo := by
        intro l hl
        have hg := J.good _ u l hc hl
        have hm : (cmap K c).Mem (join hi l) := by
          rw [Map.Mem, J.cmap_join hc hl]; exact hl
        rcases (lt_of_split hg hs).1 (J.bound _ hm).2 with h' | ⟨_, h'⟩
        · exact absurd h' (lt_irrefl _)
        · exact h'
      have hsafe : LT.Safe (LT.abs u).Mem lo := by
        refine MT.append _ _ (LT.finite u (J.child _ _ hc)) hlt ?_
        refine lt_of_le_of_lt ?_ hsmall
        refine le_trans (Set.ncard_le_ncard (t := (fun j => (splitVal j).2) '' {j : K | (cmap K c).Mem j}) ?_
          (J.finite.image _)) (Set.ncard_image_le J.finite)
        intro l hl
        exact ⟨join hi l, by
          show (cmap K c).Mem _
          rw [Map.Mem, J.cmap_join hc hl]; exact hl, by simp [J.good _ u l hc hl]⟩
      obtain ⟨u', hu1, -⟩ := LT.insert u lo mx.2 (J.child _ _ hc) hsafe
      have hn : LT.abs u lo = none := Map.not_mem.1 fun hm => lt_irrefl _ (hlt _ hm)
      rw [hn] at hu1
      obtain ⟨c', hc1, -⟩ := LC.insert_some c hi lo mx.2 u u' _ J.cInv hc hu1
      exact ⟨_, by simp [hc1]; rfl⟩

theorem exact (ES : Exact LS) (ET : Exact LT) : Exact (inferInstance : LawfulVebTree (Tree K V S C) K V) := by
  intro t k v t' o I hns hi
  obtain ⟨mn, _ | ⟨mx, ch⟩⟩ := t
  · -- one key: always safe
    refine absurd ?_ hns
    intro a b ha hb' hab
    have ha : a = mn.1 := (Map.mem_single (v := mn.2) _ _).1 ha
    have hb' : b = mn.1 := (Map.mem_single (v := mn.2) _ _).1 hb'
    exact absurd (ha.trans hb'.symm) hab
  · have h1 : mn.1 < mx.1 := I.1
    have h2 : ChOK (Btw mn.1 mx.1) ch := I.2
    replace hns : ¬ Safe LS.Safe LT.Safe (⟨mn, some ⟨mx, ch⟩⟩ : Tree K V S C).abs.Mem k := hns
    have hi : (⟨mn, some ⟨mx, ch⟩⟩ : Tree K V S C).insert k v = .ok (t', o) := hi
    show Shows t' ((⟨mn, some ⟨mx, ch⟩⟩ : Tree K V S C).abs.upd k (some v))
    rw [abs_some]
    rcases lt_or_ge k mn.1 with hk | hk
    · obtain ⟨e, -⟩ := insert_below_min h1 hk hi
      refine .inl ⟨mx, ?_, fun p hp => ?_⟩
      · have hm := Map.isMax_ends h1 h2.between
        refine ⟨by rw [Map.upd_ne _ _ (hk.trans h1).ne']; exact hm.1, fun j hj => ?_⟩
        rw [Map.mem_upd_some] at hj
        rcases hj with rfl | hj
        · exact (hk.trans h1).le
        · exact hm.2 j hj
      · rw [e] at hp
        cases hp
        exact ⟨(Map.mem_upd_some _ _ _ _).2 (.inr ((Map.mem_ends _).2 (.inl rfl))), h1.ne⟩
    · have hnot : ∀ x, x = (if mx.1 < k then mx.1 else k) → ∃ s c, ch = some (s, c) ∧ ¬ BelowSafe s c x := by
        intro x hx
        by_contra hcon
        push Not at hcon
        exact hns (safe_of_below h1 h2 hx hk fun s c e => hcon s c e)
      rcases hk.eq_or_lt with rfl | hk
      · refine absurd ?_ hns
        intro a b ha hb' _ hbd
        have hmn := Map.isMin_ends h1 h2.between
        exact ⟨(hbd _ (Map.mem_of hmn.1)).1, .inl (le_antisymm (hmn.2 _ ha) (hbd _ (Map.mem_of hmn.1)).1)⟩
      · rcases lt_trichotomy k mx.1 with hx | rfl | hx
        · obtain ⟨s, c, rfl, hbs⟩ := hnot k (by rw [if_neg (not_lt.2 hx.le)])
          rw [Map.ends_upd_inner h1 h2.between _ hk.ne' hx.ne]
          simp only [insert, cmp_gt hk, cmp_lt hx] at hi
          exact insertBelow_shows ES ET h2 h1 hk hx hbs hi
        · refine absurd ?_ hns
          intro a b ha hb' _ hbd
          have hmx := Map.isMax_ends h1 h2.between
          exact ⟨(hbd _ (Map.mem_of hmx.1)).1.trans (le_refl _),
            .inr (.inl (le_antisymm (hbd _ (Map.mem_of hmx.1)).2 (hmx.2 _ hb')))⟩
        · obtain ⟨s, c, rfl, hbs⟩ := hnot mx.1 (by rw [if_pos hx])
          rw [Map.ends_new_max _ h1 hx]
          simp only [insert, cmp_gt hk, cmp_gt hx] at hi
          have I' : ChInv (Btw mn.1 k) s c :=
            ChInv.rebound h2 fun j hj => ⟨(ChInv.bound h2 j hj).1, (ChInv.bound h2 j hj).2.trans hx⟩
          exact insertBelow_shows (mx := (k, v)) ES ET I' hk h1 hx hbs hi

end Tree

/-! ### the crate -/

theorem exact_of_always {T K V : Type} [LinearOrder K] [VebTree T K V] {L : LawfulVebTree T K V}
    (h : L.Safe = always) : Exact L := by
  intro t k v t' o _ hns
  rw [h] at hns
  exact absurd trivial hns

theorem Box.exact {T K V : Type} [LinearOrder K] [VebTree T K V] {L : LawfulVebTree T K V} (E : Exact L) :
    Exact (inferInstance : LawfulVebTree (Box T) K V) := by
  intro t k v t' o I hns hi
  have hi : (do let (u, o) ← VebTree.insert t.val k v; pure ((⟨u⟩ : Box T), o) : R (Box T × Option (K × V))) =
    .ok (t', o) := hi
  rcases h : VebTree.insert t.val k v with e | ⟨u, o'⟩
  · rw [h] at hi; cases hi
  · rw [h] at hi
    cases hi
    exact E _ _ _ _ _ I hns h

theorem SizedVebTree.exact {T K V : Type} [LinearOrder K] [VebTree T K V] {L : LawfulVebTree T K V}
    (E : Exact L) : Exact (inferInstance : LawfulVebTree (SizedVebTree T) K V) := by
  intro t k v t' o I hns hi
  have hns : ¬ (L.Safe (L.abs t.tree).Mem k ∧
    ((L.abs t.tree).Mem k ∨ Set.ncard {j | (L.abs t.tree).Mem j} < usizeMax)) := hns
  have I : L.Inv t.tree ∧ t.size = (L.abs t.tree).card := I
  rcases h : VebTree.insert t.tree k v with e | ⟨u, o'⟩
  · simp only [VebTree.insert, h] at hi; cases hi
  · have ht : t'.tree = u ∧ (o' = none → t.size + 1 ≤ usizeMax) := by
      simp only [VebTree.insert, h, R.ok_bind] at hi
      obtain _ | e := o'
      · by_cases hle : t.size + 1 ≤ usizeMax
        · simp [hle] at hi
          exact ⟨by rw [← hi.1], fun _ => hle⟩
        · simp [hle, expect] at hi
          cases hi
      · simp at hi
        exact ⟨by rw [← hi.1], by simp⟩
    by_cases hs : L.Safe (L.abs t.tree).Mem k
    · exfalso
      obtain ⟨u', h1, -⟩ := L.insert t.tree k v I.1 hs
      rw [h] at h1
      cases h1
      have h2 : ¬ (L.abs t.tree).Mem k := fun hm => hns ⟨hs, .inl hm⟩
      have h3 : usizeMax ≤ (L.abs t.tree).card := not_lt.1 fun hm => hns ⟨hs, .inr hm⟩
      have := ht.2 (by rw [Map.not_mem.1 h2]; rfl)
      omega
    · have hsh := E _ _ _ _ _ I.1 hs h
      rw [← ht.1] at hsh
      exact hsh

theorem CrateTree.exact {T K V : Type} [LinearOrder K] [VebTree T K V] {safe : (K → Prop) → K → Prop}
    (h : CrateTree T K V safe) : ∃ L : LawfulVebTree T K V, L.Safe = safe ∧ Exact L := by
  induction h with
  | byteSet => exact ⟨inferInstance, rfl, exact_of_always rfl⟩
  | byteMap => exact ⟨inferInstance, rfl, exact_of_always rfl⟩
  | btreeMap => exact ⟨inferInstance, rfl, exact_of_always rfl⟩
  | box _ ih => obtain ⟨L, rfl, E⟩ := ih; exact ⟨inferInstance, rfl, Box.exact E⟩
  | sized _ ih => obtain ⟨L, rfl, E⟩ := ih; exact ⟨inferInstance, rfl, SizedVebTree.exact E⟩
  | tree hk _ _ hc ihs iht =>
    have := hk.lawful
    obtain ⟨LC⟩ := hc.lawful
    obtain ⟨LS, rfl, ES⟩ := ihs
    obtain ⟨LT, rfl, ET⟩ := iht
    exact ⟨inferInstance, rfl, Tree.exact ES ET⟩

/-! ### histories -/

section
variable {T K V : Type} [LinearOrder K] [VebTree T K V]

theorem RunsLikeMap.init {ops : List (Op K V)} {q : Op K V} (h : RunsLikeMap T (ops ++ [q])) :
    ∃ t : Option T, Exec.run none ops = .ok (t, (SL.run [] ops).2) ∧
      ∃ t', Exec.step t q = .ok (t', (SL.step (entries ops) q).2) := by
  obtain ⟨t, h, -⟩ := h
  have key : ∀ (s : Option T) (l : SL K V) (a : List (Op K V)),
      Exec.run s (a ++ [q]) = .ok (t, (SL.run l (a ++ [q])).2) →
      ∃ s', Exec.run s a = .ok (s', (SL.run l a).2) ∧
        ∃ t', Exec.step s' q = .ok (t', (SL.step (SL.run l a).1 q).2) := by
    intro s l a
    induction a generalizing s l with
    | nil =>
      intro h
      refine ⟨s, rfl, ?_⟩
      simp only [List.nil_append, Exec.run] at h
      rcases hs : Exec.step s q with e | ⟨t1, o⟩
      · rw [hs] at h; cases h
      · rw [hs] at h
        cases h
        exact ⟨t1, rfl⟩
    | cons op a ih =>
      intro h
      simp only [List.cons_append, Exec.run] at h ⊢
      rcases hs : Exec.step s op with e | ⟨t1, o⟩
      · rw [hs] at h; cases h
      · simp only [hs, R.ok_bind] at h ⊢
        rcases hr : Exec.run t1 (a ++ [q]) with e | ⟨t2, os⟩
        · rw [hr] at h; cases h
        · rw [hr] at h
          have h : (Except.ok (t2, o :: os) : R _) = .ok (t, (SL.run l (op :: (a ++ [q]))).2) := h
          simp only [SL.run, Except.ok.injEq, Prod.mk.injEq, List.cons.injEq] at h
          obtain ⟨rfl, rfl, rfl⟩ := h
          obtain ⟨s', e1, e2⟩ := ih t1 (SL.step l op).1 hr
          refine ⟨s', ?_, e2⟩
          rw [e1]; rfl
  exact key none [] ops h

/-- If the answers are right throughout, every insertion was safe. -/
theorem safe_of_answers {L : LawfulVebTree T K V} (E : Exact L) {ops : List (Op K V)}
    (h : AnswersThroughout T ops) : SL.SafeHist L.Safe [] ops := by
  by_contra hns
  obtain ⟨pre, k, v, hp, hsafe, hne, hk⟩ := SL.first_unsafe hns
  obtain ⟨hmax, hpred⟩ := h _ hp
  obtain ⟨t, h1, h2⟩ := run_ok (L := L) rel_none pre hsafe
  obtain _ | t := t
  · exact hne h2
  obtain ⟨I, hl⟩ := h2
  obtain ⟨s, hr, -⟩ := hmax.init
  -- the tree after the insertion
  have hstep : ∃ t' o, VebTree.insert t k v = .ok (t', o) ∧ s = some t' := by
    rcases hi : VebTree.insert t k v with e | ⟨t', o⟩
    · exfalso
      have : ∀ (s0 : Option T) (a : List (Op K V)) os', Exec.run s0 a = .ok (some t, os') →
          Exec.run s0 (a ++ [.insert k v]) = .error e := by
        intro s0 a
        induction a generalizing s0 with
        | nil => intro os' h; cases h; simp [Exec.run, Exec.step, Exec.stepTree, hi]; rfl
        | cons op a ih =>
          intro os' h
          simp only [List.cons_append, Exec.run] at h ⊢
          rcases hs' : Exec.step s0 op with e' | ⟨t1, o1⟩
          · rw [hs'] at h; cases h
          · rw [hs'] at h
            simp only [R.ok_bind] at h ⊢
            rcases hr' : Exec.run t1 a with e' | ⟨t2, os2⟩
            · rw [hr'] at h; cases h
            · rw [hr'] at h
              cases h
              rw [ih _ _ hr']; rfl
      rw [this _ _ _ h1] at hr
      cases hr
    · have := run_append_ok h1 (b := [.insert k v]) (t'' := some t') (os' := [.kv o])
        (by simp [Exec.run, Exec.step, Exec.stepTree, hi])
      rw [hr] at this
      exact ⟨t', o, rfl, (Prod.mk.inj (Except.ok.inj this)).1⟩
  obtain ⟨t', o, hi, rfl⟩ := hstep
  have hns : ¬ L.Safe (L.abs t).Mem k := by rwa [hl.keys] at hk
  have hl' : SL.Lists (entries (pre ++ [.insert k v])) ((L.abs t).upd k (some v)) := by
    rw [entries, SL.run_append]
    exact hl.insert k v
  have hreach : ∀ q, RunsLikeMap T ((pre ++ [.insert k v]) ++ [q]) →
      ∃ t'', Exec.stepTree t' q = .ok (t'', (SL.step (entries (pre ++ [.insert k v])) q).2) := by
    intro q hq
    obtain ⟨s, e1, e2⟩ := hq.init
    rw [hr] at e1
    cases e1
    exact e2
  rcases E t k v t' o I hns hi with ⟨e, he, ha⟩ | ⟨j, e, _, he, ha⟩
  · obtain ⟨t'', hq⟩ := hreach _ hmax
    rcases hm : VebTree.maxVal t' with er | p
    · simp [Exec.stepTree, hm] at hq; cases hq
    · simp [Exec.stepTree, hm, SL.step, hl'.maxE.2 he] at hq
      exact (ha p hm).2 (by rw [hq.2])
  · obtain ⟨t'', hq⟩ := hreach _ (hpred j)
    rcases hm : VebTree.predecessor t' j with er | p
    · simp [Exec.stepTree, hm] at hq; cases hq
    · simp [Exec.stepTree, hm, SL.step, ← hl'.pred_eq he] at hq
      obtain ⟨-, rfl⟩ := hq
      exact (ha e hm).2 rfl

end

end Veb
