import Verif.Proof.AnyOrd

/-!
`Tree` keeps its structure under every operation, whatever the comparisons and the splitting of its keys do.
-/

set_option autoImplicit false
set_option linter.unusedSectionVars false

namespace Veb
namespace OTree
variable {K V S C Hi Lo T : Type} [AnyOrd K] [LinearOrder Hi]
  [VebKey K Hi Lo] [VebKeyRef K Hi Lo]
  [VebTree S Hi Unit] [PS : PhysTree S Hi Unit]
  [VebTree T Lo V] [PT : ObjTree T Lo V]
  [TreeCollection C Hi T Lo V] [LC : LawfulColl C Hi T Lo V]

open VebKey (splitVal join)

/-- An entry of the child at `h`, as an entry of the tree. -/
def lift (K : Type) [VebKey K Hi Lo] (h : Hi) (e : Lo × V) : K × V := (join h e.1, e.2)

/-- Entries stored in the child at `h`. -/
def cell (K : Type) [VebKey K Hi Lo] (M : Map Hi T) (h : Hi) : Multiset (K × V) :=
  match M h with
  | none => 0
  | some u => (PT.ents u).map (lift K h)

/-- Entries stored in the children. -/
def chbag (K : Type) [VebKey K Hi Lo] (s : S) (c : C) : Multiset (K × V) := (PS.bag s).bind (cell K (LC.abs c))

/-- Structure of summary and children: the summary holds each key of a child once, and nothing else. -/
structure ChW (s : S) (c : C) : Prop where
  sW : PS.W s
  nodup : (PS.bag s).Nodup
  cInv : LC.Inv c
  sum : ∀ h, h ∈ PS.bag s ↔ (LC.abs c).Mem h
  child : ∀ h u, LC.abs c h = some u → PT.W u

namespace ChW
variable {s : S} {c : C}

theorem join_mem (I : ChW s c) {h : Hi} {u : T} {l : Lo} {v : V} (hu : LC.abs c h = some u)
    (hl : (l, v) ∈ PT.ents u) : ((join h l : K), v) ∈ chbag K s c := by
  rw [chbag, Multiset.mem_bind]
  refine ⟨h, (I.sum h).2 (Map.mem_of hu), ?_⟩
  unfold cell
  rw [hu]
  exact Multiset.mem_map.2 ⟨(l, v), hl, rfl⟩

/-- The child at `h` and the others. -/
theorem split (I : ChW s c) {h : Hi} {u : T} (hu : LC.abs c h = some u) :
    ∃ r, PS.bag s = h ::ₘ r ∧ h ∉ r ∧
      chbag K s c = (PT.ents u).map (lift K h) + r.bind (cell K (LC.abs c)) := by
  obtain ⟨r, hr⟩ := Multiset.exists_cons_of_mem ((I.sum h).2 (Map.mem_of hu))
  have hn := I.nodup
  rw [hr, Multiset.nodup_cons] at hn
  refine ⟨r, hr, hn.1, ?_⟩
  rw [chbag, hr, Multiset.cons_bind, cell, hu]

theorem bind_upd {M : Map Hi T} {h : Hi} {o : Option T} {r : Multiset Hi} (hr : h ∉ r) :
    r.bind (cell K (M.upd h o)) = r.bind (cell K M) := by
  refine Multiset.bind_congr fun j hj => ?_
  have : j ≠ h := fun e => hr (e ▸ hj)
  simp only [cell, Map.upd_ne _ _ this]

/-- The child at `h` is replaced by `u'`. -/
theorem set (I : ChW s c) {h : Hi} {u u' : T} {c' : C} (hu : LC.abs c h = some u) (hc : LC.Inv c')
    (ha : LC.abs c' = (LC.abs c).upd h (some u')) (hw : PT.W u') {r : Multiset Hi} (hr : PS.bag s = h ::ₘ r)
    (hn : h ∉ r) :
    ChW s c' ∧ chbag K s c' = (PT.ents u').map (lift K h) + r.bind (cell K (LC.abs c)) := by
  refine ⟨⟨I.sW, I.nodup, hc, fun j => ?_, fun j v hj => ?_⟩, ?_⟩
  · rw [I.sum, ha, Map.mem_upd_some]
    exact ⟨.inr, fun h => h.elim (fun e => e ▸ Map.mem_of hu) id⟩
  · rw [ha, Map.upd_apply] at hj
    split at hj
    · cases hj; exact hw
    · exact I.child j v hj
  · rw [chbag, hr, Multiset.cons_bind, ha, bind_upd hn]
    simp [cell]

/-- A new child. -/
theorem add (I : ChW s c) {h : Hi} {u' : T} {s' : S} {c' : C} (hu : LC.abs c h = none) (hc : LC.Inv c')
    (ha : LC.abs c' = (LC.abs c).upd h (some u')) (hw : PT.W u') (hs : PS.W s') (hb : PS.bag s' = h ::ₘ PS.bag s) :
    ChW s' c' ∧ chbag K s' c' = (PT.ents u').map (lift K h) + chbag K s c := by
  have hn : h ∉ PS.bag s := by rw [I.sum]; exact fun x => x hu
  refine ⟨⟨hs, by rw [hb]; exact Multiset.nodup_cons.2 ⟨hn, I.nodup⟩, hc, fun j => ?_, fun j v hj => ?_⟩, ?_⟩
  · rw [hb, ha, Map.mem_upd_some, Multiset.mem_cons, I.sum]
  · rw [ha, Map.upd_apply] at hj
    split at hj
    · cases hj; exact hw
    · exact I.child j v hj
  · rw [chbag, hb, Multiset.cons_bind, ha, bind_upd hn]
    simp [cell, chbag]

/-- A child is dropped. -/
theorem drop (I : ChW s c) {h : Hi} {s' : S} {c' : C} (hc : LC.Inv c')
    (ha : LC.abs c' = (LC.abs c).upd h none) (hs : PS.W s') (hb : PS.bag s = h ::ₘ PS.bag s') :
    ChW s' c' ∧ chbag K s' c' = (PS.bag s').bind (cell K (LC.abs c)) := by
  have hn := I.nodup
  rw [hb, Multiset.nodup_cons] at hn
  refine ⟨⟨hs, hn.2, hc, fun j => ?_, fun j v hj => ?_⟩, ?_⟩
  · have := I.sum j
    rw [hb, Multiset.mem_cons] at this
    rw [ha, Map.mem_upd_none, ← this]
    constructor
    · exact fun hj => ⟨fun e => hn.1 (e ▸ hj), .inr hj⟩
    · rintro ⟨h1, h2⟩; exact h2.resolve_left h1
  · rw [ha, Map.upd_apply] at hj
    split at hj
    · cases hj
    · exact I.child j v hj
  · rw [chbag, ha, bind_upd hn.1]

/-- Each child holds at most as many keys as there are, and so does the summary. -/
theorem card_child (I : ChW s c) {h : Hi} {u : T} (hu : LC.abs c h = some u) :
    (PT.ents u).card ≤ (chbag K s c).card := by
  obtain ⟨r, -, -, e⟩ := I.split (K := K) hu
  rw [e, Multiset.card_add, Multiset.card_map]
  omega

theorem card_sum (I : ChW s c) : (PS.bag s).card ≤ (chbag K s c).card := by
  rw [chbag, Multiset.card_bind]
  have := Multiset.card_nsmul_le_sum (s := (PS.bag s).map (Multiset.card ∘ cell K (LC.abs c))) (a := 1) (by
    intro x hx
    obtain ⟨h, hh, rfl⟩ := Multiset.mem_map.1 hx
    obtain ⟨u, hu⟩ := Map.mem_iff.1 ((I.sum h).1 hh)
    simp only [Function.comp, cell, hu, Multiset.card_map]
    exact ObjTree.ents_pos (I.child h u hu))
  simpa using this

end ChW

/-! ### the invariant -/

/-- Entries stored in the children. -/
def ochbag (K : Type) [VebKey K Hi Lo] : Option (S × C) → Multiset (K × V)
  | none => 0
  | some p => chbag K p.1 p.2

def OChW : Option (S × C) → Prop
  | none => True
  | some p => ChW p.1 p.2

/-- Structural invariant. -/
def W (t : OTree K V S C) : Prop :=
  match t.data with
  | none => True
  | some d => OChW d.children

/-- All entries stored. -/
def ents (t : OTree K V S C) : Multiset (K × V) :=
  match t.data with
  | none => {t.min}
  | some d => t.min ::ₘ d.max ::ₘ ochbag K d.children

/-! ### writing through references -/

theorem phys_put_min {t : OTree K V S C} (h : W t) : MutPhysE W ents t (some (t.min.1, t.min.2, t.putMin)) := by
  obtain ⟨mn, _ | d⟩ := t
  · exact ⟨0, rfl, fun w => ⟨trivial, rfl⟩⟩
  · exact ⟨_, rfl, fun w => ⟨h, rfl⟩⟩

theorem phys_put_max {mn : K × V} {d : OTreeData K V S C} (h : W (⟨mn, some d⟩ : OTree K V S C)) :
    MutPhysE W ents (⟨mn, some d⟩ : OTree K V S C)
      (some (d.max.1, d.max.2, (⟨mn, some d⟩ : OTree K V S C).putMax d)) :=
  ⟨mn ::ₘ ochbag K d.children, Multiset.cons_swap _ _ _, fun _ => ⟨h, Multiset.cons_swap _ _ _⟩⟩

theorem put3 {mn mx e : K × V} {X X' : Multiset (K × V)} (h : X = e ::ₘ X') :
    mn ::ₘ mx ::ₘ X = e ::ₘ mn ::ₘ mx ::ₘ X' := by
  rw [h, Multiset.cons_swap mx, Multiset.cons_swap mn]

theorem phys_put_child {mn mx : K × V} {s : S} {c : C} (I : ChW s c) {hi : Hi} {u : T} {lo : Lo} {v : V}
    {putC : T → C} {put : V → T} (hu : LC.abs c hi = some u)
    (hputC : ∀ u, LC.Inv (putC u) ∧ LC.abs (putC u) = (LC.abs c).upd hi (some u))
    (h : MutPhysE PT.W PT.ents u (some (lo, v, put))) :
    MutPhysE W ents (⟨mn, some ⟨mx, some (s, c)⟩⟩ : OTree K V S C) (some (join hi lo, v, fun w =>
      (⟨mn, some ⟨mx, some (s, c)⟩⟩ : OTree K V S C).putChildren ⟨mx, some (s, c)⟩ s (putC (put w)))) := by
  obtain ⟨q, g1, g2⟩ := h
  obtain ⟨r, h1, h2, h3⟩ := I.split (K := K) hu
  refine ⟨mn ::ₘ mx ::ₘ (q.map (lift K hi) + r.bind (cell K (LC.abs c))), put3 (X := chbag K s c) ?_, fun w => ?_⟩
  · rw [h3, g1, Multiset.map_cons, Multiset.cons_add]; rfl
  · obtain ⟨h4, h5⟩ := I.set (K := K) hu (hputC (put w)).1 (hputC (put w)).2 (g2 w).1 h1 h2
    refine ⟨h4, put3 (X := chbag K s (putC (put w))) ?_⟩
    rw [h5, (g2 w).2, Multiset.map_cons, Multiset.cons_add]; rfl

/-! ### reaching into the children -/

theorem ch_child {s : S} {c : C} (I : ChW s c) {hi : Hi} (h : hi ∈ PS.bag s) :
    ∃ u, LC.abs c hi = some u ∧ PT.W u := by
  obtain ⟨u, hu⟩ := Map.mem_iff.1 ((I.sum hi).1 h)
  exact ⟨u, hu, I.child hi u hu⟩

theorem mem_inner {mn mx : K × V} {s : S} {c : C} (I : ChW s c) {h : Hi} {u : T} {l : Lo} {v : V}
    (hu : LC.abs c h = some u) (hl : (l, v) ∈ PT.ents u) :
    ∀ e : K × V, some (join h l, v) = some e → e ∈ ents (⟨mn, some ⟨mx, some (s, c)⟩⟩ : OTree K V S C) := by
  rintro e ⟨⟩
  exact Multiset.mem_cons_of_mem (Multiset.mem_cons_of_mem (I.join_mem hu hl))
theorem mem_min {mn : K × V} {d : Option (OTreeData K V S C)} :
    ∀ e : K × V, some mn = some e → e ∈ ents (⟨mn, d⟩ : OTree K V S C) := by
  rintro e ⟨⟩
  cases d <;> simp [ents]
theorem mem_max {mn mx : K × V} {ch : Option (S × C)} :
    ∀ e : K × V, some mx = some e → e ∈ ents (⟨mn, some ⟨mx, ch⟩⟩ : OTree K V S C) := by
  rintro e ⟨⟩
  simp [ents]

theorem phys_find (t : OTree K V S C) (k : K) (h : W t) :
    ∃ r, t.find k = .ok r ∧ ∀ e, r = some e → e ∈ ents t := by
  obtain ⟨mn, d⟩ := t
  rcases hk : AnyOrd.cmp k mn.1
  · exact ⟨none, by simp [find, hk], by simp⟩
  · exact ⟨some mn, by simp [find, hk], mem_min⟩
  · obtain _ | ⟨mx, ch⟩ := d
    · exact ⟨none, by simp [find, hk], by simp⟩
    · by_cases hx : AnyOrd.eq k mx.1 = true
      · exact ⟨some mx, by simp [find, hk, hx], mem_max⟩
      · obtain _ | ⟨s, c⟩ := ch
        · exact ⟨none, by simp [find, hk, hx], by simp⟩
        · have I : ChW s c := h
          rcases hs : VebKeyRef.splitRef k with ⟨hi, lo⟩
          simp only [find, hk, hx, if_false, hs, LC.get _ _ I.cInv, R.ok_bind]
          cases hc : LC.abs c hi with
          | none => exact ⟨none, rfl, by simp⟩
          | some u =>
            obtain ⟨r, h1, h2⟩ := PT.find u lo (I.child _ _ hc)
            obtain _ | ⟨lo', v⟩ := r
            · exact ⟨none, by simp [h1], by simp⟩
            · exact ⟨_, by simp only [h1, R.ok_bind]; rfl, mem_inner I hc (h2 _ rfl)⟩

theorem phys_findMut (t : OTree K V S C) (k : K) (h : W t) :
    ∃ r, t.findMut k = .ok r ∧ MutPhysE W ents t r := by
  obtain ⟨mn, d⟩ := t
  rcases hk : AnyOrd.cmp k mn.1
  · exact ⟨none, by simp [findMut, hk], trivial⟩
  · exact ⟨_, by simp only [findMut, hk]; rfl, phys_put_min h⟩
  · obtain _ | ⟨mx, ch⟩ := d
    · exact ⟨none, by simp [findMut, hk], trivial⟩
    · by_cases hx : AnyOrd.eq k mx.1 = true
      · exact ⟨_, by simp only [findMut, hk, hx, if_true]; rfl, phys_put_max h⟩
      · obtain _ | ⟨s, c⟩ := ch
        · exact ⟨none, by simp [findMut, hk, hx], trivial⟩
        · have I : ChW s c := h
          rcases hs : VebKeyRef.splitRef k with ⟨hi, lo⟩
          simp only [findMut, hk, hx, if_false, hs]
          cases hc : LC.abs c hi with
          | none => exact ⟨none, by simp [LC.getMut_none _ _ I.cInv hc], trivial⟩
          | some u =>
            obtain ⟨putC, hp, hpc⟩ := LC.getMut_some _ _ _ I.cInv hc
            obtain ⟨r, h1, h2⟩ := PT.findMut u lo (I.child _ _ hc)
            obtain _ | ⟨lo', v, put⟩ := r
            · exact ⟨none, by simp [hp, h1], trivial⟩
            · exact ⟨_, by simp only [hp, h1, R.ok_bind]; rfl, phys_put_child I hc hpc h2⟩

theorem phys_predecessor (t : OTree K V S C) (k : K) (h : W t) :
    ∃ r, t.predecessor k = .ok r ∧ ∀ e, r = some e → e ∈ ents t := by
  obtain ⟨mn, d⟩ := t
  by_cases hk : AnyOrd.le k mn.1 = true
  · exact ⟨none, by simp [predecessor, hk], by simp⟩
  · obtain _ | ⟨mx, ch⟩ := d
    · exact ⟨some mn, by simp [predecessor, hk], mem_min⟩
    · rcases hx : AnyOrd.cmp k mx.1
      · obtain _ | ⟨s, c⟩ := ch
        · exact ⟨some mn, by simp [predecessor, hk, hx], mem_min⟩
        · have I : ChW s c := h
          rcases hs : VebKeyRef.splitRef k with ⟨hi, lo⟩
          simp only [predecessor, hk, if_false, hx, hs, LC.get _ _ I.cInv, R.ok_bind]
          obtain ⟨r, h1, h2⟩ := PS.predecessor s hi I.sW
          have fin : ∃ r', (match r with
              | some (hi, ()) => do
                let child ← expect "child should exist for summary key" (LC.abs c hi)
                let (lo, val) ← VebTree.maxVal child
                pure (some (VebKey.join hi lo, val))
              | none => pure (some mn) : R (Option (K × V))) = .ok r' ∧
              ∀ e, r' = some e → e ∈ ents (⟨mn, some ⟨mx, some (s, c)⟩⟩ : OTree K V S C) := by
            obtain _ | ⟨hi', ⟨⟩⟩ := r
            · exact ⟨_, rfl, mem_min⟩
            · obtain ⟨u, hu, hw⟩ := ch_child I (h2 _ rfl)
              obtain ⟨lo', v, h3, h4⟩ := PT.maxVal u hw
              exact ⟨_, by simp only [hu, expect_some, R.ok_bind, h3]; rfl, mem_inner I hu h4⟩
          obtain ⟨r', h3, h4⟩ := fin
          rcases hc : LC.abs c hi with _ | u
          · exact ⟨r', by simp only [R.ok_bind, R.pure_eq, h1]; exact h3, h4⟩
          · obtain ⟨q, h5, h6⟩ := PT.predecessor u lo (I.child _ _ hc)
            obtain _ | ⟨lo', v⟩ := q
            · exact ⟨r', by simp only [h5, R.ok_bind, R.pure_eq, h1]; exact h3, h4⟩
            · exact ⟨_, by simp only [h5, R.ok_bind]; rfl, mem_inner I hc (h6 _ rfl)⟩
      · obtain _ | ⟨s, c⟩ := ch
        · exact ⟨some mn, by simp [predecessor, hk, hx], mem_min⟩
        · have I : ChW s c := h
          obtain ⟨hi, ⟨⟩, h1, h2⟩ := PS.maxVal s I.sW
          obtain ⟨u, hu, hw⟩ := ch_child I h2
          obtain ⟨lo, v, h3, h4⟩ := PT.maxVal u hw
          refine ⟨some (join hi lo, v), ?_, mem_inner I hu h4⟩
          simp [predecessor, hk, hx, h1, LC.get _ _ I.cInv, hu, h3]
      · exact ⟨some mx, by simp [predecessor, hk, hx], mem_max⟩

theorem phys_successor (t : OTree K V S C) (k : K) (h : W t) :
    ∃ r, t.successor k = .ok r ∧ ∀ e, r = some e → e ∈ ents t := by
  obtain ⟨mn, d⟩ := t
  by_cases hk : AnyOrd.lt k mn.1 = true
  · exact ⟨some mn, by simp [successor, hk], mem_min⟩
  · obtain _ | ⟨mx, ch⟩ := d
    · exact ⟨none, by simp [successor, hk], by simp⟩
    · by_cases hx : AnyOrd.ge k mx.1 = true
      · exact ⟨none, by simp [successor, hk, hx], by simp⟩
      · obtain _ | ⟨s, c⟩ := ch
        · exact ⟨some mx, by simp [successor, hk, hx], mem_max⟩
        · have I : ChW s c := h
          by_cases hm : AnyOrd.eq k mn.1 = true
          · obtain ⟨hi, ⟨⟩, h1, h2⟩ := PS.minVal s I.sW
            obtain ⟨u, hu, hw⟩ := ch_child I h2
            obtain ⟨lo, v, h3, h4⟩ := PT.minVal u hw
            refine ⟨some (join hi lo, v), ?_, mem_inner I hu h4⟩
            simp [successor, hk, hx, hm, h1, LC.get _ _ I.cInv, hu, h3]
          · rcases hs : VebKeyRef.splitRef k with ⟨hi, lo⟩
            simp only [successor, hk, hx, hm, if_false, hs, LC.get _ _ I.cInv, R.ok_bind]
            obtain ⟨r, h1, h2⟩ := PS.successor s hi I.sW
            have fin : ∃ r', (match r with
                | some (hi, ()) => do
                  let child ← expect "child should exist for summary key" (LC.abs c hi)
                  let (lo, val) ← VebTree.minVal child
                  pure (some (VebKey.join hi lo, val))
                | none => pure (some mx) : R (Option (K × V))) = .ok r' ∧
                ∀ e, r' = some e → e ∈ ents (⟨mn, some ⟨mx, some (s, c)⟩⟩ : OTree K V S C) := by
              obtain _ | ⟨hi', ⟨⟩⟩ := r
              · exact ⟨_, rfl, mem_max⟩
              · obtain ⟨u, hu, hw⟩ := ch_child I (h2 _ rfl)
                obtain ⟨lo', v, h3, h4⟩ := PT.minVal u hw
                exact ⟨_, by simp only [hu, expect_some, R.ok_bind, h3]; rfl, mem_inner I hu h4⟩
            obtain ⟨r', h3, h4⟩ := fin
            rcases hc : LC.abs c hi with _ | u
            · exact ⟨r', by simp only [R.ok_bind, R.pure_eq, h1]; exact h3, h4⟩
            · obtain ⟨q, h5, h6⟩ := PT.successor u lo (I.child _ _ hc)
              obtain _ | ⟨lo', v⟩ := q
              · exact ⟨r', by simp only [h5, R.ok_bind, R.pure_eq, h1]; exact h3, h4⟩
              · exact ⟨_, by simp only [h5, R.ok_bind]; rfl, mem_inner I hc (h6 _ rfl)⟩

theorem phys_predecessorMut (t : OTree K V S C) (k : K) (h : W t) :
    (∃ r, t.predecessorMut k = .ok r ∧ MutPhysE W ents t r) ∨
      (t.predecessorMut k = .error .debugAssert ∧ ¬ (PT.agree ∧ LeOrGt K)) := by
  obtain ⟨mn, d⟩ := t
  by_cases hk : AnyOrd.le k mn.1 = true
  · exact .inl ⟨none, by simp [predecessorMut, hk], trivial⟩
  · obtain _ | ⟨mx, ch⟩ := d
    · exact .inl ⟨_, by simp only [predecessorMut, hk, if_false]; rfl, phys_put_min h⟩
    · rcases hx : AnyOrd.cmp k mx.1
      · obtain _ | ⟨s, c⟩ := ch
        · exact .inl ⟨_, by simp only [predecessorMut, hk, if_false, hx]; rfl, phys_put_min h⟩
        · have I : ChW s c := h
          rcases hs : VebKeyRef.splitRef k with ⟨hi, lo⟩
          simp only [predecessorMut, hk, if_false, hx, hs]
          obtain ⟨r, h1, h2⟩ := PS.predecessor s hi I.sW
          have fin : ∃ r', (match r with
              | some (hi, ()) => do
                let (child, putC) ←
                  expect "child should exist for summary key" (← TreeCollection.getMut c hi)
                let (lo, val, put) ← VebTree.maxValMut child
                pure (some (VebKey.join hi lo, val, fun w =>
                  (⟨mn, some ⟨mx, some (s, c)⟩⟩ : OTree K V S C).putChildren ⟨mx, some (s, c)⟩ s (putC (put w))))
              | none => pure (some (mn.1, mn.2, (⟨mn, some ⟨mx, some (s, c)⟩⟩ : OTree K V S C).putMin)) :
                R (Option (K × V × (V → OTree K V S C)))) = .ok r' ∧
              MutPhysE W ents (⟨mn, some ⟨mx, some (s, c)⟩⟩ : OTree K V S C) r' := by
            obtain _ | ⟨hi', ⟨⟩⟩ := r
            · exact ⟨_, rfl, phys_put_min (t := ⟨mn, some ⟨mx, some (s, c)⟩⟩) h⟩
            · obtain ⟨u, hu, hw⟩ := ch_child I (h2 _ rfl)
              obtain ⟨⟨lo', v, put⟩, h3, h4⟩ := PT.maxValMut u hw
              obtain ⟨putC, hp, hpc⟩ := LC.getMut_some _ _ _ I.cInv hu
              exact ⟨_, by simp only [hp, expect_some, R.ok_bind, h3]; rfl, phys_put_child I hu hpc h4⟩
          obtain ⟨r', h3, h4⟩ := fin
          rcases hc : LC.abs c hi with _ | u
          · exact .inl ⟨r', by simp only [LC.getMut_none _ _ I.cInv hc, R.ok_bind, R.pure_eq, h1]; exact h3, h4⟩
          · obtain ⟨putC, hp, hpc⟩ := LC.getMut_some _ _ _ I.cInv hc
            rcases PT.predecessorMut u lo (I.child _ _ hc) with ⟨q, h5, h6⟩ | ⟨h5, h6⟩
            · refine .inl ?_
              simp only [hp, h5, R.ok_bind, R.pure_eq]
              obtain _ | ⟨lo', v, put⟩ := q
              · exact ⟨r', by simp only [Option.map_none, h1]; exact h3, h4⟩
              · exact ⟨_, rfl, phys_put_child I hc hpc h6⟩
            · exact .inr ⟨by simp only [hp, h5, R.ok_bind]; rfl, fun x => h6 x.1⟩
      · obtain _ | ⟨s, c⟩ := ch
        · exact .inl ⟨_, by simp only [predecessorMut, hk, if_false, hx]; rfl, phys_put_min h⟩
        · have I : ChW s c := h
          cases hg : AnyOrd.gt k mn.1 with
          | true =>
            obtain ⟨hi, ⟨⟩, h1, h2⟩ := PS.maxVal s I.sW
            obtain ⟨u, hu, hw⟩ := ch_child I h2
            obtain ⟨⟨lo, v, put⟩, h3, h4⟩ := PT.maxValMut u hw
            obtain ⟨putC, hp, hpc⟩ := LC.getMut_some _ _ _ I.cInv hu
            refine .inl ⟨_, ?_, phys_put_child I hu hpc h4⟩
            simp [predecessorMut, hk, hx, debugAssert, hg, h1, hp, h3]
          | false =>
            refine .inr ⟨by simp only [predecessorMut, hk, hx, debugAssert, hg]; rfl, fun x => ?_⟩
            have := x.2 k mn.1 (by simpa using hk)
            rw [hg] at this
            cases this
      · exact .inl ⟨_, by simp only [predecessorMut, hk, if_false, hx]; rfl, phys_put_max h⟩

theorem phys_successorMut (t : OTree K V S C) (k : K) (h : W t) :
    ∃ r, t.successorMut k = .ok r ∧ MutPhysE W ents t r := by
  obtain ⟨mn, d⟩ := t
  by_cases hk : AnyOrd.lt k mn.1 = true
  · exact ⟨_, by simp only [successorMut, hk, if_true]; rfl, phys_put_min h⟩
  · obtain _ | ⟨mx, ch⟩ := d
    · exact ⟨none, by simp [successorMut, hk], trivial⟩
    · by_cases hx : AnyOrd.ge k mx.1 = true
      · exact ⟨none, by simp [successorMut, hk, hx], trivial⟩
      · obtain _ | ⟨s, c⟩ := ch
        · exact ⟨_, by simp only [successorMut, hk, hx, if_false]; rfl, phys_put_max h⟩
        · have I : ChW s c := h
          by_cases hm : AnyOrd.eq k mn.1 = true
          · obtain ⟨hi, ⟨⟩, h1, h2⟩ := PS.minVal s I.sW
            obtain ⟨u, hu, hw⟩ := ch_child I h2
            obtain ⟨⟨lo, v, put⟩, h3, h4⟩ := PT.minValMut u hw
            obtain ⟨putC, hp, hpc⟩ := LC.getMut_some _ _ _ I.cInv hu
            refine ⟨_, ?_, phys_put_child I hu hpc h4⟩
            simp [successorMut, hk, hx, hm, h1, hp, h3]
          · rcases hs : VebKeyRef.splitRef k with ⟨hi, lo⟩
            simp only [successorMut, hk, hx, hm, if_false, hs]
            obtain ⟨r, h1, h2⟩ := PS.successor s hi I.sW
            have fin : ∃ r', (match r with
                | some (hi, ()) => do
                  let (child, putC) ←
                    expect "child should exist for summary key" (← TreeCollection.getMut c hi)
                  let (lo, val, put) ← VebTree.minValMut child
                  pure (some (VebKey.join hi lo, val, fun w =>
                    (⟨mn, some ⟨mx, some (s, c)⟩⟩ : OTree K V S C).putChildren ⟨mx, some (s, c)⟩ s (putC (put w))))
                | none => pure (some (mx.1, mx.2,
                    (⟨mn, some ⟨mx, some (s, c)⟩⟩ : OTree K V S C).putMax ⟨mx, some (s, c)⟩)) :
                  R (Option (K × V × (V → OTree K V S C)))) = .ok r' ∧
                MutPhysE W ents (⟨mn, some ⟨mx, some (s, c)⟩⟩ : OTree K V S C) r' := by
              obtain _ | ⟨hi', ⟨⟩⟩ := r
              · exact ⟨_, rfl, phys_put_max (d := ⟨mx, some (s, c)⟩) h⟩
              · obtain ⟨u, hu, hw⟩ := ch_child I (h2 _ rfl)
                obtain ⟨⟨lo', v, put⟩, h3, h4⟩ := PT.minValMut u hw
                obtain ⟨putC, hp, hpc⟩ := LC.getMut_some _ _ _ I.cInv hu
                exact ⟨_, by simp only [hp, expect_some, R.ok_bind, h3]; rfl, phys_put_child I hu hpc h4⟩
            obtain ⟨r', h3, h4⟩ := fin
            rcases hc : LC.abs c hi with _ | u
            · exact ⟨r', by simp only [LC.getMut_none _ _ I.cInv hc, R.ok_bind, R.pure_eq, h1]; exact h3, h4⟩
            · obtain ⟨putC, hp, hpc⟩ := LC.getMut_some _ _ _ I.cInv hc
              obtain ⟨q, h5, h6⟩ := PT.successorMut u lo (I.child _ _ hc)
              simp only [hp, h5, R.ok_bind, R.pure_eq]
              obtain _ | ⟨lo', v, put⟩ := q
              · exact ⟨r', by simp only [Option.map_none, h1]; exact h3, h4⟩
              · exact ⟨_, rfl, phys_put_child I hc hpc h6⟩

/-! ### insertion -/

theorem map_lift (h : Hi) (b : Multiset (Lo × V)) : (b.map (lift K h)).map Prod.snd = b.map Prod.snd := by
  rw [Multiset.map_map]; rfl
theorem om_map {X Y : Type} (f : X → Y) (o : Option X) : om (o.map f) = (om o).map f := by
  cases o
  · rfl
  · exact (Multiset.map_singleton _ _).symm

theorem phys_insertBelow {mn mx : K × V} {ch : Option (S × C)} {k : K} {v : V} (hb : OChW ch)
    (hl : PS.limited ∨ PT.limited → (ochbag K ch).card < usizeMax) :
    ∃ ch' o, insertBelow mn ⟨mx, ch⟩ k v = .ok (⟨mn, some ⟨mx, ch'⟩⟩, o) ∧ OChW ch' ∧
      InsAny (PT.exact ∧ Rejoins K) (k, v) (ochbag K ch) (ochbag K ch') o := by
  rcases hs : splitVal k with ⟨hi, lo⟩
  have hj : Rejoins K → (join hi lo : K) = k := fun r => by have := r k; rwa [hs] at this
  simp only [insertBelow, hs]
  have hT := PT.fromMonad lo v
  obtain _ | ⟨s, c⟩ := ch
  · obtain ⟨c', hc1, hc2, hc3⟩ := LC.create hi (VebTree.fromMonad lo v)
    have hS := PS.fromMonad hi ()
    refine ⟨some (VebTree.fromMonad hi (), c'), none, by simp [hc1], ?_, ?_⟩
    · refine ⟨hS.1, by rw [hS.2]; exact Multiset.nodup_singleton _, hc2, fun j => ?_, fun j u hj => ?_⟩
      · rw [hS.2, hc3, Map.mem_single, Multiset.mem_singleton]
      · rw [hc3, Map.single_apply] at hj
        split at hj
        · cases hj; exact hT.1
        · cases hj
    · have e : chbag K (VebTree.fromMonad hi () : S) c' = {((join hi lo : K), v)} := by
        rw [chbag, hS.2, Multiset.singleton_bind, cell, hc3, Map.single_apply, if_pos rfl]
        simp only [hT.2, Multiset.map_singleton, lift]
      refine ⟨?_, fun x => ?_, by simp⟩
      · show (chbag K (VebTree.fromMonad hi () : S) c').map Prod.snd + _ = _
        rw [e]; rfl
      · show chbag K (VebTree.fromMonad hi () : S) c' + _ = _
        rw [e, hj x.2]; rfl
  · have I : ChW s c := hb
    change PS.limited ∨ PT.limited → (chbag K s c).card < usizeMax at hl
    rcases hc : LC.abs c hi with _ | u
    · obtain ⟨c', hc1, hc2, hc3⟩ := LC.insert_none c hi lo v I.cInv hc
      have hn : hi ∉ PS.bag s := by rw [I.sum]; exact fun x => x hc
      obtain ⟨s', o, hs1, hs2, hs3, hs4, -⟩ := PS.insert s hi () I.sW
        fun h => lt_of_le_of_lt I.card_sum (hl (.inl h))
      cases hs4 I.nodup hn
      obtain ⟨e1, e2⟩ := I.add (K := K) hc hc2 hc3 hT.1 hs2 hs3
      rw [hT.2, Multiset.map_singleton, lift, Multiset.singleton_add] at e2
      refine ⟨some (s', c'), none, by simp [hc1, hs1], e1, ?_, fun x => ?_, by simp⟩
      · show (chbag K s' c').map Prod.snd + _ = _
        rw [e2]; simp [om, ochbag]
      · show chbag K s' c' + _ = _
        rw [e2, hj x.2]; exact add_zero _
    · obtain ⟨u', o, hu1, hu2, hu3⟩ := PT.insert u lo v (I.child _ _ hc)
        fun h => lt_of_le_of_lt (I.card_child hc) (hl (.inr h))
      obtain ⟨c', hc1, hc2, hc3⟩ := LC.insert_some c hi lo v u u' _ I.cInv hc hu1
      obtain ⟨r, h1, h2, h3⟩ := I.split (K := K) hc
      obtain ⟨e1, e2⟩ := I.set (K := K) hc hc2 hc3 hu2 h1 h2
      refine ⟨some (s, c'), o.map fun e => (join hi e.1, e.2), ?_, e1, ?_, fun x => ?_, fun e he => ?_⟩
      · obtain _ | ⟨l', v'⟩ := o <;> simp [hc1]
      · show (chbag K s c').map Prod.snd + _ = v ::ₘ (chbag K s c).map Prod.snd
        rw [e2, h3, om_map, Multiset.map_add, Multiset.map_add, map_lift, map_lift, add_right_comm,
          show (om o).map (fun e => ((join hi e.1 : K), e.2)) = (om o).map (lift K hi) from rfl, map_lift, hu3.vals,
          Multiset.cons_add]
      · show chbag K s c' + _ = (k, v) ::ₘ chbag K s c
        rw [e2, h3, om_map, add_right_comm,
          show (om o).map (fun e => ((join hi e.1 : K), e.2)) = (om o).map (lift K hi) from rfl, ← Multiset.map_add,
          hu3.ents x.1, Multiset.map_cons, Multiset.cons_add, lift, hj x.2]
      · obtain ⟨x, rfl, rfl⟩ := Option.map_eq_some_iff.1 he
        exact I.join_mem (K := K) hc (hu3.mem _ rfl)

theorem phys_insert (t : OTree K V S C) (k : K) (v : V) (h : W t)
    (hl : PS.limited ∨ PT.limited → (ents t).card < usizeMax) :
    ∃ t' o, t.insert k v = .ok (t', o) ∧ W t' ∧ InsAny (PT.exact ∧ Rejoins K) (k, v) (ents t) (ents t') o := by
  obtain ⟨mn, d⟩ := t
  have hl' : ∀ mx ch, d = some ⟨mx, ch⟩ → PS.limited ∨ PT.limited → (ochbag K ch).card < usizeMax := by
    rintro mx ch rfl x
    have : (mn ::ₘ mx ::ₘ ochbag K ch).card < usizeMax := hl x
    simp only [Multiset.card_cons] at this
    omega
  rcases hk : AnyOrd.cmp k mn.1
  · obtain _ | ⟨mx, ch⟩ := d
    · exact ⟨⟨(k, v), some ⟨mn, none⟩⟩, none, by simp [insert, hk], trivial, .ofE rfl⟩
    · have hb : OChW ch := h
      replace hl' := hl' mx ch rfl
      rcases hx : AnyOrd.cmp mx.1 mn.1
      · obtain ⟨ch', o, e1, e2, e3⟩ := phys_insertBelow (mn := (k, v)) (mx := mx) (k := mn.1) (v := mn.2) hb hl'
        refine ⟨⟨(k, v), some ⟨mx, ch'⟩⟩, o, by simp only [insert, hk, hx]; exact e1, e2, ?_⟩
        show InsAny _ (k, v) (mn ::ₘ mx ::ₘ ochbag K ch) ((k, v) ::ₘ mx ::ₘ ochbag K ch') o
        exact (e3.cons (a := mx)).swap
      · refine ⟨⟨(k, v), some ⟨mn, ch⟩⟩, some mx, by simp [insert, hk, hx], hb, .ofE ?_⟩
        exact ⟨mn ::ₘ ochbag K ch, Multiset.cons_swap _ _ _, rfl⟩
      · obtain ⟨ch', o, e1, e2, e3⟩ := phys_insertBelow (mn := (k, v)) (mx := mn) (k := mx.1) (v := mx.2) hb hl'
        refine ⟨⟨(k, v), some ⟨mn, ch'⟩⟩, o, by simp only [insert, hk, hx]; exact e1, e2, ?_⟩
        show InsAny _ (k, v) (mn ::ₘ mx ::ₘ ochbag K ch) ((k, v) ::ₘ mn ::ₘ ochbag K ch') o
        rw [Multiset.cons_swap]
        exact (e3.cons (a := mn)).swap
  · refine ⟨⟨(k, v), d⟩, some mn, by simp [insert, hk], h, .ofE ?_⟩
    obtain _ | d := d
    · exact ⟨0, rfl, rfl⟩
    · exact ⟨_, rfl, rfl⟩
  · obtain _ | ⟨mx, ch⟩ := d
    · exact ⟨⟨mn, some ⟨(k, v), none⟩⟩, none, by simp [insert, hk], trivial, .ofE (Multiset.cons_swap mn (k, v) 0)⟩
    · have hb : OChW ch := h
      replace hl' := hl' mx ch rfl
      rcases hx : AnyOrd.cmp k mx.1
      · obtain ⟨ch', o, e1, e2, e3⟩ := phys_insertBelow (mn := mn) (mx := mx) (k := k) (v := v) hb hl'
        exact ⟨⟨mn, some ⟨mx, ch'⟩⟩, o, by simp only [insert, hk, hx]; exact e1, e2, (e3.cons (a := mx)).cons (a := mn)⟩
      · refine ⟨⟨mn, some ⟨(k, v), ch⟩⟩, some mx, by simp [insert, hk, hx], hb, .ofE ?_⟩
        exact ⟨mn ::ₘ ochbag K ch, Multiset.cons_swap _ _ _, Multiset.cons_swap _ _ _⟩
      · obtain ⟨ch', o, e1, e2, e3⟩ := phys_insertBelow (mn := mn) (mx := (k, v)) (k := mx.1) (v := mx.2) hb hl'
        exact ⟨⟨mn, some ⟨(k, v), ch'⟩⟩, o, by simp only [insert, hk, hx]; exact e1, e2,
          (e3.swap (a := (k, v))).cons (a := mn)⟩

/-! ### removal -/

theorem ChW.removed_last {s : S} {c : C} (I : ChW s c) {h : Hi} {u : T} {l : Lo × V} {o : Option T}
    (hu : LC.abs c h = some u) (ho : RestRel PT.W PT.ents (PT.ents u) l o)
    (hc : CollRemOk LC.Inv LC.abs c h o none) : chbag K s c = {lift K h l} := by
  obtain ⟨rfl, he⟩ := hc
  obtain ⟨r, h1, h2, h3⟩ := I.split (K := K) hu
  have hr : r = 0 := by
    refine Multiset.eq_zero_of_forall_notMem fun j hj => ?_
    have : (LC.abs c).Mem j := (I.sum j).1 (by rw [h1]; exact Multiset.mem_cons_of_mem hj)
    have hm : ((LC.abs c).upd h none).Mem j := (Map.mem_upd_none _ _ _).2 ⟨fun e => h2 (e ▸ hj), this⟩
    exact hm (by rw [he]; rfl)
  have ho : PT.ents u = {l} := ho
  rw [h3, hr, ho]
  simp

theorem ChW.removed_keep {s : S} {c c' : C} (I : ChW s c) {h : Hi} {u : T} {l : Lo × V} {o : Option T}
    (hu : LC.abs c h = some u) (ho : RestRel PT.W PT.ents (PT.ents u) l o)
    (hc : CollRemOk LC.Inv LC.abs c h o (some (c', false))) :
    ChW s c' ∧ chbag K s c = lift K h l ::ₘ chbag K s c' := by
  obtain ⟨hb, hi, ha⟩ := hc
  obtain _ | u' := o
  · cases hb
  · obtain ⟨r, h1, h2, h3⟩ := I.split (K := K) hu
    obtain ⟨e1, e2⟩ := I.set (K := K) hu hi ha ho.1 h1 h2
    refine ⟨e1, ?_⟩
    rw [e2, h3, ho.2, Multiset.map_cons, Multiset.cons_add]

theorem ChW.removed_drop {s : S} {c c' : C} (I : ChW s c) {h : Hi} {u : T} {l : Lo × V} {o : Option T}
    (hu : LC.abs c h = some u) (ho : RestRel PT.W PT.ents (PT.ents u) l o)
    (hc : CollRemOk LC.Inv LC.abs c h o (some (c', true))) {so : Option S}
    (hs : RestRel PS.W PS.bag (PS.bag s) h so) :
    ∃ s', so = some s' ∧ ChW s' c' ∧ chbag K s c = lift K h l ::ₘ chbag K s' c' := by
  obtain ⟨hb, hi, ha⟩ := hc
  obtain _ | u' := o
  · have ho : PT.ents u = {l} := ho
    obtain _ | s' := so
    · exfalso
      obtain ⟨j, hj⟩ := LC.nonempty c' hi
      rw [ha, Map.mem_upd_none] at hj
      have := (I.sum j).2 hj.2
      have hs : PS.bag s = {h} := hs
      rw [hs, Multiset.mem_singleton] at this
      exact hj.1 this
    · obtain ⟨e1, e2⟩ := I.drop (K := K) hi ha hs.1 hs.2
      refine ⟨s', rfl, e1, ?_⟩
      rw [e2, chbag, hs.2, Multiset.cons_bind, cell, hu]
      simp only [ho, Multiset.map_singleton]
      rfl
  · cases hb

theorem phys_ch_removeMin {s : S} {c : C} (I : ChW s c) :
    ∃ hi lo val res, VebTree.minVal s = .ok (hi, ()) ∧
      TreeCollection.removeKey c hi VebTree.removeMin = .ok (res, (lo, val)) ∧
      ∃ ch' : Option (S × C), OChW ch' ∧ chbag K s c = (join hi lo, val) ::ₘ ochbag K ch' ∧
        (res = none ∧ ch' = none ∨ (∃ c', res = some (c', false) ∧ ch' = some (s, c')) ∨
          ∃ c' s' x, res = some (c', true) ∧ VebTree.removeMin s = .ok (some s', x) ∧
            ch' = some (s', c')) := by
  obtain ⟨so, hi, ⟨⟩, h1, h2, h3⟩ := PS.removeMin s I.sW
  have hm : hi ∈ PS.bag s := by
    obtain _ | s' := so
    · have h3 : PS.bag s = {hi} := h3
      rw [h3]; exact Multiset.mem_singleton_self _
    · rw [h3.2]; exact Multiset.mem_cons_self _ _
  obtain ⟨u, hu, hw⟩ := ch_child I hm
  obtain ⟨o, lo, v, h4, h5, h6⟩ := PT.removeMin u hw
  obtain ⟨res, hres, hc⟩ := LC.removeKey c hi u _ o (lo, v) I.cInv hu h5
  refine ⟨hi, lo, v, res, h1, hres, ?_⟩
  obtain _ | ⟨c', _ | _⟩ := res
  · exact ⟨none, trivial, I.removed_last hu h6 hc, .inl ⟨rfl, rfl⟩⟩
  · obtain ⟨e1, e2⟩ := I.removed_keep (K := K) hu h6 hc
    exact ⟨some (s, c'), e1, e2, .inr (.inl ⟨c', rfl, rfl⟩)⟩
  · obtain ⟨s', rfl, e1, e2⟩ := I.removed_drop (K := K) hu h6 hc h3
    exact ⟨some (s', c'), e1, e2, .inr (.inr ⟨c', s', _, rfl, h2, rfl⟩)⟩

theorem phys_ch_removeMax {s : S} {c : C} (I : ChW s c) :
    ∃ hi lo val res, VebTree.maxVal s = .ok (hi, ()) ∧
      TreeCollection.removeKey c hi VebTree.removeMax = .ok (res, (lo, val)) ∧
      ∃ ch' : Option (S × C), OChW ch' ∧ chbag K s c = (join hi lo, val) ::ₘ ochbag K ch' ∧
        (res = none ∧ ch' = none ∨ (∃ c', res = some (c', false) ∧ ch' = some (s, c')) ∨
          ∃ c' s' x, res = some (c', true) ∧ VebTree.removeMax s = .ok (some s', x) ∧
            ch' = some (s', c')) := by
  obtain ⟨so, hi, ⟨⟩, h1, h2, h3⟩ := PS.removeMax s I.sW
  have hm : hi ∈ PS.bag s := by
    obtain _ | s' := so
    · have h3 : PS.bag s = {hi} := h3
      rw [h3]; exact Multiset.mem_singleton_self _
    · rw [h3.2]; exact Multiset.mem_cons_self _ _
  obtain ⟨u, hu, hw⟩ := ch_child I hm
  obtain ⟨o, lo, v, h4, h5, h6⟩ := PT.removeMax u hw
  obtain ⟨res, hres, hc⟩ := LC.removeKey c hi u _ o (lo, v) I.cInv hu h5
  refine ⟨hi, lo, v, res, h1, hres, ?_⟩
  obtain _ | ⟨c', _ | _⟩ := res
  · exact ⟨none, trivial, I.removed_last hu h6 hc, .inl ⟨rfl, rfl⟩⟩
  · obtain ⟨e1, e2⟩ := I.removed_keep (K := K) hu h6 hc
    exact ⟨some (s, c'), e1, e2, .inr (.inl ⟨c', rfl, rfl⟩)⟩
  · obtain ⟨s', rfl, e1, e2⟩ := I.removed_drop (K := K) hu h6 hc h3
    exact ⟨some (s', c'), e1, e2, .inr (.inr ⟨c', s', _, rfl, h2, rfl⟩)⟩

theorem phys_removeMin (t : OTree K V S C) (h : W t) :
    ∃ o, t.removeMin = .ok (o, t.min) ∧ RestRel W ents (ents t) t.min o := by
  obtain ⟨mn, _ | ⟨mx, _ | ⟨s, c⟩⟩⟩ := t
  · exact ⟨none, by simp [removeMin], rfl⟩
  · exact ⟨some ⟨mx, none⟩, by simp [removeMin], trivial, rfl⟩
  · have I : ChW s c := h
    obtain ⟨hi, lo, val, res, h1, h2, ch', h4, h5, h6⟩ := phys_ch_removeMin (K := K) I
    refine ⟨some ⟨(join hi lo, val), some ⟨mx, ch'⟩⟩, ?_, h4, ?_⟩
    · rcases h6 with ⟨rfl, rfl⟩ | ⟨c', rfl, rfl⟩ | ⟨c', s', x, rfl, hx, rfl⟩
      · simp [removeMin, h1, h2]
      · simp [removeMin, h1, h2]
      · simp [removeMin, h1, h2, hx]
    · show mn ::ₘ mx ::ₘ chbag K s c = mn ::ₘ (join hi lo, val) ::ₘ mx ::ₘ ochbag K ch'
      rw [h5, Multiset.cons_swap mx]

theorem phys_removeMax (t : OTree K V S C) (h : W t) :
    ∃ o k v, t.maxVal = .ok (k, v) ∧ t.removeMax = .ok (o, (k, v)) ∧ RestRel W ents (ents t) (k, v) o := by
  obtain ⟨mn, _ | ⟨mx, _ | ⟨s, c⟩⟩⟩ := t
  · exact ⟨none, mn.1, mn.2, rfl, by simp [removeMax], rfl⟩
  · exact ⟨some ⟨mn, none⟩, mx.1, mx.2, rfl, by simp [removeMax], trivial, Multiset.cons_swap mn mx 0⟩
  · have I : ChW s c := h
    obtain ⟨hi, lo, val, res, h1, h2, ch', h4, h5, h6⟩ := phys_ch_removeMax (K := K) I
    refine ⟨some ⟨mn, some ⟨(join hi lo, val), ch'⟩⟩, mx.1, mx.2, rfl, ?_, h4, ?_⟩
    · rcases h6 with ⟨rfl, rfl⟩ | ⟨c', rfl, rfl⟩ | ⟨c', s', x, rfl, hx, rfl⟩
      · simp [removeMax, h1, h2]
      · simp [removeMax, h1, h2]
      · simp [removeMax, h1, h2, hx]
    · show mn ::ₘ mx ::ₘ chbag K s c = mx ::ₘ mn ::ₘ (join hi lo, val) ::ₘ ochbag K ch'
      rw [h5, Multiset.cons_swap mx mn]

theorem phys_remove (t : OTree K V S C) (k : K) (h : W t) :
    t.remove k = .ok (.Err t) ∨ ∃ o e, t.remove k = .ok (.Ok (o, e)) ∧ RestRel W ents (ents t) e o := by
  by_cases h1 : AnyOrd.eq k t.min.1 = true
  · obtain ⟨o, e1, e2⟩ := phys_removeMin t h
    refine .inr ⟨o, t.min, ?_, e2⟩
    rw [remove, if_pos h1, e1]; rfl
  · obtain ⟨mn, _ | ⟨mx, _ | ⟨s, c⟩⟩⟩ := t
    · exact .inl (by simp only [remove, if_neg h1]; rfl)
    · by_cases h2 : AnyOrd.eq mx.1 k = true
      · exact .inr ⟨some ⟨mn, none⟩, mx, by simp only [remove, if_neg h1, h2, if_true]; rfl, trivial,
          Multiset.cons_swap mn mx 0⟩
      · exact .inl (by simp only [remove, if_neg h1, if_neg h2]; rfl)
    · replace h1 : ¬ AnyOrd.eq k mn.1 = true := h1
      have I : ChW s c := h
      by_cases h2 : AnyOrd.eq k mx.1 = true
      · obtain ⟨hi, lo, val, res, g1, g2, ch', g4, g5, g6⟩ := phys_ch_removeMax (K := K) I
        refine .inr ⟨some ⟨mn, some ⟨(join hi lo, val), ch'⟩⟩, mx, ?_, g4, ?_⟩
        · rcases g6 with ⟨rfl, rfl⟩ | ⟨c', rfl, rfl⟩ | ⟨c', s', x, rfl, hx, rfl⟩
          · simp [remove, h1, h2, g1, g2]
          · simp [remove, h1, h2, g1, g2]
          · simp [remove, h1, h2, g1, g2, hx]
        · show mn ::ₘ mx ::ₘ chbag K s c = mx ::ₘ mn ::ₘ (join hi lo, val) ::ₘ ochbag K ch'
          rw [g5, Multiset.cons_swap mx mn]
      · rcases hs : VebKeyRef.splitRef k with ⟨hi, lo⟩
        simp only [remove, if_neg h1, if_neg h2, hs]
        rcases hc : LC.abs c hi with _ | u
        · exact .inl (by simp [LC.maybe_absent c hi _ I.cInv hc])
        · rcases PT.remove u lo (I.child _ _ hc) with e1 | ⟨o, ⟨lo', v⟩, e1, e2⟩
          · exact .inl (by simp [LC.maybe_err c hi u (fun v => VebTree.remove v lo) I.cInv hc e1])
          · obtain ⟨res, hres, hcr⟩ := LC.maybe_ok c hi u (fun v => VebTree.remove v lo) o (lo', v) I.cInv hc e1
            refine .inr ?_
            obtain _ | ⟨c', _ | _⟩ := res
            · exact ⟨some ⟨mn, some ⟨mx, none⟩⟩, (join hi lo', v), by simp [hres], trivial,
                put3 (I.removed_last (K := K) hc e2 hcr)⟩
            · obtain ⟨g1, g2⟩ := I.removed_keep (K := K) hc e2 hcr
              exact ⟨some ⟨mn, some ⟨mx, some (s, c')⟩⟩, (join hi lo', v), by simp [hres], g1, put3 g2⟩
            · rcases PS.remove s hi I.sW with ⟨-, g2⟩ | ⟨so, ⟨⟩, g1, g2⟩
              · exact absurd ((I.sum hi).2 (Map.mem_of hc)) g2
              · obtain ⟨s', rfl, g3, g4⟩ := I.removed_drop (K := K) hc e2 hcr g2
                exact ⟨some ⟨mn, some ⟨mx, some (s', c')⟩⟩, (join hi lo', v), by simp [hres, g1], g3, put3 g4⟩

/-! ### the instance -/

theorem card_ents (t : OTree K V S C) : (ents t).card = 1 ↔ t.data = none := by
  obtain ⟨mn, _ | d⟩ := t <;> simp [ents]

instance instObj : ObjTree (OTree K V S C) K V where
  W := W
  ents := ents
  limited := PS.limited ∨ PT.limited
  agree := PT.agree ∧ LeOrGt K
  exact := PT.exact ∧ Rejoins K
  fromMonad k v := ⟨trivial, rfl⟩
  isMonad t _ := ⟨_, rfl, by rw [card_ents, Option.isNone_iff_eq_none]⟩
  lenHint t _ := by
    obtain ⟨mn, _ | d⟩ := t
    · exact ⟨(1, none), rfl, by simp [ents], by simp⟩
    · exact ⟨(2, none), rfl, by simp [ents], by simp⟩
  intoMonad t _ := by
    obtain ⟨mn, _ | d⟩ := t
    · exact .inl ⟨mn.1, mn.2, rfl, rfl⟩
    · exact .inr ⟨rfl, by simp [ents]⟩
  minVal t _ := ⟨t.min.1, t.min.2, rfl, mem_min (d := t.data) t.min rfl⟩
  minValMut t h := ⟨_, rfl, phys_put_min h⟩
  maxVal t _ := by
    obtain ⟨mn, _ | d⟩ := t
    · exact ⟨mn.1, mn.2, rfl, Multiset.mem_singleton_self _⟩
    · exact ⟨d.max.1, d.max.2, rfl, mem_max (ch := d.children) d.max rfl⟩
  maxValMut t h := by
    obtain ⟨mn, _ | d⟩ := t
    · exact ⟨_, rfl, phys_put_min h⟩
    · exact ⟨_, rfl, phys_put_max h⟩
  find := phys_find
  findMut := phys_findMut
  predecessor := phys_predecessor
  predecessorMut := phys_predecessorMut
  successor := phys_successor
  successorMut := phys_successorMut
  insert := phys_insert
  remove := phys_remove
  removeMin t h := by
    obtain ⟨o, h1, h2⟩ := phys_removeMin t h
    exact ⟨o, t.min.1, t.min.2, rfl, h1, h2⟩
  removeMax := phys_removeMax

end OTree

/-- Every tree type of `AnyTree` is such a tree. -/
theorem AnyTree.obj {T K V : Type} [VebTree T K V] {n a e : Prop} (h : AnyTree T K V n a e) :
    ∃ P : ObjTree T K V, (P.limited → n) ∧ (a → P.agree) ∧ (e → P.exact) := by
  induction h with
  | counted h =>
    obtain ⟨P⟩ := h.phys
    exact ⟨.ofPhys P, fun _ => trivial, id, id⟩
  | uncounted h =>
    obtain ⟨P, hn⟩ := h.phys
    exact ⟨.ofPhys P, hn, id, id⟩
  | box _ ih => obtain ⟨P, h1, h2, h3⟩ := ih; exact ⟨inferInstance, h1, h2, h3⟩
  | sized _ ih => obtain ⟨P, -, h2, h3⟩ := ih; exact ⟨inferInstance, id, h2, h3⟩
  | tree hs hn _ hc ih =>
    obtain ⟨LC⟩ := hc.lawful
    obtain ⟨P, h1, h2, h3⟩ := ih
    rcases hn with hn | hn
    · obtain ⟨PS⟩ := hs.phys
      exact ⟨OTree.instObj, fun _ => hn, fun x => ⟨h2 x.1, x.2⟩, fun x => ⟨h3 x.1, x.2⟩⟩
    · obtain ⟨PS, hl⟩ := hn.phys
      exact ⟨OTree.instObj, fun x => x.elim (fun y => absurd y hl) h1, fun x => ⟨h2 x.1, x.2⟩, fun x => ⟨h3 x.1, x.2⟩⟩

end Veb
