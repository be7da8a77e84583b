import Verif.Proof.Phys
import Verif.Proof.Tree

/-!
`Tree` keeps its structure under every operation, whatever the order of its keys.
-/

set_option autoImplicit false
set_option linter.unusedSectionVars false

namespace Veb

theorem InsRelE.swap {K V : Type} {x k : K × V} {b b' : Multiset (K × V)} {o : Option (K × V)} (h : InsRelE x b b' o) :
    InsRelE k (x ::ₘ b) (k ::ₘ b') o := by
  cases o with
  | none => simp only [InsRelE] at h ⊢; rw [h]
  | some e =>
    obtain ⟨r, rfl, rfl⟩ := h
    exact ⟨x ::ₘ r, Multiset.cons_swap _ _ _, rfl⟩

theorem InsRelE.cons {K V : Type} {x a : K × V} {b b' : Multiset (K × V)} {o : Option (K × V)} (h : InsRelE x b b' o) :
    InsRelE x (a ::ₘ b) (a ::ₘ b') o := by
  cases o with
  | none => simp only [InsRelE] at h ⊢; rw [h, Multiset.cons_swap]
  | some e =>
    obtain ⟨r, rfl, rfl⟩ := h
    exact ⟨a ::ₘ r, Multiset.cons_swap _ _ _, Multiset.cons_swap _ _ _⟩

namespace Tree
variable {K V S C Hi Lo T : Type} [LinearOrder K] [LinearOrder Hi] [LinearOrder Lo]
  [VebKey K Hi Lo] [VebKeyRef K Hi Lo] [LK : LawfulVebKey K Hi Lo]
  [VebTree S Hi Unit] [PS : PhysTree S Hi Unit]
  [VebTree T Lo V] [PT : PhysTree T Lo V]
  [TreeCollection C Hi T Lo V] [LC : LawfulColl C Hi T Lo V]

open VebKey (splitVal join)

/-- An entry of the child at `h`, as an entry of the tree. -/
def lift (K : Type) [VebKey K Hi Lo] (h : Hi) (e : Lo × V) : K × V := (join h e.1, e.2)

/-- Entries stored in the child at `h`. -/
def cell (K : Type) [VebKey K Hi Lo] (M : Map Hi T) (h : Hi) : Multiset (K × V) :=
  match M h with
  | none => 0
  | some u => (PT.ents u).map (lift K h)

/-- Entries stored in the children. -/
def chbag (K : Type) [VebKey K Hi Lo] (s : S) (c : C) : Multiset (K × V) := (PS.bag s).bind (cell K (LC.abs c))

/-- Structure of summary and children: the summary holds each key of a child once, and nothing else. -/
structure ChW (K : Type) [VebKey K Hi Lo] (s : S) (c : C) : Prop where
  sW : PS.W s
  nodup : (PS.bag s).Nodup
  cInv : LC.Inv c
  sum : ∀ h, h ∈ PS.bag s ↔ (LC.abs c).Mem h
  child : ∀ h u, LC.abs c h = some u → PT.W u
  good : ∀ h u l, LC.abs c h = some u → l ∈ PT.bag u → splitVal (join h l : K) = (h, l)

namespace ChW
variable {s : S} {c : C}

theorem mem_chbag (I : ChW K s c) {k : K} {v : V} {h : Hi} {l : Lo} (e : splitVal k = (h, l)) :
    (k, v) ∈ chbag K s c ↔ ∃ u, LC.abs c h = some u ∧ (l, v) ∈ PT.ents u := by
  rw [chbag, Multiset.mem_bind]
  constructor
  · rintro ⟨h', hs, hk⟩
    unfold cell at hk
    cases hu : LC.abs c h' with
    | none => simp [hu] at hk
    | some u =>
      rw [hu] at hk
      obtain ⟨⟨l', v'⟩, hl, hx⟩ := Multiset.mem_map.1 hk
      cases hx
      have := I.good h' u l' hu (mem_keysOf_of hl)
      rw [this] at e
      cases e
      exact ⟨u, hu, hl⟩
  · rintro ⟨u, hu, hl⟩
    refine ⟨h, (I.sum h).2 (Map.mem_of hu), ?_⟩
    unfold cell
    rw [hu]
    exact Multiset.mem_map.2 ⟨(l, v), hl, by rw [lift, join_of_split e]⟩

theorem mem_chkeys (I : ChW K s c) {k : K} {h : Hi} {l : Lo} (e : splitVal k = (h, l)) :
    k ∈ keysOf (chbag K s c) ↔ ∃ u, LC.abs c h = some u ∧ l ∈ PT.bag u := by
  rw [mem_keysOf]
  simp only [I.mem_chbag e, PhysTree.bag, mem_keysOf]
  exact ⟨fun ⟨v, u, h1, h2⟩ => ⟨u, h1, v, h2⟩, fun ⟨u, h1, v, h2⟩ => ⟨v, u, h1, h2⟩⟩

theorem join_mem (I : ChW K s c) {h : Hi} {u : T} {l : Lo} {v : V} (hu : LC.abs c h = some u)
    (hl : (l, v) ∈ PT.ents u) : ((join h l : K), v) ∈ chbag K s c :=
  (I.mem_chbag (I.good h u l hu (mem_keysOf_of hl))).2 ⟨u, hu, hl⟩

theorem join_key_mem (I : ChW K s c) {h : Hi} {u : T} {l : Lo} (hu : LC.abs c h = some u)
    (hl : l ∈ PT.bag u) : (join h l : K) ∈ keysOf (chbag K s c) :=
  (I.mem_chkeys (I.good h u l hu hl)).2 ⟨u, hu, hl⟩

/-- The child at `h` and the others. -/
theorem split (I : ChW K s c) {h : Hi} {u : T} (hu : LC.abs c h = some u) :
    ∃ r, PS.bag s = h ::ₘ r ∧ h ∉ r ∧
      chbag K s c = (PT.ents u).map (lift K h) + r.bind (cell K (LC.abs c)) := by
  obtain ⟨r, hr⟩ := Multiset.exists_cons_of_mem ((I.sum h).2 (Map.mem_of hu))
  have hn := I.nodup
  rw [hr, Multiset.nodup_cons] at hn
  refine ⟨r, hr, hn.1, ?_⟩
  rw [chbag, hr, Multiset.cons_bind, cell, hu]

theorem bind_upd {M : Map Hi T} {h : Hi} {o : Option T} {r : Multiset Hi} (hr : h ∉ r) :
    r.bind (cell K (M.upd h o)) = r.bind (cell K M) := by
  refine Multiset.bind_congr fun j hj => ?_
  have : j ≠ h := fun e => hr (e ▸ hj)
  simp only [cell, Map.upd_ne _ _ this]

/-- The child at `h` is replaced by `u'`. -/
theorem set (I : ChW K s c) {h : Hi} {u u' : T} {c' : C} (hu : LC.abs c h = some u) (hc : LC.Inv c')
    (ha : LC.abs c' = (LC.abs c).upd h (some u')) (hw : PT.W u')
    (hg : ∀ l ∈ PT.bag u', splitVal (join h l : K) = (h, l)) {r : Multiset Hi} (hr : PS.bag s = h ::ₘ r)
    (hn : h ∉ r) :
    ChW K s c' ∧ chbag K s c' = (PT.ents u').map (lift K h) + r.bind (cell K (LC.abs c)) := by
  refine ⟨⟨I.sW, I.nodup, hc, fun j => ?_, fun j v hj => ?_, fun j v l hj hl => ?_⟩, ?_⟩
  · rw [I.sum, ha, Map.mem_upd_some]
    exact ⟨.inr, fun h => h.elim (fun e => e ▸ Map.mem_of hu) id⟩
  · rw [ha, Map.upd_apply] at hj
    split at hj
    · cases hj; exact hw
    · exact I.child j v hj
  · rw [ha, Map.upd_apply] at hj
    split at hj
    · next e => subst e; cases hj; exact hg l hl
    · exact I.good j v l hj hl
  · rw [chbag, hr, Multiset.cons_bind, ha, bind_upd hn]
    simp [cell]

/-- A new child. -/
theorem add (I : ChW K s c) {h : Hi} {u' : T} {s' : S} {c' : C} (hu : LC.abs c h = none) (hc : LC.Inv c')
    (ha : LC.abs c' = (LC.abs c).upd h (some u')) (hw : PT.W u')
    (hg : ∀ l ∈ PT.bag u', splitVal (join h l : K) = (h, l)) (hs : PS.W s') (hb : PS.bag s' = h ::ₘ PS.bag s) :
    ChW K s' c' ∧ chbag K s' c' = (PT.ents u').map (lift K h) + chbag K s c := by
  have hn : h ∉ PS.bag s := by rw [I.sum]; exact fun x => x hu
  refine ⟨⟨hs, by rw [hb]; exact Multiset.nodup_cons.2 ⟨hn, I.nodup⟩, hc, fun j => ?_, fun j v hj => ?_,
    fun j v l hj hl => ?_⟩, ?_⟩
  · rw [hb, ha, Map.mem_upd_some, Multiset.mem_cons, I.sum]
  · rw [ha, Map.upd_apply] at hj
    split at hj
    · cases hj; exact hw
    · exact I.child j v hj
  · rw [ha, Map.upd_apply] at hj
    split at hj
    · next e => subst e; cases hj; exact hg l hl
    · exact I.good j v l hj hl
  · rw [chbag, hb, Multiset.cons_bind, ha, bind_upd hn]
    simp [cell, chbag]

/-- A child is dropped. -/
theorem drop (I : ChW K s c) {h : Hi} {s' : S} {c' : C} (hc : LC.Inv c')
    (ha : LC.abs c' = (LC.abs c).upd h none) (hs : PS.W s') (hb : PS.bag s = h ::ₘ PS.bag s') :
    ChW K s' c' ∧ chbag K s' c' = (PS.bag s').bind (cell K (LC.abs c)) := by
  have hn := I.nodup
  rw [hb, Multiset.nodup_cons] at hn
  refine ⟨⟨hs, hn.2, hc, fun j => ?_, fun j v hj => ?_, fun j v l hj hl => ?_⟩, ?_⟩
  · have := I.sum j
    rw [hb, Multiset.mem_cons] at this
    rw [ha, Map.mem_upd_none, ← this]
    constructor
    · exact fun hj => ⟨fun e => hn.1 (e ▸ hj), .inr hj⟩
    · rintro ⟨h1, h2⟩; exact h2.resolve_left h1
  · rw [ha, Map.upd_apply] at hj
    split at hj
    · cases hj
    · exact I.child j v hj
  · rw [ha, Map.upd_apply] at hj
    split at hj
    · cases hj
    · exact I.good j v l hj hl
  · rw [chbag, ha, bind_upd hn.1]

/-- Each child holds at most as many keys as there are, and so does the summary. -/
theorem card_child (I : ChW K s c) {h : Hi} {u : T} (hu : LC.abs c h = some u) :
    (PT.ents u).card ≤ (chbag K s c).card := by
  obtain ⟨r, -, -, e⟩ := I.split hu
  rw [e, Multiset.card_add, Multiset.card_map]
  omega

theorem card_sum (I : ChW K s c) : (PS.bag s).card ≤ (chbag K s c).card := by
  rw [chbag, Multiset.card_bind]
  have := Multiset.card_nsmul_le_sum (s := (PS.bag s).map (Multiset.card ∘ cell K (LC.abs c))) (a := 1) (by
    intro x hx
    obtain ⟨h, hh, rfl⟩ := Multiset.mem_map.1 hx
    obtain ⟨u, hu⟩ := Map.mem_iff.1 ((I.sum h).1 hh)
    simp only [Function.comp, cell, hu, Multiset.card_map]
    exact PhysTree.ents_pos (I.child h u hu))
  simpa using this

end ChW

/-! ### the invariant -/

/-- Entries stored in the children. -/
def ochbag (K : Type) [VebKey K Hi Lo] : Option (S × C) → Multiset (K × V)
  | none => 0
  | some p => chbag K p.1 p.2

def OChW (K : Type) [VebKey K Hi Lo] : Option (S × C) → Prop
  | none => True
  | some p => ChW K p.1 p.2

/-- Structural invariant. -/
def W (t : Tree K V S C) : Prop :=
  match t.data with
  | none => True
  | some d => OChW K d.children

/-- All entries stored. -/
def ents (t : Tree K V S C) : Multiset (K × V) :=
  match t.data with
  | none => {t.min}
  | some d => t.min ::ₘ d.max ::ₘ ochbag K d.children

/-! ### writing through references -/

theorem phys_put_min {t : Tree K V S C} (h : W t) : MutPhysE W ents t (some (t.min.1, t.min.2, t.putMin)) := by
  obtain ⟨mn, _ | d⟩ := t
  · exact ⟨0, rfl, fun w => ⟨trivial, rfl⟩⟩
  · exact ⟨_, rfl, fun w => ⟨h, rfl⟩⟩

theorem phys_put_max {mn : K × V} {d : TreeData K V S C} (h : W (⟨mn, some d⟩ : Tree K V S C)) :
    MutPhysE W ents (⟨mn, some d⟩ : Tree K V S C)
      (some (d.max.1, d.max.2, (⟨mn, some d⟩ : Tree K V S C).putMax d)) :=
  ⟨mn ::ₘ ochbag K d.children, Multiset.cons_swap _ _ _, fun _ => ⟨h, Multiset.cons_swap _ _ _⟩⟩

theorem put3 {mn mx e : K × V} {X X' : Multiset (K × V)} (h : X = e ::ₘ X') :
    mn ::ₘ mx ::ₘ X = e ::ₘ mn ::ₘ mx ::ₘ X' := by
  rw [h, Multiset.cons_swap mx, Multiset.cons_swap mn]

theorem phys_put_child {mn mx : K × V} {s : S} {c : C} (I : ChW K s c) {hi : Hi} {u : T} {lo : Lo} {v : V}
    {putC : T → C} {put : V → T} (hu : LC.abs c hi = some u)
    (hputC : ∀ u, LC.Inv (putC u) ∧ LC.abs (putC u) = (LC.abs c).upd hi (some u))
    (h : MutPhysE PT.W PT.ents u (some (lo, v, put))) :
    MutPhysE W ents (⟨mn, some ⟨mx, some (s, c)⟩⟩ : Tree K V S C) (some (join hi lo, v, fun w =>
      (⟨mn, some ⟨mx, some (s, c)⟩⟩ : Tree K V S C).putChildren ⟨mx, some (s, c)⟩ s (putC (put w)))) := by
  obtain ⟨q, g1, g2⟩ := h
  obtain ⟨r, h1, h2, h3⟩ := I.split hu
  refine ⟨mn ::ₘ mx ::ₘ (q.map (lift K hi) + r.bind (cell K (LC.abs c))), put3 (X := chbag K s c) ?_, fun w => ?_⟩
  · rw [h3, g1, Multiset.map_cons, Multiset.cons_add]; rfl
  · have hb : PT.bag (put w) = PT.bag u := by
      rw [PhysTree.bag, PhysTree.bag, (g2 w).2, g1, keysOf_cons, keysOf_cons]
    obtain ⟨h4, h5⟩ := I.set hu (hputC (put w)).1 (hputC (put w)).2 (g2 w).1
      (by rw [hb]; exact fun l hl => I.good hi u l hu hl) h1 h2
    refine ⟨h4, put3 (X := chbag K s (putC (put w))) ?_⟩
    rw [h5, (g2 w).2, Multiset.map_cons, Multiset.cons_add]; rfl

/-! ### reaching into the children -/

theorem ch_child {s : S} {c : C} (I : ChW K s c) {hi : Hi} (h : hi ∈ PS.bag s) :
    ∃ u, LC.abs c hi = some u ∧ PT.W u := by
  obtain ⟨u, hu⟩ := Map.mem_iff.1 ((I.sum hi).1 h)
  exact ⟨u, hu, I.child hi u hu⟩

theorem phys_find (t : Tree K V S C) (k : K) (h : W t) :
    ∃ r, t.find k = .ok r ∧ ∀ e, r = some e → e ∈ ents t := by
  obtain ⟨mn, d⟩ := t
  rcases lt_trichotomy k mn.1 with hk | rfl | hk
  · exact ⟨none, by simp [find, cmp_lt hk], by simp⟩
  · refine ⟨some mn, by simp [find, cmp_self], ?_⟩
    rintro e ⟨⟩
    cases d <;> simp [ents]
  · obtain _ | ⟨mx, ch⟩ := d
    · exact ⟨none, by simp [find, cmp_gt hk], by simp⟩
    · by_cases hx : k = mx.1
      · subst hx
        refine ⟨some mx, by simp [find, cmp_gt hk], ?_⟩
        rintro e ⟨⟩
        simp [ents]
      · obtain _ | ⟨s, c⟩ := ch
        · exact ⟨none, by simp [find, cmp_gt hk, hx], by simp⟩
        · have I : ChW K s c := h
          rcases hs : splitVal k with ⟨hi, lo⟩
          simp only [find, cmp_gt hk, hx, if_false, LK.ref_eq, hs, LC.get _ _ I.cInv, R.ok_bind]
          cases hc : LC.abs c hi with
          | none => exact ⟨none, rfl, by simp⟩
          | some u =>
            obtain ⟨r, h1, h2⟩ := PT.findE u lo (I.child _ _ hc)
            simp only [h1, R.ok_bind]
            obtain _ | ⟨lo', v⟩ := r
            · exact ⟨none, rfl, by simp⟩
            · refine ⟨_, rfl, ?_⟩
              rintro e ⟨⟩
              exact Multiset.mem_cons_of_mem (Multiset.mem_cons_of_mem (I.join_mem hc (h2 _ rfl)))

theorem phys_findMut (t : Tree K V S C) (k : K) (h : W t) :
    ∃ r, t.findMut k = .ok r ∧ MutPhysE W ents t r := by
  obtain ⟨mn, d⟩ := t
  rcases lt_trichotomy k mn.1 with hk | rfl | hk
  · exact ⟨none, by simp [findMut, cmp_lt hk], trivial⟩
  · exact ⟨_, by simp only [findMut, cmp_self]; rfl, phys_put_min h⟩
  · obtain _ | ⟨mx, ch⟩ := d
    · exact ⟨none, by simp [findMut, cmp_gt hk], trivial⟩
    · by_cases hx : k = mx.1
      · subst hx
        exact ⟨_, by simp only [findMut, cmp_gt hk, if_true]; rfl, phys_put_max h⟩
      · obtain _ | ⟨s, c⟩ := ch
        · exact ⟨none, by simp [findMut, cmp_gt hk, hx], trivial⟩
        · have I : ChW K s c := h
          rcases hs : splitVal k with ⟨hi, lo⟩
          simp only [findMut, cmp_gt hk, hx, if_false, LK.ref_eq, hs]
          cases hc : LC.abs c hi with
          | none => exact ⟨none, by simp [LC.getMut_none _ _ I.cInv hc], trivial⟩
          | some u =>
            obtain ⟨putC, hp, hpc⟩ := LC.getMut_some _ _ _ I.cInv hc
            obtain ⟨r, h1, h2⟩ := PT.findMutE u lo (I.child _ _ hc)
            simp only [hp, h1, R.ok_bind]
            obtain _ | ⟨lo', v, put⟩ := r
            · exact ⟨none, rfl, trivial⟩
            · exact ⟨_, rfl, phys_put_child I hc hpc h2⟩

theorem mem_inner {mn mx : K × V} {s : S} {c : C} (I : ChW K s c) {h : Hi} {u : T} {l : Lo} {v : V}
    (hu : LC.abs c h = some u) (hl : (l, v) ∈ PT.ents u) :
    ∀ e : K × V, some (join h l, v) = some e → e ∈ ents (⟨mn, some ⟨mx, some (s, c)⟩⟩ : Tree K V S C) := by
  rintro e ⟨⟩
  exact Multiset.mem_cons_of_mem (Multiset.mem_cons_of_mem (I.join_mem hu hl))
theorem mem_min {mn : K × V} {d : Option (TreeData K V S C)} :
    ∀ e : K × V, some mn = some e → e ∈ ents (⟨mn, d⟩ : Tree K V S C) := by
  rintro e ⟨⟩
  cases d <;> simp [ents]
theorem mem_max {mn mx : K × V} {ch : Option (S × C)} :
    ∀ e : K × V, some mx = some e → e ∈ ents (⟨mn, some ⟨mx, ch⟩⟩ : Tree K V S C) := by
  rintro e ⟨⟩
  simp [ents]

theorem phys_predecessor (t : Tree K V S C) (k : K) (h : W t) :
    ∃ r, t.predecessor k = .ok r ∧ ∀ e, r = some e → e ∈ ents t := by
  obtain ⟨mn, d⟩ := t
  by_cases hk : k ≤ mn.1
  · exact ⟨none, by simp [predecessor, hk], by simp⟩
  · obtain _ | ⟨mx, ch⟩ := d
    · exact ⟨some mn, by simp [predecessor, hk], mem_min⟩
    · rcases lt_trichotomy k mx.1 with hx | rfl | hx
      · obtain _ | ⟨s, c⟩ := ch
        · exact ⟨some mn, by simp [predecessor, hk, cmp_lt hx], mem_min⟩
        · have I : ChW K s c := h
          simp only [predecessor, hk, if_false, cmp_lt hx, LK.ref_eq]
          rcases hs : splitVal k with ⟨hi, lo⟩
          simp only [LC.get _ _ I.cInv, R.ok_bind]
          obtain ⟨r, h1, h2⟩ := PS.predecessor s hi I.sW
          have fin : ∃ r', (match r with
              | some (hi, ()) => do
                let child ← expect "child should exist for summary key" (LC.abs c hi)
                let (lo, val) ← VebTree.maxVal child
                pure (some (VebKey.join hi lo, val))
              | none => pure (some mn) : R (Option (K × V))) = .ok r' ∧
              ∀ e, r' = some e → e ∈ ents (⟨mn, some ⟨mx, some (s, c)⟩⟩ : Tree K V S C) := by
            obtain _ | ⟨hi', ⟨⟩⟩ := r
            · exact ⟨_, rfl, mem_min⟩
            · obtain ⟨u, hu, hw⟩ := ch_child I (h2 _ rfl)
              obtain ⟨lo', v, h3, h4⟩ := PT.maxValE u hw
              exact ⟨_, by simp only [hu, expect_some, R.ok_bind, h3]; rfl, mem_inner I hu h4⟩
          obtain ⟨r', h3, h4⟩ := fin
          rcases hc : LC.abs c hi with _ | u
          · exact ⟨r', by simp only [R.ok_bind, R.pure_eq, h1]; exact h3, h4⟩
          · obtain ⟨q, h5, h6⟩ := PT.predecessorE u lo (I.child _ _ hc)
            simp only [h5, R.ok_bind]
            obtain _ | ⟨lo', v⟩ := q
            · exact ⟨r', by simp only [R.ok_bind, R.pure_eq, h1]; exact h3, h4⟩
            · exact ⟨_, rfl, mem_inner I hc (h6 _ rfl)⟩
      · obtain _ | ⟨s, c⟩ := ch
        · exact ⟨some mn, by simp [predecessor, hk, cmp_self], mem_min⟩
        · have I : ChW K s c := h
          obtain ⟨hi, ⟨⟩, h1, h2⟩ := PS.maxVal s I.sW
          obtain ⟨u, hu, hw⟩ := ch_child I h2
          obtain ⟨lo, v, h3, h4⟩ := PT.maxValE u hw
          refine ⟨some (join hi lo, v), ?_, mem_inner I hu h4⟩
          simp [predecessor, hk, cmp_self, h1, LC.get _ _ I.cInv, hu, h3]
      · exact ⟨some mx, by simp [predecessor, hk, cmp_gt hx], mem_max⟩

theorem phys_successor (t : Tree K V S C) (k : K) (h : W t) :
    ∃ r, t.successor k = .ok r ∧ ∀ e, r = some e → e ∈ ents t := by
  obtain ⟨mn, d⟩ := t
  by_cases hk : k < mn.1
  · exact ⟨some mn, by simp [successor, hk], mem_min⟩
  · obtain _ | ⟨mx, ch⟩ := d
    · exact ⟨none, by simp [successor, hk], by simp⟩
    · by_cases hx : mx.1 ≤ k
      · exact ⟨none, by simp [successor, hk, hx], by simp⟩
      · obtain _ | ⟨s, c⟩ := ch
        · exact ⟨some mx, by simp [successor, hk, hx], mem_max⟩
        · have I : ChW K s c := h
          by_cases hm : k = mn.1
          · obtain ⟨hi, ⟨⟩, h1, h2⟩ := PS.minVal s I.sW
            obtain ⟨u, hu, hw⟩ := ch_child I h2
            obtain ⟨lo, v, h3, h4⟩ := PT.minValE u hw
            refine ⟨some (join hi lo, v), ?_, mem_inner I hu h4⟩
            subst hm
            simp [successor, hx, h1, LC.get _ _ I.cInv, hu, h3]
          · simp only [successor, hk, hx, hm, if_false, LK.ref_eq]
            rcases hs : splitVal k with ⟨hi, lo⟩
            simp only [LC.get _ _ I.cInv, R.ok_bind]
            obtain ⟨r, h1, h2⟩ := PS.successor s hi I.sW
            have fin : ∃ r', (match r with
                | some (hi, ()) => do
                  let child ← expect "child should exist for summary key" (LC.abs c hi)
                  let (lo, val) ← VebTree.minVal child
                  pure (some (VebKey.join hi lo, val))
                | none => pure (some mx) : R (Option (K × V))) = .ok r' ∧
                ∀ e, r' = some e → e ∈ ents (⟨mn, some ⟨mx, some (s, c)⟩⟩ : Tree K V S C) := by
              obtain _ | ⟨hi', ⟨⟩⟩ := r
              · exact ⟨_, rfl, mem_max⟩
              · obtain ⟨u, hu, hw⟩ := ch_child I (h2 _ rfl)
                obtain ⟨lo', v, h3, h4⟩ := PT.minValE u hw
                exact ⟨_, by simp only [hu, expect_some, R.ok_bind, h3]; rfl, mem_inner I hu h4⟩
            obtain ⟨r', h3, h4⟩ := fin
            rcases hc : LC.abs c hi with _ | u
            · exact ⟨r', by simp only [R.ok_bind, R.pure_eq, h1]; exact h3, h4⟩
            · obtain ⟨q, h5, h6⟩ := PT.successorE u lo (I.child _ _ hc)
              simp only [h5, R.ok_bind]
              obtain _ | ⟨lo', v⟩ := q
              · exact ⟨r', by simp only [R.ok_bind, R.pure_eq, h1]; exact h3, h4⟩
              · exact ⟨_, rfl, mem_inner I hc (h6 _ rfl)⟩

theorem phys_predecessorMut (t : Tree K V S C) (k : K) (h : W t) :
    ∃ r, t.predecessorMut k = .ok r ∧ MutPhysE W ents t r := by
  obtain ⟨mn, d⟩ := t
  by_cases hk : k ≤ mn.1
  · exact ⟨none, by simp [predecessorMut, hk], trivial⟩
  · obtain _ | ⟨mx, ch⟩ := d
    · exact ⟨_, by simp only [predecessorMut, hk, if_false]; rfl, phys_put_min h⟩
    · rcases lt_trichotomy k mx.1 with hx | rfl | hx
      · obtain _ | ⟨s, c⟩ := ch
        · exact ⟨_, by simp only [predecessorMut, hk, if_false, cmp_lt hx]; rfl, phys_put_min h⟩
        · have I : ChW K s c := h
          simp only [predecessorMut, hk, if_false, cmp_lt hx, LK.ref_eq]
          rcases hs : splitVal k with ⟨hi, lo⟩
          obtain ⟨r, h1, h2⟩ := PS.predecessor s hi I.sW
          have fin : ∃ r', (match r with
              | some (hi, ()) => do
                let (child, putC) ←
                  expect "child should exist for summary key" (← TreeCollection.getMut c hi)
                let (lo, val, put) ← VebTree.maxValMut child
                pure (some (VebKey.join hi lo, val, fun w =>
                  (⟨mn, some ⟨mx, some (s, c)⟩⟩ : Tree K V S C).putChildren ⟨mx, some (s, c)⟩ s (putC (put w))))
              | none => pure (some (mn.1, mn.2, (⟨mn, some ⟨mx, some (s, c)⟩⟩ : Tree K V S C).putMin)) :
                R (Option (K × V × (V → Tree K V S C)))) = .ok r' ∧
              MutPhysE W ents (⟨mn, some ⟨mx, some (s, c)⟩⟩ : Tree K V S C) r' := by
            obtain _ | ⟨hi', ⟨⟩⟩ := r
            · exact ⟨_, rfl, phys_put_min (t := ⟨mn, some ⟨mx, some (s, c)⟩⟩) h⟩
            · obtain ⟨u, hu, hw⟩ := ch_child I (h2 _ rfl)
              obtain ⟨⟨lo', v, put⟩, h3, h4⟩ := PT.maxValMutE u hw
              obtain ⟨putC, hp, hpc⟩ := LC.getMut_some _ _ _ I.cInv hu
              exact ⟨_, by simp only [hp, expect_some, R.ok_bind, h3]; rfl, phys_put_child I hu hpc h4⟩
          obtain ⟨r', h3, h4⟩ := fin
          rcases hc : LC.abs c hi with _ | u
          · exact ⟨r', by simp only [LC.getMut_none _ _ I.cInv hc, R.ok_bind, R.pure_eq, h1]; exact h3, h4⟩
          · obtain ⟨putC, hp, hpc⟩ := LC.getMut_some _ _ _ I.cInv hc
            obtain ⟨q, h5, h6⟩ := PT.predecessorMutE u lo (I.child _ _ hc)
            simp only [hp, h5, R.ok_bind, R.pure_eq]
            obtain _ | ⟨lo', v, put⟩ := q
            · exact ⟨r', by simp only [Option.map_none, h1]; exact h3, h4⟩
            · exact ⟨_, rfl, phys_put_child I hc hpc h6⟩
      · obtain _ | ⟨s, c⟩ := ch
        · exact ⟨_, by simp only [predecessorMut, hk, if_false, cmp_self]; rfl, phys_put_min h⟩
        · have I : ChW K s c := h
          obtain ⟨hi, ⟨⟩, h1, h2⟩ := PS.maxVal s I.sW
          obtain ⟨u, hu, hw⟩ := ch_child I h2
          obtain ⟨⟨lo, v, put⟩, h3, h4⟩ := PT.maxValMutE u hw
          obtain ⟨putC, hp, hpc⟩ := LC.getMut_some _ _ _ I.cInv hu
          refine ⟨_, ?_, phys_put_child I hu hpc h4⟩
          simp [predecessorMut, hk, cmp_self, debugAssert, not_le.1 hk, h1, hp, h3]
      · exact ⟨_, by simp only [predecessorMut, hk, if_false, cmp_gt hx]; rfl, phys_put_max h⟩

theorem phys_successorMut (t : Tree K V S C) (k : K) (h : W t) :
    ∃ r, t.successorMut k = .ok r ∧ MutPhysE W ents t r := by
  obtain ⟨mn, d⟩ := t
  by_cases hk : k < mn.1
  · exact ⟨_, by simp only [successorMut, hk, if_true]; rfl, phys_put_min h⟩
  · obtain _ | ⟨mx, ch⟩ := d
    · exact ⟨none, by simp [successorMut, hk], trivial⟩
    · by_cases hx : mx.1 ≤ k
      · exact ⟨none, by simp [successorMut, hk, hx], trivial⟩
      · obtain _ | ⟨s, c⟩ := ch
        · exact ⟨_, by simp only [successorMut, hk, hx, if_false]; rfl, phys_put_max h⟩
        · have I : ChW K s c := h
          by_cases hm : k = mn.1
          · obtain ⟨hi, ⟨⟩, h1, h2⟩ := PS.minVal s I.sW
            obtain ⟨u, hu, hw⟩ := ch_child I h2
            obtain ⟨⟨lo, v, put⟩, h3, h4⟩ := PT.minValMutE u hw
            obtain ⟨putC, hp, hpc⟩ := LC.getMut_some _ _ _ I.cInv hu
            refine ⟨_, ?_, phys_put_child I hu hpc h4⟩
            subst hm
            simp [successorMut, hx, h1, hp, h3]
          · simp only [successorMut, hk, hx, hm, if_false, LK.ref_eq]
            rcases hs : splitVal k with ⟨hi, lo⟩
            obtain ⟨r, h1, h2⟩ := PS.successor s hi I.sW
            have fin : ∃ r', (match r with
                | some (hi, ()) => do
                  let (child, putC) ←
                    expect "child should exist for summary key" (← TreeCollection.getMut c hi)
                  let (lo, val, put) ← VebTree.minValMut child
                  pure (some (VebKey.join hi lo, val, fun w =>
                    (⟨mn, some ⟨mx, some (s, c)⟩⟩ : Tree K V S C).putChildren ⟨mx, some (s, c)⟩ s (putC (put w))))
                | none => pure (some (mx.1, mx.2,
                    (⟨mn, some ⟨mx, some (s, c)⟩⟩ : Tree K V S C).putMax ⟨mx, some (s, c)⟩)) :
                  R (Option (K × V × (V → Tree K V S C)))) = .ok r' ∧
                MutPhysE W ents (⟨mn, some ⟨mx, some (s, c)⟩⟩ : Tree K V S C) r' := by
              obtain _ | ⟨hi', ⟨⟩⟩ := r
              · exact ⟨_, rfl, phys_put_max (d := ⟨mx, some (s, c)⟩) h⟩
              · obtain ⟨u, hu, hw⟩ := ch_child I (h2 _ rfl)
                obtain ⟨⟨lo', v, put⟩, h3, h4⟩ := PT.minValMutE u hw
                obtain ⟨putC, hp, hpc⟩ := LC.getMut_some _ _ _ I.cInv hu
                exact ⟨_, by simp only [hp, expect_some, R.ok_bind, h3]; rfl, phys_put_child I hu hpc h4⟩
            obtain ⟨r', h3, h4⟩ := fin
            rcases hc : LC.abs c hi with _ | u
            · exact ⟨r', by simp only [LC.getMut_none _ _ I.cInv hc, R.ok_bind, R.pure_eq, h1]; exact h3, h4⟩
            · obtain ⟨putC, hp, hpc⟩ := LC.getMut_some _ _ _ I.cInv hc
              obtain ⟨q, h5, h6⟩ := PT.successorMutE u lo (I.child _ _ hc)
              simp only [hp, h5, R.ok_bind, R.pure_eq]
              obtain _ | ⟨lo', v, put⟩ := q
              · exact ⟨r', by simp only [Option.map_none, h1]; exact h3, h4⟩
              · exact ⟨_, rfl, phys_put_child I hc hpc h6⟩

/-! ### insertion -/

theorem phys_insertBelow {mn mx : K × V} {ch : Option (S × C)} {k : K} {v : V} (hb : OChW K ch)
    (hl : PS.limited ∨ PT.limited → (ochbag K ch).card < usizeMax) :
    ∃ ch' o, insertBelow mn ⟨mx, ch⟩ k v = .ok (⟨mn, some ⟨mx, ch'⟩⟩, o) ∧ OChW K ch' ∧
      InsRelE (k, v) (ochbag K ch) (ochbag K ch') o ∧ ((keysOf (ochbag K ch)).Nodup → k ∉ keysOf (ochbag K ch) → o = none) ∧
      ∀ e, o = some e → e.1 ∈ keysOf (ochbag K ch') := by
  rcases hs : splitVal k with ⟨hi, lo⟩
  simp only [insertBelow, hs]
  have hT := PT.fromMonadE lo v
  have gT : ∀ l ∈ PT.bag (VebTree.fromMonad lo v), splitVal (join hi l : K) = (hi, l) := by
    rw [(PT.fromMonad lo v).2]
    intro l hl
    rw [Multiset.mem_singleton.1 hl, join_of_split hs, hs]
  obtain _ | ⟨s, c⟩ := ch
  · obtain ⟨c', hc1, hc2, hc3⟩ := LC.create hi (VebTree.fromMonad lo v)
    have hS := PS.fromMonad hi ()
    refine ⟨some (VebTree.fromMonad hi (), c'), none, by simp [hc1], ?_, ?_, fun _ _ => rfl, by simp⟩
    · refine ⟨hS.1, by rw [hS.2]; exact Multiset.nodup_singleton _, hc2, fun j => ?_, fun j u hj => ?_,
        fun j u l hj hl => ?_⟩
      · rw [hS.2, hc3, Map.mem_single, Multiset.mem_singleton]
      · rw [hc3, Map.single_apply] at hj
        split at hj
        · cases hj; exact hT.1
        · cases hj
      · rw [hc3, Map.single_apply] at hj
        split at hj
        · next e => subst e; cases hj; exact gT l hl
        · cases hj
    · show chbag K (VebTree.fromMonad hi ()) c' = (k, v) ::ₘ 0
      rw [chbag, hS.2, Multiset.singleton_bind, cell, hc3, Map.single_apply, if_pos rfl]
      simp only [hT.2, Multiset.map_singleton, lift, join_of_split hs]
      rfl
  · have I : ChW K s c := hb
    change PS.limited ∨ PT.limited → (chbag K s c).card < usizeMax at hl
    rcases hc : LC.abs c hi with _ | u
    · obtain ⟨c', hc1, hc2, hc3⟩ := LC.insert_none c hi lo v I.cInv hc
      have hn : hi ∉ PS.bag s := by rw [I.sum]; exact fun x => x hc
      obtain ⟨s', o, hs1, hs2, hs3, hs4, -⟩ := PS.insert s hi () I.sW
        fun h => lt_of_le_of_lt I.card_sum (hl (.inl h))
      cases hs4 I.nodup hn
      obtain ⟨e1, e2⟩ := I.add hc hc2 hc3 hT.1 gT hs2 hs3
      refine ⟨some (s', c'), none, by simp [hc1, hs1], e1, ?_, fun _ _ => rfl, by simp⟩
      show chbag K s' c' = (k, v) ::ₘ chbag K s c
      rw [e2, hT.2, Multiset.map_singleton, lift, join_of_split hs, Multiset.singleton_add]
    · obtain ⟨u', o, hu1, hu2, hu3, hu4, hu5⟩ := PT.insertE u lo v (I.child _ _ hc)
        fun h => lt_of_le_of_lt (I.card_child hc) (hl (.inr h))
      obtain ⟨c', hc1, hc2, hc3⟩ := LC.insert_some c hi lo v u u' _ I.cInv hc hu1
      obtain ⟨r, h1, h2, h3⟩ := I.split hc
      have hg : ∀ l ∈ PT.bag u', splitVal (join hi l : K) = (hi, l) := by
        intro l hl
        have : l = lo ∨ l ∈ PT.bag u := by
          have hu3 := hu3.keys
          cases o with
          | none =>
            have e : PT.bag u' = _ := hu3
            rw [e, Multiset.mem_cons] at hl
            exact hl
          | some x =>
            obtain ⟨q, e1, e2⟩ := hu3
            change PT.bag u = _ at e1
            change PT.bag u' = _ at e2
            rw [e2, Multiset.mem_cons] at hl
            rw [e1, Multiset.mem_cons]
            exact hl.imp id .inr
        rcases this with rfl | h
        · rw [join_of_split hs, hs]
        · exact I.good hi u l hc h
      obtain ⟨e1, e2⟩ := I.set hc hc2 hc3 hu2 hg h1 h2
      refine ⟨some (s, c'), o.map fun e => (join hi e.1, e.2), ?_, e1, ?_, fun hn hk => ?_, fun e he => ?_⟩
      · obtain _ | ⟨l', v'⟩ := o <;> simp [hc1]
      · show InsRelE (k, v) (chbag K s c) (chbag K s c') _
        rw [e2, h3]
        obtain _ | ⟨l', v'⟩ := o
        · have e : PT.ents u' = _ := hu3
          show _ = _
          rw [e, Multiset.map_cons, lift, join_of_split hs, Multiset.cons_add]
        · obtain ⟨q, e3, e4⟩ := hu3
          refine ⟨q.map (lift K hi) + r.bind (cell K (LC.abs c)), ?_, ?_⟩
          · rw [e3, Multiset.map_cons, Multiset.cons_add]; rfl
          · rw [e4, Multiset.map_cons, Multiset.cons_add, lift, join_of_split hs]
      · change (keysOf (chbag K s c)).Nodup at hn
        change k ∉ keysOf (chbag K s c) at hk
        rw [I.mem_chkeys hs] at hk
        rw [h3, keysOf, Multiset.map_add, Multiset.map_map] at hn
        have hn : ((keysOf (PT.ents u)).map (join hi : Lo → K)).Nodup := by
          rw [keysOf, Multiset.map_map]; exact (Multiset.nodup_add.1 hn).1
        rw [hu4 (Multiset.Nodup.of_map _ hn) fun h => hk ⟨u, hc, h⟩]
        rfl
      · obtain ⟨x, rfl, rfl⟩ := Option.map_eq_some_iff.1 he
        exact e1.join_key_mem (h := hi) (u := u') (by rw [hc3]; simp) (hu5 _ rfl)

theorem mem_key3 {mn mx : K × V} {ch : Option (S × C)} {k : K} (h : k ∈ keysOf (ochbag K ch)) :
    k ∈ keysOf (ents (⟨mn, some ⟨mx, ch⟩⟩ : Tree K V S C)) := by
  simp only [ents, keysOf_cons]
  exact Multiset.mem_cons_of_mem (Multiset.mem_cons_of_mem h)
theorem nodup_key3 {mn mx : K × V} {ch : Option (S × C)}
    (h : (keysOf (ents (⟨mn, some ⟨mx, ch⟩⟩ : Tree K V S C))).Nodup) :
    (mn.1 ::ₘ mx.1 ::ₘ keysOf (ochbag K ch)).Nodup := by
  simpa only [ents, keysOf_cons] using h
theorem notMem_key3 {mn mx : K × V} {ch : Option (S × C)} {k : K}
    (h : k ∉ keysOf (ents (⟨mn, some ⟨mx, ch⟩⟩ : Tree K V S C))) :
    k ∉ mn.1 ::ₘ mx.1 ::ₘ keysOf (ochbag K ch) := by
  simpa only [ents, keysOf_cons] using h

theorem phys_insert (t : Tree K V S C) (k : K) (v : V) (h : W t)
    (hl : PS.limited ∨ PT.limited → (ents t).card < usizeMax) :
    ∃ t' o, t.insert k v = .ok (t', o) ∧ W t' ∧ InsRelE (k, v) (ents t) (ents t') o ∧
      ((keysOf (ents t)).Nodup → k ∉ keysOf (ents t) → o = none) ∧ ∀ e, o = some e → e.1 ∈ keysOf (ents t') := by
  obtain ⟨mn, d⟩ := t
  rcases lt_trichotomy k mn.1 with hk | rfl | hk
  · obtain _ | ⟨mx, ch⟩ := d
    · exact ⟨⟨(k, v), some ⟨mn, none⟩⟩, none, by simp [insert, cmp_lt hk], trivial, rfl, fun _ _ => rfl, by simp⟩
    · have hb : OChW K ch := h
      have hl' : PS.limited ∨ PT.limited → (ochbag K ch).card < usizeMax := fun x => by
        have : (mn ::ₘ mx ::ₘ ochbag K ch).card < usizeMax := hl x
        simp only [Multiset.card_cons] at this
        omega
      rcases lt_trichotomy mx.1 mn.1 with hx | hx | hx
      · obtain ⟨ch', o, e1, e2, e3, e4, e5⟩ := phys_insertBelow (mn := (k, v)) (mx := mx) (k := mn.1) (v := mn.2) hb hl'
        refine ⟨⟨(k, v), some ⟨mx, ch'⟩⟩, o, by simp only [insert, cmp_lt hk, cmp_lt hx]; exact e1, e2, ?_, fun hn _ => ?_,
          fun e he => mem_key3 (e5 e he)⟩
        · show InsRelE (k, v) (mn ::ₘ mx ::ₘ ochbag K ch) ((k, v) ::ₘ mx ::ₘ ochbag K ch') o
          exact (e3.cons (a := mx)).swap
        · have hn := nodup_key3 hn
          simp only [Multiset.nodup_cons, Multiset.mem_cons, not_or] at hn
          exact e4 hn.2.2 hn.1.2
      · refine ⟨⟨(k, v), some ⟨mn, ch⟩⟩, some mx, by simp [insert, cmp_lt hk, hx, cmp_self], hb, ?_, fun hn _ => ?_,
          by rintro e ⟨⟩; simp [ents, keysOf_cons, hx]⟩
        · exact ⟨mn ::ₘ ochbag K ch, Multiset.cons_swap _ _ _, rfl⟩
        · have hn := nodup_key3 hn
          simp [hx] at hn
      · obtain ⟨ch', o, e1, e2, e3, e4, e5⟩ := phys_insertBelow (mn := (k, v)) (mx := mn) (k := mx.1) (v := mx.2) hb hl'
        refine ⟨⟨(k, v), some ⟨mn, ch'⟩⟩, o, by simp only [insert, cmp_lt hk, cmp_gt hx]; exact e1, e2, ?_, fun hn _ => ?_,
          fun e he => mem_key3 (e5 e he)⟩
        · show InsRelE (k, v) (mn ::ₘ mx ::ₘ ochbag K ch) ((k, v) ::ₘ mn ::ₘ ochbag K ch') o
          rw [Multiset.cons_swap]
          exact (e3.cons (a := mn)).swap
        · have hn := nodup_key3 hn
          simp only [Multiset.nodup_cons] at hn
          exact e4 hn.2.2 hn.2.1
  · refine ⟨⟨(mn.1, v), d⟩, some mn, by simp [insert, cmp_self], h, ?_, fun _ hk => ?_,
      by rintro e ⟨⟩; exact mem_keysOf_of (e := (mn.1, v)) (mem_min (d := d) _ rfl)⟩
    · obtain _ | d := d
      · exact ⟨0, rfl, rfl⟩
      · exact ⟨_, rfl, rfl⟩
    · exact absurd (mem_keysOf_of (mem_min (d := d) mn rfl)) hk
  · obtain _ | ⟨mx, ch⟩ := d
    · exact ⟨⟨mn, some ⟨(k, v), none⟩⟩, none, by simp [insert, cmp_gt hk], trivial,
        Multiset.cons_swap mn (k, v) 0, fun _ _ => rfl, by simp⟩
    · have hb : OChW K ch := h
      have hl' : PS.limited ∨ PT.limited → (ochbag K ch).card < usizeMax := fun x => by
        have : (mn ::ₘ mx ::ₘ ochbag K ch).card < usizeMax := hl x
        simp only [Multiset.card_cons] at this
        omega
      rcases lt_trichotomy k mx.1 with hx | rfl | hx
      · obtain ⟨ch', o, e1, e2, e3, e4, e5⟩ := phys_insertBelow (mn := mn) (mx := mx) (k := k) (v := v) hb hl'
        refine ⟨⟨mn, some ⟨mx, ch'⟩⟩, o, by simp only [insert, cmp_gt hk, cmp_lt hx]; exact e1, e2, ?_, fun hn hm => ?_,
          fun e he => mem_key3 (e5 e he)⟩
        · exact (e3.cons (a := mx)).cons (a := mn)
        · have hn := nodup_key3 hn
          have hm := notMem_key3 hm
          simp only [Multiset.nodup_cons, Multiset.mem_cons, not_or] at hn hm
          exact e4 hn.2.2 hm.2.2
      · refine ⟨⟨mn, some ⟨(mx.1, v), ch⟩⟩, some mx, by simp [insert, cmp_gt hk, cmp_self], hb, ?_, fun _ hm => ?_,
          by rintro e ⟨⟩; exact mem_keysOf_of (e := (mx.1, v)) (mem_max (ch := ch) _ rfl)⟩
        · exact ⟨mn ::ₘ ochbag K ch, Multiset.cons_swap _ _ _, Multiset.cons_swap _ _ _⟩
        · exact absurd (mem_keysOf_of (mem_max (ch := ch) mx rfl)) hm
      · obtain ⟨ch', o, e1, e2, e3, e4, e5⟩ := phys_insertBelow (mn := mn) (mx := (k, v)) (k := mx.1) (v := mx.2) hb hl'
        refine ⟨⟨mn, some ⟨(k, v), ch'⟩⟩, o, by simp only [insert, cmp_gt hk, cmp_gt hx]; exact e1, e2, ?_, fun hn _ => ?_,
          fun e he => mem_key3 (e5 e he)⟩
        · exact (e3.swap (k := (k, v))).cons (a := mn)
        · have hn := nodup_key3 hn
          simp only [Multiset.nodup_cons] at hn
          exact e4 hn.2.2 hn.2.1

/-! ### removal -/

theorem ChW.removed_last {s : S} {c : C} (I : ChW K s c) {h : Hi} {u : T} {l : Lo × V} {o : Option T}
    (hu : LC.abs c h = some u) (ho : RestRel PT.W PT.ents (PT.ents u) l o)
    (hc : CollRemOk LC.Inv LC.abs c h o none) : chbag K s c = {lift K h l} := by
  obtain ⟨rfl, he⟩ := hc
  obtain ⟨r, h1, h2, h3⟩ := I.split hu
  have hr : r = 0 := by
    refine Multiset.eq_zero_of_forall_notMem fun j hj => ?_
    have : (LC.abs c).Mem j := (I.sum j).1 (by rw [h1]; exact Multiset.mem_cons_of_mem hj)
    have hm : ((LC.abs c).upd h none).Mem j := (Map.mem_upd_none _ _ _).2 ⟨fun e => h2 (e ▸ hj), this⟩
    exact hm (by rw [he]; rfl)
  have ho : PT.ents u = {l} := ho
  rw [h3, hr, ho]
  simp

theorem ChW.removed_keep {s : S} {c c' : C} (I : ChW K s c) {h : Hi} {u : T} {l : Lo × V} {o : Option T}
    (hu : LC.abs c h = some u) (ho : RestRel PT.W PT.ents (PT.ents u) l o)
    (hc : CollRemOk LC.Inv LC.abs c h o (some (c', false))) :
    ChW K s c' ∧ chbag K s c = lift K h l ::ₘ chbag K s c' := by
  obtain ⟨hb, hi, ha⟩ := hc
  obtain _ | u' := o
  · cases hb
  · obtain ⟨r, h1, h2, h3⟩ := I.split hu
    obtain ⟨e1, e2⟩ := I.set hu hi ha ho.1 (fun j hj => I.good h u j hu (by
      rw [PhysTree.bag, ho.2, keysOf_cons]; exact Multiset.mem_cons_of_mem hj)) h1 h2
    refine ⟨e1, ?_⟩
    rw [e2, h3, ho.2, Multiset.map_cons, Multiset.cons_add]

theorem ChW.removed_drop {s : S} {c c' : C} (I : ChW K s c) {h : Hi} {u : T} {l : Lo × V} {o : Option T}
    (hu : LC.abs c h = some u) (ho : RestRel PT.W PT.ents (PT.ents u) l o)
    (hc : CollRemOk LC.Inv LC.abs c h o (some (c', true))) {so : Option S}
    (hs : RestRel PS.W PS.bag (PS.bag s) h so) :
    ∃ s', so = some s' ∧ ChW K s' c' ∧ chbag K s c = lift K h l ::ₘ chbag K s' c' := by
  obtain ⟨hb, hi, ha⟩ := hc
  obtain _ | u' := o
  · have ho : PT.ents u = {l} := ho
    obtain _ | s' := so
    · exfalso
      obtain ⟨j, hj⟩ := LC.nonempty c' hi
      rw [ha, Map.mem_upd_none] at hj
      have := (I.sum j).2 hj.2
      have hs : PS.bag s = {h} := hs
      rw [hs, Multiset.mem_singleton] at this
      exact hj.1 this
    · obtain ⟨e1, e2⟩ := I.drop hi ha hs.1 hs.2
      refine ⟨s', rfl, e1, ?_⟩
      rw [e2, chbag, hs.2, Multiset.cons_bind, cell, hu]
      simp only [ho, Multiset.map_singleton]
      rfl
  · cases hb

theorem phys_ch_removeMin {s : S} {c : C} (I : ChW K s c) :
    ∃ hi lo val res, VebTree.minVal s = .ok (hi, ()) ∧
      TreeCollection.removeKey c hi VebTree.removeMin = .ok (res, (lo, val)) ∧
      ∃ ch' : Option (S × C), OChW K ch' ∧ chbag K s c = (join hi lo, val) ::ₘ ochbag K ch' ∧
        (res = none ∧ ch' = none ∨ (∃ c', res = some (c', false) ∧ ch' = some (s, c')) ∨
          ∃ c' s' x, res = some (c', true) ∧ VebTree.removeMin s = .ok (some s', x) ∧
            ch' = some (s', c')) := by
  obtain ⟨so, hi, ⟨⟩, h1, h2, h3⟩ := PS.removeMin s I.sW
  have hm : hi ∈ PS.bag s := by
    obtain _ | s' := so
    · have h3 : PS.bag s = {hi} := h3
      rw [h3]; exact Multiset.mem_singleton_self _
    · rw [h3.2]; exact Multiset.mem_cons_self _ _
  obtain ⟨u, hu, hw⟩ := ch_child I hm
  obtain ⟨o, lo, v, h4, h5, h6⟩ := PT.removeMinE u hw
  obtain ⟨res, hres, hc⟩ := LC.removeKey c hi u _ o (lo, v) I.cInv hu h5
  refine ⟨hi, lo, v, res, h1, hres, ?_⟩
  obtain _ | ⟨c', _ | _⟩ := res
  · exact ⟨none, trivial, I.removed_last hu h6 hc, .inl ⟨rfl, rfl⟩⟩
  · obtain ⟨e1, e2⟩ := I.removed_keep hu h6 hc
    exact ⟨some (s, c'), e1, e2, .inr (.inl ⟨c', rfl, rfl⟩)⟩
  · obtain ⟨s', rfl, e1, e2⟩ := I.removed_drop hu h6 hc h3
    exact ⟨some (s', c'), e1, e2, .inr (.inr ⟨c', s', _, rfl, h2, rfl⟩)⟩

theorem phys_ch_removeMax {s : S} {c : C} (I : ChW K s c) :
    ∃ hi lo val res, VebTree.maxVal s = .ok (hi, ()) ∧
      TreeCollection.removeKey c hi VebTree.removeMax = .ok (res, (lo, val)) ∧
      ∃ ch' : Option (S × C), OChW K ch' ∧ chbag K s c = (join hi lo, val) ::ₘ ochbag K ch' ∧
        (res = none ∧ ch' = none ∨ (∃ c', res = some (c', false) ∧ ch' = some (s, c')) ∨
          ∃ c' s' x, res = some (c', true) ∧ VebTree.removeMax s = .ok (some s', x) ∧
            ch' = some (s', c')) := by
  obtain ⟨so, hi, ⟨⟩, h1, h2, h3⟩ := PS.removeMax s I.sW
  have hm : hi ∈ PS.bag s := by
    obtain _ | s' := so
    · have h3 : PS.bag s = {hi} := h3
      rw [h3]; exact Multiset.mem_singleton_self _
    · rw [h3.2]; exact Multiset.mem_cons_self _ _
  obtain ⟨u, hu, hw⟩ := ch_child I hm
  obtain ⟨o, lo, v, h4, h5, h6⟩ := PT.removeMaxE u hw
  obtain ⟨res, hres, hc⟩ := LC.removeKey c hi u _ o (lo, v) I.cInv hu h5
  refine ⟨hi, lo, v, res, h1, hres, ?_⟩
  obtain _ | ⟨c', _ | _⟩ := res
  · exact ⟨none, trivial, I.removed_last hu h6 hc, .inl ⟨rfl, rfl⟩⟩
  · obtain ⟨e1, e2⟩ := I.removed_keep hu h6 hc
    exact ⟨some (s, c'), e1, e2, .inr (.inl ⟨c', rfl, rfl⟩)⟩
  · obtain ⟨s', rfl, e1, e2⟩ := I.removed_drop hu h6 hc h3
    exact ⟨some (s', c'), e1, e2, .inr (.inr ⟨c', s', _, rfl, h2, rfl⟩)⟩

theorem phys_removeMin (t : Tree K V S C) (h : W t) :
    ∃ o, t.removeMin = .ok (o, t.min) ∧ RestRel W ents (ents t) t.min o := by
  obtain ⟨mn, _ | ⟨mx, _ | ⟨s, c⟩⟩⟩ := t
  · exact ⟨none, by simp [removeMin], rfl⟩
  · exact ⟨some ⟨mx, none⟩, by simp [removeMin], trivial, rfl⟩
  · have I : ChW K s c := h
    obtain ⟨hi, lo, val, res, h1, h2, ch', h4, h5, h6⟩ := phys_ch_removeMin I
    refine ⟨some ⟨(join hi lo, val), some ⟨mx, ch'⟩⟩, ?_, h4, ?_⟩
    · rcases h6 with ⟨rfl, rfl⟩ | ⟨c', rfl, rfl⟩ | ⟨c', s', x, rfl, hx, rfl⟩
      · simp [removeMin, h1, h2]
      · simp [removeMin, h1, h2]
      · simp [removeMin, h1, h2, hx]
    · show mn ::ₘ mx ::ₘ chbag K s c = mn ::ₘ (join hi lo, val) ::ₘ mx ::ₘ ochbag K ch'
      rw [h5, Multiset.cons_swap mx]

theorem phys_removeMax (t : Tree K V S C) (h : W t) :
    ∃ o k v, t.maxVal = .ok (k, v) ∧ t.removeMax = .ok (o, (k, v)) ∧ RestRel W ents (ents t) (k, v) o := by
  obtain ⟨mn, _ | ⟨mx, _ | ⟨s, c⟩⟩⟩ := t
  · exact ⟨none, mn.1, mn.2, rfl, by simp [removeMax], rfl⟩
  · exact ⟨some ⟨mn, none⟩, mx.1, mx.2, rfl, by simp [removeMax], trivial, Multiset.cons_swap mn mx 0⟩
  · have I : ChW K s c := h
    obtain ⟨hi, lo, val, res, h1, h2, ch', h4, h5, h6⟩ := phys_ch_removeMax I
    refine ⟨some ⟨mn, some ⟨(join hi lo, val), ch'⟩⟩, mx.1, mx.2, rfl, ?_, h4, ?_⟩
    · rcases h6 with ⟨rfl, rfl⟩ | ⟨c', rfl, rfl⟩ | ⟨c', s', x, rfl, hx, rfl⟩
      · simp [removeMax, h1, h2]
      · simp [removeMax, h1, h2]
      · simp [removeMax, h1, h2, hx]
    · show mn ::ₘ mx ::ₘ chbag K s c = mx ::ₘ mn ::ₘ (join hi lo, val) ::ₘ ochbag K ch'
      rw [h5, Multiset.cons_swap mx mn]

theorem phys_remove (t : Tree K V S C) (k : K) (h : W t) :
    (t.remove k = .ok (.Err t) ∧ k ∉ keysOf (ents t)) ∨
      ∃ o v, t.remove k = .ok (.Ok (o, (k, v))) ∧ RestRel W ents (ents t) (k, v) o := by
  by_cases h1 : k = t.min.1
  · obtain ⟨o, e1, e2⟩ := phys_removeMin t h
    refine .inr ⟨o, t.min.2, ?_, h1 ▸ e2⟩
    rw [remove, if_pos h1, e1, h1]; rfl
  · obtain ⟨mn, _ | ⟨mx, _ | ⟨s, c⟩⟩⟩ := t
    · replace h1 : k ≠ mn.1 := h1
      exact .inl ⟨by simp [remove, h1], by simpa [ents, keysOf_single] using h1⟩
    · replace h1 : k ≠ mn.1 := h1
      by_cases h2 : mx.1 = k
      · subst h2
        refine .inr ⟨some ⟨mn, none⟩, mx.2, by simp [remove, h1], trivial, Multiset.cons_swap mn mx 0⟩
      · exact .inl ⟨by simp [remove, h1, h2], by simp [ents, keysOf_cons, keysOf_single, ochbag, h1, Ne.symm h2]⟩
    · replace h1 : k ≠ mn.1 := h1
      have I : ChW K s c := h
      by_cases h2 : k = mx.1
      · subst h2
        obtain ⟨hi, lo, val, res, g1, g2, ch', g4, g5, g6⟩ := phys_ch_removeMax I
        refine .inr ⟨some ⟨mn, some ⟨(join hi lo, val), ch'⟩⟩, mx.2, ?_, g4, ?_⟩
        · rcases g6 with ⟨rfl, rfl⟩ | ⟨c', rfl, rfl⟩ | ⟨c', s', x, rfl, hx, rfl⟩
          · simp [remove, h1, g1, g2]
          · simp [remove, h1, g1, g2]
          · simp [remove, h1, g1, g2, hx]
        · show mn ::ₘ mx ::ₘ chbag K s c = mx ::ₘ mn ::ₘ (join hi lo, val) ::ₘ ochbag K ch'
          rw [g5, Multiset.cons_swap mx mn]
      · rcases hs : splitVal k with ⟨hi, lo⟩
        have hmem : k ∈ keysOf (ents (⟨mn, some ⟨mx, some (s, c)⟩⟩ : Tree K V S C)) ↔
            ∃ u, LC.abs c hi = some u ∧ lo ∈ PT.bag u := by
          rw [← I.mem_chkeys hs]
          simp [ents, keysOf_cons, ochbag, h1, h2]
        simp only [remove, h1, h2, if_false, LK.ref_eq, hs]
        rcases hc : LC.abs c hi with _ | u
        · exact .inl ⟨by simp [LC.maybe_absent c hi _ I.cInv hc], by simp [hmem, hc]⟩
        · rcases PT.removeE u lo (I.child _ _ hc) with ⟨e1, e2⟩ | ⟨o, v, e1, e2⟩
          · exact .inl ⟨by simp [LC.maybe_err c hi u (fun v => VebTree.remove v lo) I.cInv hc e1],
              by simpa [hmem, hc, PhysTree.bag] using e2⟩
          · obtain ⟨res, hres, hcr⟩ := LC.maybe_ok c hi u (fun v => VebTree.remove v lo) o (lo, v) I.cInv hc e1
            refine .inr ?_
            obtain _ | ⟨c', _ | _⟩ := res
            · refine ⟨some ⟨mn, some ⟨mx, none⟩⟩, v, by simp [hres, join_of_split hs], trivial, ?_⟩
              have := I.removed_last hc e2 hcr
              rw [lift, join_of_split hs] at this
              exact put3 this
            · obtain ⟨g1, g2⟩ := I.removed_keep hc e2 hcr
              rw [lift, join_of_split hs] at g2
              exact ⟨some ⟨mn, some ⟨mx, some (s, c')⟩⟩, v, by simp [hres, join_of_split hs], g1, put3 g2⟩
            · rcases PS.remove s hi I.sW with ⟨-, g2⟩ | ⟨so, ⟨⟩, g1, g2⟩
              · exact absurd ((I.sum hi).2 (Map.mem_of hc)) g2
              · obtain ⟨s', rfl, g3, g4⟩ := I.removed_drop hc e2 hcr g2
                rw [lift, join_of_split hs] at g4
                exact ⟨some ⟨mn, some ⟨mx, some (s', c')⟩⟩, v, by simp [hres, g1, join_of_split hs], g3, put3 g4⟩

/-! ### the instance -/

theorem card_ents (t : Tree K V S C) : (ents t).card = 1 ↔ t.data = none := by
  obtain ⟨mn, _ | d⟩ := t <;> simp [ents]

instance instPhys : PhysTree (Tree K V S C) K V where
  W := W
  ents := ents
  limited := PS.limited ∨ PT.limited
  fromMonadE k v := ⟨trivial, rfl⟩
  isMonadE t _ := ⟨_, rfl, by rw [card_ents, Option.isNone_iff_eq_none]⟩
  lenHintE t _ := by
    obtain ⟨mn, _ | d⟩ := t
    · exact ⟨(1, none), rfl, by simp [ents], by simp⟩
    · exact ⟨(2, none), rfl, by simp [ents], by simp⟩
  intoMonadE t _ := by
    obtain ⟨mn, _ | d⟩ := t
    · exact .inl ⟨mn.1, mn.2, rfl, rfl⟩
    · exact .inr ⟨rfl, by simp [ents]⟩
  minValE t _ := ⟨t.min.1, t.min.2, rfl, mem_min (d := t.data) t.min rfl⟩
  minValMutE t h := ⟨_, rfl, phys_put_min h⟩
  maxValE t _ := by
    obtain ⟨mn, _ | d⟩ := t
    · exact ⟨mn.1, mn.2, rfl, Multiset.mem_singleton_self _⟩
    · exact ⟨d.max.1, d.max.2, rfl, mem_max (ch := d.children) d.max rfl⟩
  maxValMutE t h := by
    obtain ⟨mn, _ | d⟩ := t
    · exact ⟨_, rfl, phys_put_min h⟩
    · exact ⟨_, rfl, phys_put_max h⟩
  findE := phys_find
  findMutE := phys_findMut
  predecessorE := phys_predecessor
  predecessorMutE := phys_predecessorMut
  successorE := phys_successor
  successorMutE := phys_successorMut
  insertE := phys_insert
  removeE := phys_remove
  removeMinE t h := by
    obtain ⟨o, h1, h2⟩ := phys_removeMin t h
    exact ⟨o, t.min.1, t.min.2, rfl, h1, h2⟩
  removeMaxE := phys_removeMax

end Tree
end Veb
