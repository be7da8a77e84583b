import Verif.Proof.Children
import Verif.Model.Tree
import Verif.SpecHist

/-!
`Tree` is lawful when its summary, its children and its key type are.
-/

set_option linter.unusedSectionVars false

namespace Veb
namespace Tree
variable {K V S C Hi Lo T : Type} [LinearOrder K] [LinearOrder Hi] [LinearOrder Lo]
  [VebKey K Hi Lo] [VebKeyRef K Hi Lo] [LK : LawfulVebKey K Hi Lo]
  [VebTree S Hi Unit] [LS : LawfulVebTree S Hi Unit]
  [VebTree T Lo V] [LT : LawfulVebTree T Lo V]
  [TreeCollection C Hi T Lo V] [LC : LawfulColl C Hi T Lo V]

open VebKey (splitVal join)

/-- strictly between `mn` and `mx` -/
abbrev Btw {K : Type} [LinearOrder K] (mn mx : K) : K → Prop := fun k => mn < k ∧ k < mx

/-- Contents of summary and children. -/
def chmap (K : Type) [VebKey K Hi Lo] : Option (S × C) → Map K V
  | none => Map.empty
  | some p => cmap K p.2

def ChOK (B : K → Prop) : Option (S × C) → Prop
  | none => True
  | some p => ChInv B p.1 p.2

/-- Contents of a tree. -/
def abs (t : Tree K V S C) : Map K V :=
  match t.data with
  | none => Map.single t.min.1 t.min.2
  | some d => Map.ends t.min d.max (chmap K d.children)

def Inv (t : Tree K V S C) : Prop :=
  match t.data with
  | none => True
  | some d => t.min.1 < d.max.1 ∧ ChOK (Btw t.min.1 d.max.1) d.children

theorem ChOK.between {mn mx : K} : ∀ {ch : Option (S × C)}, ChOK (Btw mn mx) ch → (chmap K ch).Between mn mx
  | none, _ => Map.between_empty _ _
  | some _, h => ChInv.bound h

theorem abs_none (mn : K × V) : (⟨mn, none⟩ : Tree K V S C).abs = Map.single mn.1 mn.2 := rfl
theorem abs_some (mn : K × V) (d : TreeData K V S C) :
    (⟨mn, some d⟩ : Tree K V S C).abs = Map.ends mn d.max (chmap K d.children) := rfl
theorem inv_some {mn : K × V} {d : TreeData K V S C} (h1 : mn.1 < d.max.1)
    (h2 : ChOK (Btw mn.1 d.max.1) d.children) : (⟨mn, some d⟩ : Tree K V S C).Inv := ⟨h1, h2⟩
theorem inv_none (mn : K × V) : (⟨mn, none⟩ : Tree K V S C).Inv := trivial

/-! ### writing through references -/

theorem put_min {t : Tree K V S C} (h : t.Inv) : PutOk Inv abs t t.min.1 t.putMin := by
  intro w
  obtain ⟨mn, _ | d⟩ := t
  · exact ⟨trivial, by simp [putMin, abs, Map.single_upd]⟩
  · exact ⟨h, by simp [putMin, abs, Map.ends_upd_min]⟩

theorem put_max {mn : K × V} {d : TreeData K V S C} (h : (⟨mn, some d⟩ : Tree K V S C).Inv) :
    PutOk Inv abs (⟨mn, some d⟩ : Tree K V S C) d.max.1 ((⟨mn, some d⟩ : Tree K V S C).putMax d) := by
  intro w
  refine ⟨h, ?_⟩
  simp only [putMax, abs]
  rw [Map.ends_upd_max h.1]

/-- writing to an entry of a child -/
theorem put_child {mn mx : K × V} {s : S} {c : C}
    (h : (⟨mn, some ⟨mx, some (s, c)⟩⟩ : Tree K V S C).Inv) {hi : Hi} {lo : Lo} {u : T} {v : V}
    (hu : LC.abs c hi = some u) (hl : LT.abs u lo = some v) {putC : T → C}
    (hputC : ∀ u, LC.Inv (putC u) ∧ LC.abs (putC u) = (LC.abs c).upd hi (some u)) {put : V → T}
    (hput : PutOk LT.Inv LT.abs u lo put) :
    PutOk Inv abs (⟨mn, some ⟨mx, some (s, c)⟩⟩ : Tree K V S C) (join hi lo) fun w =>
      (⟨mn, some ⟨mx, some (s, c)⟩⟩ : Tree K V S C).putChildren ⟨mx, some (s, c)⟩ s (putC (put w)) := by
  intro w
  have I : ChInv (Btw mn.1 mx.1) s c := h.2
  have hlm := Map.mem_of hl
  have hg := I.good hi u lo hu hlm
  have hm : (cmap K c).Mem (join hi lo) := by
    rw [Map.Mem, I.cmap_join hu hlm]; exact hlm
  have hb := I.bound _ hm
  obtain ⟨h1, h2⟩ := I.set_child hg hb hu (hputC (put w)).1 (hputC (put w)).2 (hput w).1 (hput w).2
  refine ⟨⟨h.1, h1⟩, ?_⟩
  simp only [putChildren, abs, chmap]
  rw [h2, Map.ends_upd_inner h.1 I.bound _ hb.1.ne' hb.2.ne]

/-! ### reaching into the children -/

theorem ch_min {B : K → Prop} {s : S} {c : C} (I : ChInv B s c) :
    ∃ hi u lo val, VebTree.minVal s = .ok (hi, ()) ∧ LC.abs c hi = some u ∧ LT.Inv u ∧
      VebTree.minVal u = .ok (lo, val) ∧ (LS.abs s).IsMin (hi, ()) ∧ (LT.abs u).IsMin (lo, val) ∧
      (cmap K c).IsMin (join hi lo, val) := by
  obtain ⟨⟨hi, ⟨⟩⟩, h1, h2⟩ := LS.minVal s I.sInv
  obtain ⟨u, hu, hi'⟩ := I.child_of_sum (Map.mem_of h2.1)
  obtain ⟨⟨lo, val⟩, h3, h4⟩ := LT.minVal u hi'
  exact ⟨hi, u, lo, val, h1, hu, hi', h3, h2, h4, I.isMin h2 hu h4⟩

theorem ch_max {B : K → Prop} {s : S} {c : C} (I : ChInv B s c) :
    ∃ hi u lo val, VebTree.maxVal s = .ok (hi, ()) ∧ LC.abs c hi = some u ∧ LT.Inv u ∧
      VebTree.maxVal u = .ok (lo, val) ∧ (LS.abs s).IsMax (hi, ()) ∧ (LT.abs u).IsMax (lo, val) ∧
      (cmap K c).IsMax (join hi lo, val) := by
  obtain ⟨⟨hi, ⟨⟩⟩, h1, h2⟩ := LS.maxVal s I.sInv
  obtain ⟨u, hu, hi'⟩ := I.child_of_sum (Map.mem_of h2.1)
  obtain ⟨⟨lo, val⟩, h3, h4⟩ := LT.maxVal u hi'
  exact ⟨hi, u, lo, val, h1, hu, hi', h3, h2, h4, I.isMax h2 hu h4⟩

theorem ch_predecessor {B : K → Prop} {s : S} {c : C} (I : ChInv B s c) {k : K} {hi : Hi} {lo : Lo}
    (hs : splitVal k = (hi, lo)) (hno : ∀ u, LC.abs c hi = some u → (LT.abs u).IsPred lo none) :
    (VebTree.predecessor s hi = .ok none ∧ (cmap K c).IsPred k none) ∨
    ∃ hi' u lo' v, VebTree.predecessor s hi = .ok (some (hi', ())) ∧ LC.abs c hi' = some u ∧ LT.Inv u ∧
      VebTree.maxVal u = .ok (lo', v) ∧ (LT.abs u).IsMax (lo', v) ∧
      (cmap K c).IsPred k (some (join hi' lo', v)) := by
  obtain ⟨r, hr, hr'⟩ := LS.predecessor s hi I.sInv
  obtain _ | ⟨hi', ⟨⟩⟩ := r
  · exact .inl ⟨hr, I.isPred_none hs hno hr'⟩
  · obtain ⟨u, hu, hui⟩ := I.child_of_sum (Map.mem_of hr'.1)
    obtain ⟨⟨lo', v⟩, h3, h4⟩ := LT.maxVal u hui
    exact .inr ⟨hi', u, lo', v, hr, hu, hui, h3, h4, I.isPred_sum hs hno hr' hu h4⟩

theorem ch_successor {B : K → Prop} {s : S} {c : C} (I : ChInv B s c) {k : K} {hi : Hi} {lo : Lo}
    (hs : splitVal k = (hi, lo)) (hno : ∀ u, LC.abs c hi = some u → (LT.abs u).IsSucc lo none) :
    (VebTree.successor s hi = .ok none ∧ (cmap K c).IsSucc k none) ∨
    ∃ hi' u lo' v, VebTree.successor s hi = .ok (some (hi', ())) ∧ LC.abs c hi' = some u ∧ LT.Inv u ∧
      VebTree.minVal u = .ok (lo', v) ∧ (LT.abs u).IsMin (lo', v) ∧
      (cmap K c).IsSucc k (some (join hi' lo', v)) := by
  obtain ⟨r, hr, hr'⟩ := LS.successor s hi I.sInv
  obtain _ | ⟨hi', ⟨⟩⟩ := r
  · exact .inl ⟨hr, I.isSucc_none hs hno hr'⟩
  · obtain ⟨u, hu, hui⟩ := I.child_of_sum (Map.mem_of hr'.1)
    obtain ⟨⟨lo', v⟩, h3, h4⟩ := LT.minVal u hui
    exact .inr ⟨hi', u, lo', v, hr, hu, hui, h3, h4, I.isSucc_sum hs hno hr' hu h4⟩

/-! ### the methods -/

theorem find_ok (t : Tree K V S C) (k : K) (h : t.Inv) :
    t.find k = .ok ((t.abs k).map fun v => (k, v)) := by
  obtain ⟨⟨mk, mv⟩, d⟩ := t
  rcases lt_trichotomy k mk with hk | rfl | hk
  · simp only [find, cmp_lt hk]
    cases d with
    | none => simp [abs, Map.single_apply, hk.ne]
    | some d =>
      have : (Map.ends (mk, mv) d.max (chmap K d.children)) k = none := by
        by_contra hc
        exact absurd ((Map.isMin_ends h.1 h.2.between).2 _ hc) (not_le.mpr hk)
      simp [abs, this]
  · simp only [find, cmp_self]
    cases d with
    | none => simp [abs]
    | some d => simp [abs, Map.ends_min (mn := (k, mv))]
  · simp only [find, cmp_gt hk]
    obtain _ | ⟨mx, ch⟩ := d
    · simp [abs, Map.single_apply, hk.ne']
    · by_cases hx : k = mx.1
      · subst hx
        simp [abs, Map.ends_max h.1]
      · simp only [hx, if_false, abs]
        rw [Map.ends_inner h.1 h.2.between hk.ne' hx]
        obtain _ | ⟨s, c⟩ := ch
        · simp [chmap]
        · have I : ChInv (Btw mk mx.1) s c := h.2
          simp only [LK.ref_eq, chmap]
          rcases hs : splitVal k with ⟨hi, lo⟩
          simp only [LC.get _ _ I.cInv, R.ok_bind, cmap_split hs]
          rcases hc : LC.abs c hi with _ | u
          · simp
          · simp only [LT.find _ _ (I.child _ _ hc), R.ok_bind, Option.bind_some]
            rcases LT.abs u lo with _ | v
            · simp
            · simp [join_of_split hs]

theorem findMut_ok (t : Tree K V S C) (k : K) (h : t.Inv) :
    ∃ r, t.findMut k = .ok r ∧ MutOk Inv abs t (fun e => e = (t.abs k).map fun v => (k, v)) r := by
  have hf := find_ok t k h
  obtain ⟨⟨mk, mv⟩, d⟩ := t
  rcases lt_trichotomy k mk with hk | rfl | hk
  · simp only [find, findMut, cmp_lt hk, R.pure_eq, Except.ok.injEq] at hf ⊢
    exact ⟨_, rfl, hf, by simp⟩
  · simp only [find, findMut, cmp_self, R.pure_eq, Except.ok.injEq] at hf ⊢
    refine ⟨_, rfl, hf, ?_⟩
    rintro _ _ _ ⟨⟩
    exact put_min h
  · simp only [find, findMut, cmp_gt hk] at hf ⊢
    obtain _ | ⟨mx, ch⟩ := d
    · simp only [R.pure_eq, Except.ok.injEq] at hf ⊢
      exact ⟨_, rfl, hf, by simp⟩
    · by_cases hx : k = mx.1
      · simp only [hx, if_true, R.pure_eq, Except.ok.injEq] at hf ⊢
        refine ⟨_, rfl, hf, ?_⟩
        rintro _ _ _ ⟨⟩
        exact put_max h
      · simp only [hx, if_false] at hf ⊢
        obtain _ | ⟨s, c⟩ := ch
        · simp only [R.pure_eq, Except.ok.injEq] at hf ⊢
          exact ⟨_, rfl, hf, by simp⟩
        · have I : ChInv (Btw mk mx.1) s c := h.2
          simp only [LK.ref_eq] at hf ⊢
          rcases hs : splitVal k with ⟨hi, lo⟩
          simp only [hs, LC.get _ _ I.cInv, R.ok_bind] at hf ⊢
          rcases hc : LC.abs c hi with _ | u
          · simp only [hc, LC.getMut_none _ _ I.cInv hc, R.ok_bind, R.pure_eq, Except.ok.injEq] at hf ⊢
            exact ⟨_, rfl, hf, by simp⟩
          · obtain ⟨putC, hp, hpc⟩ := LC.getMut_some _ _ _ I.cInv hc
            obtain ⟨r, hr, hr1, hr2⟩ := LT.findMut u lo (I.child _ _ hc)
            simp only [hc, LT.find _ _ (I.child _ _ hc), hp, hr, R.ok_bind] at hf ⊢
            rcases hv : LT.abs u lo with _ | v
            · rw [hv] at hr1
              obtain rfl : r = none := by simpa using hr1
              simp only [hv, Option.map_none, R.pure_eq, Except.ok.injEq] at hf ⊢
              exact ⟨_, rfl, hf, by simp⟩
            · rw [hv] at hr1
              obtain ⟨⟨lo', v', put⟩, rfl⟩ : ∃ p, r = some p := by
                cases r with
                | none => simp at hr1
                | some p => exact ⟨p, rfl⟩
              simp only [Option.map_some, Option.some.injEq, Prod.mk.injEq] at hr1
              obtain ⟨rfl, rfl⟩ := hr1
              simp only [hv, Option.map_some, R.pure_eq, Except.ok.injEq] at hf ⊢
              refine ⟨_, rfl, hf, ?_⟩
              rintro _ _ _ ⟨⟩
              exact put_child h hc hv hpc (hr2 _ _ _ rfl)

theorem predecessor_ok (t : Tree K V S C) (k : K) (h : t.Inv) :
    ∃ r, t.predecessor k = .ok r ∧ t.abs.IsPred k r := by
  obtain ⟨mn, d⟩ := t
  by_cases hk : k ≤ mn.1
  · refine ⟨none, by simp [predecessor, hk], ?_⟩
    obtain _ | d := d
    · have := Map.isPred_single mn.1 k mn.2
      simpa [not_lt.mpr hk, abs_none] using this
    · exact Map.isPred_le h.1 h.2.between hk
  · have hk' := not_le.1 hk
    obtain _ | ⟨mx, ch⟩ := d
    · refine ⟨some mn, by simp [predecessor, hk], ?_⟩
      have := Map.isPred_single mn.1 k mn.2
      simpa [hk', abs_none] using this
    · rcases lt_trichotomy k mx.1 with hx | rfl | hx
      · obtain _ | ⟨s, c⟩ := ch
        · refine ⟨some mn, by simp [predecessor, hk, cmp_lt hx], ?_⟩
          exact Map.isPred_inner_none h.1 h.2.between hk' hx.le (fun j hj => absurd hj (Map.mem_empty j))
        · have I : ChInv (Btw mn.1 mx.1) s c := h.2
          simp only [predecessor, hk, if_false, cmp_lt hx, LK.ref_eq]
          rcases hs : splitVal k with ⟨hi, lo⟩
          simp only [LC.get _ _ I.cInv, R.ok_bind]
          have key : ∀ q, (cmap K c).IsPred k q →
              (⟨mn, some ⟨mx, some (s, c)⟩⟩ : Tree K V S C).abs.IsPred k (some (q.getD mn)) := by
            intro q hq
            cases q with
            | none => exact Map.isPred_inner_none h.1 h.2.between hk' hx.le hq
            | some e => exact Map.isPred_inner_some h.1 h.2.between hx.le hq
          have main : (∀ u, LC.abs c hi = some u → (LT.abs u).IsPred lo none) → _ := ch_predecessor I hs
          rcases hc : LC.abs c hi with _ | u
          · rcases main (by simp [hc]) with ⟨h1, h2⟩ | ⟨hi', u', lo', v, h1, h2, _, h3, _, h4⟩
            · exact ⟨_, by simp [h1], key none h2⟩
            · exact ⟨_, by simp [h1, h2, h3], key (some _) h4⟩
          · obtain ⟨r, hr, hr'⟩ := LT.predecessor u lo (I.child _ _ hc)
            simp only [hr, R.ok_bind]
            obtain _ | ⟨lo', v⟩ := r
            · rcases main (by simpa [hc] using hr') with ⟨h1, h2⟩ | ⟨hi', u', lo', v, h1, h2, _, h3, _, h4⟩
              · exact ⟨_, by simp [h1], key none h2⟩
              · exact ⟨_, by simp [h1, h2, h3], key (some _) h4⟩
            · exact ⟨_, rfl, key (some _) (I.isPred_child hs hc hr')⟩
      · obtain _ | ⟨s, c⟩ := ch
        · refine ⟨some mn, by simp [predecessor, hk, cmp_self], ?_⟩
          exact Map.isPred_inner_none h.1 h.2.between hk' le_rfl (fun j hj => absurd hj (Map.mem_empty j))
        · have I : ChInv (Btw mn.1 mx.1) s c := h.2
          obtain ⟨hi, u, lo, val, h1, h2, _, h3, _, _, h4⟩ := ch_max I
          refine ⟨some (join hi lo, val), ?_, Map.isPred_max h.1 h.2.between h4⟩
          simp [predecessor, hk, cmp_self, h1, LC.get _ _ I.cInv, h2, h3]
      · refine ⟨some mx, by simp [predecessor, hk, cmp_gt hx], ?_⟩
        exact Map.isPred_gt h.1 h.2.between hx

theorem successor_ok (t : Tree K V S C) (k : K) (h : t.Inv) :
    ∃ r, t.successor k = .ok r ∧ t.abs.IsSucc k r := by
  obtain ⟨mn, d⟩ := t
  by_cases hk : k < mn.1
  · refine ⟨some mn, by simp [successor, hk], ?_⟩
    obtain _ | d := d
    · have := Map.isSucc_single mn.1 k mn.2
      simpa [hk, abs_none] using this
    · exact Map.isSucc_lt h.1 h.2.between hk
  · have hk' := not_lt.1 hk
    obtain _ | ⟨mx, ch⟩ := d
    · refine ⟨none, by simp [successor, hk], ?_⟩
      have := Map.isSucc_single mn.1 k mn.2
      simpa [hk, abs_none] using this
    · by_cases hx : mx.1 ≤ k
      · refine ⟨none, by simp [successor, hk, hx], ?_⟩
        exact Map.isSucc_ge h.1 h.2.between hx
      · have hx' := not_le.1 hx
        obtain _ | ⟨s, c⟩ := ch
        · refine ⟨some mx, by simp [successor, hk, hx], ?_⟩
          exact Map.isSucc_inner_none h.1 h.2.between hk' hx' (fun j hj => absurd hj (Map.mem_empty j))
        · have I : ChInv (Btw mn.1 mx.1) s c := h.2
          by_cases hm : k = mn.1
          · subst hm
            obtain ⟨hi, u, lo, val, h1, h2, _, h3, _, _, h4⟩ := ch_min I
            refine ⟨some (join hi lo, val), ?_, Map.isSucc_min h.1 h.2.between h4⟩
            simp [successor, hx, h1, LC.get _ _ I.cInv, h2, h3]
          · simp only [successor, hk, hx, hm, if_false, LK.ref_eq]
            rcases hs : splitVal k with ⟨hi, lo⟩
            simp only [LC.get _ _ I.cInv, R.ok_bind]
            have key : ∀ q, (cmap K c).IsSucc k q →
                (⟨mn, some ⟨mx, some (s, c)⟩⟩ : Tree K V S C).abs.IsSucc k (some (q.getD mx)) := by
              intro q hq
              cases q with
              | none => exact Map.isSucc_inner_none h.1 h.2.between hk' hx' hq
              | some e => exact Map.isSucc_inner_some h.1 h.2.between hk' hq
            have main : (∀ u, LC.abs c hi = some u → (LT.abs u).IsSucc lo none) → _ := ch_successor I hs
            rcases hc : LC.abs c hi with _ | u
            · rcases main (by simp [hc]) with ⟨h1, h2⟩ | ⟨hi', u', lo', v, h1, h2, _, h3, _, h4⟩
              · exact ⟨_, by simp [h1], key none h2⟩
              · exact ⟨_, by simp [h1, h2, h3], key (some _) h4⟩
            · obtain ⟨r, hr, hr'⟩ := LT.successor u lo (I.child _ _ hc)
              simp only [hr, R.ok_bind]
              obtain _ | ⟨lo', v⟩ := r
              · rcases main (by simpa [hc] using hr') with ⟨h1, h2⟩ | ⟨hi', u', lo', v, h1, h2, _, h3, _, h4⟩
                · exact ⟨_, by simp [h1], key none h2⟩
                · exact ⟨_, by simp [h1, h2, h3], key (some _) h4⟩
              · exact ⟨_, rfl, key (some _) (I.isSucc_child hs hc hr')⟩

theorem mutOk_none {t : Tree K V S C} {Q : Option (K × V) → Prop} (h : Q none) : MutOk Inv abs t Q none :=
  ⟨h, by simp⟩
theorem mutOk_some {t : Tree K V S C} {Q : Option (K × V) → Prop} {k : K} {v : V}
    {put : V → Tree K V S C} (h : Q (some (k, v))) (hp : PutOk Inv abs t k put) :
    MutOk Inv abs t Q (some (k, v, put)) :=
  ⟨h, by rintro _ _ _ ⟨⟩; exact hp⟩

theorem predecessorMut_ok (t : Tree K V S C) (k : K) (h : t.Inv) :
    ∃ r, t.predecessorMut k = .ok r ∧ MutOk Inv abs t (t.abs.IsPred k) r := by
  obtain ⟨mn, d⟩ := t
  by_cases hk : k ≤ mn.1
  · refine ⟨none, by simp [predecessorMut, hk], mutOk_none ?_⟩
    obtain _ | d := d
    · have := Map.isPred_single mn.1 k mn.2
      simpa [not_lt.mpr hk, abs_none] using this
    · exact Map.isPred_le h.1 h.2.between hk
  · have hk' := not_le.1 hk
    obtain _ | ⟨mx, ch⟩ := d
    · refine ⟨_, by simp only [predecessorMut, hk, if_false]; rfl, mutOk_some ?_ (put_min h)⟩
      have := Map.isPred_single mn.1 k mn.2
      simpa [hk', abs_none] using this
    · rcases lt_trichotomy k mx.1 with hx | rfl | hx
      · obtain _ | ⟨s, c⟩ := ch
        · refine ⟨_, by simp only [predecessorMut, hk, if_false, cmp_lt hx]; rfl,
            mutOk_some ?_ (put_min h)⟩
          exact Map.isPred_inner_none h.1 h.2.between hk' hx.le (fun j hj => absurd hj (Map.mem_empty j))
        · have I : ChInv (Btw mn.1 mx.1) s c := h.2
          simp only [predecessorMut, hk, if_false, cmp_lt hx, LK.ref_eq]
          rcases hs : splitVal k with ⟨hi, lo⟩
          have main : (∀ u, LC.abs c hi = some u → (LT.abs u).IsPred lo none) → _ := ch_predecessor I hs
          have fin : (∀ u, LC.abs c hi = some u → (LT.abs u).IsPred lo none) →
              ∀ f : R (Option (K × V × (V → Tree K V S C))),
              (VebTree.predecessor s hi = .ok none → f = .ok (some (mn.1, mn.2,
                (⟨mn, some ⟨mx, some (s, c)⟩⟩ : Tree K V S C).putMin))) →
              (∀ hi' u lo' v putC put, VebTree.predecessor s hi = .ok (some (hi', ())) →
                TreeCollection.getMut c hi' = .ok (some (u, putC)) →
                VebTree.maxValMut u = .ok (lo', v, put) →
                f = .ok (some (join hi' lo', v, fun w =>
                  (⟨mn, some ⟨mx, some (s, c)⟩⟩ : Tree K V S C).putChildren ⟨mx, some (s, c)⟩ s
                    (putC (put w))))) →
              ∃ r, f = .ok r ∧ MutOk Inv abs (⟨mn, some ⟨mx, some (s, c)⟩⟩ : Tree K V S C)
                ((⟨mn, some ⟨mx, some (s, c)⟩⟩ : Tree K V S C).abs.IsPred k) r := by
            intro hno f f1 f2
            rcases main hno with ⟨h1, h2⟩ | ⟨hi', u', lo', v, h1, h2, h2', h3, h3', h4⟩
            · exact ⟨_, f1 h1, mutOk_some (Map.isPred_inner_none h.1 h.2.between hk' hx.le h2) (put_min h)⟩
            · obtain ⟨putC, hp, hpc⟩ := LC.getMut_some _ _ _ I.cInv h2
              obtain ⟨⟨lo'', v'', put⟩, hr, hr1, hr2⟩ := LT.maxValMut u' h2'
              cases h3'.unique hr1
              exact ⟨_, f2 _ _ _ _ _ _ h1 hp hr,
                mutOk_some (Map.isPred_inner_some h.1 h.2.between hx.le h4) (put_child h h2 h3'.1 hpc hr2)⟩
          rcases hc : LC.abs c hi with _ | u
          · simp only [LC.getMut_none _ _ I.cInv hc, R.ok_bind, R.pure_eq]
            apply fin (by simp [hc])
            · intro h1; simp [h1]
            · intro hi' u lo' v putC put h1 h2 h3; simp [h1, h2, h3]
          · obtain ⟨putC, hp, hpc⟩ := LC.getMut_some _ _ _ I.cInv hc
            obtain ⟨r, hr, hr1, hr2⟩ := LT.predecessorMut u lo (I.child _ _ hc)
            simp only [hp, hr, R.ok_bind, R.pure_eq]
            obtain _ | ⟨lo', v, put⟩ := r
            · apply fin (by simpa [hc] using hr1)
              · intro h1; simp [h1]
              · intro hi' u lo' v putC put h1 h2 h3; simp [h1, h2, h3]
            · refine ⟨_, rfl, mutOk_some ?_ (put_child h hc hr1.1 hpc (hr2 _ _ _ rfl))⟩
              exact Map.isPred_inner_some h.1 h.2.between hx.le (I.isPred_child hs hc hr1)
      · obtain _ | ⟨s, c⟩ := ch
        · refine ⟨_, by simp only [predecessorMut, hk, if_false, cmp_self]; rfl,
            mutOk_some ?_ (put_min h)⟩
          exact Map.isPred_inner_none h.1 h.2.between hk' le_rfl (fun j hj => absurd hj (Map.mem_empty j))
        · have I : ChInv (Btw mn.1 mx.1) s c := h.2
          obtain ⟨hi, u, lo, val, h1, h2, h2', h3, _, h3', h4⟩ := ch_max I
          obtain ⟨putC, hp, hpc⟩ := LC.getMut_some _ _ _ I.cInv h2
          obtain ⟨⟨lo'', v'', put⟩, hr, hr1, hr2⟩ := LT.maxValMut u h2'
          cases h3'.unique hr1
          refine ⟨_, ?_, mutOk_some (Map.isPred_max h.1 h.2.between h4) (put_child h h2 h3'.1 hpc hr2)⟩
          simp [predecessorMut, hk, cmp_self, h1, hp, hr, hk']
      · refine ⟨_, by simp only [predecessorMut, hk, if_false, cmp_gt hx]; rfl,
          mutOk_some ?_ (put_max h)⟩
        exact Map.isPred_gt h.1 h.2.between hx

theorem successorMut_ok (t : Tree K V S C) (k : K) (h : t.Inv) :
    ∃ r, t.successorMut k = .ok r ∧ MutOk Inv abs t (t.abs.IsSucc k) r := by
  obtain ⟨mn, d⟩ := t
  by_cases hk : k < mn.1
  · refine ⟨_, by simp only [successorMut, hk, if_true]; rfl, mutOk_some ?_ (put_min h)⟩
    obtain _ | d := d
    · have := Map.isSucc_single mn.1 k mn.2
      simpa [hk, abs_none] using this
    · exact Map.isSucc_lt h.1 h.2.between hk
  · have hk' := not_lt.1 hk
    obtain _ | ⟨mx, ch⟩ := d
    · refine ⟨none, by simp [successorMut, hk], mutOk_none ?_⟩
      have := Map.isSucc_single mn.1 k mn.2
      simpa [hk, abs_none] using this
    · by_cases hx : mx.1 ≤ k
      · refine ⟨none, by simp [successorMut, hk, hx], mutOk_none ?_⟩
        exact Map.isSucc_ge h.1 h.2.between hx
      · have hx' := not_le.1 hx
        obtain _ | ⟨s, c⟩ := ch
        · refine ⟨_, by simp only [successorMut, hk, hx, if_false]; rfl, mutOk_some ?_ (put_max h)⟩
          exact Map.isSucc_inner_none h.1 h.2.between hk' hx' (fun j hj => absurd hj (Map.mem_empty j))
        · have I : ChInv (Btw mn.1 mx.1) s c := h.2
          by_cases hm : k = mn.1
          · subst hm
            obtain ⟨hi, u, lo, val, h1, h2, h2', h3, _, h3', h4⟩ := ch_min I
            obtain ⟨putC, hp, hpc⟩ := LC.getMut_some _ _ _ I.cInv h2
            obtain ⟨⟨lo'', v'', put⟩, hr, hr1, hr2⟩ := LT.minValMut u h2'
            cases h3'.unique hr1
            refine ⟨_, ?_, mutOk_some (Map.isSucc_min h.1 h.2.between h4) (put_child h h2 h3'.1 hpc hr2)⟩
            simp [successorMut, hx, h1, hp, hr]
          · simp only [successorMut, hk, hx, hm, if_false, LK.ref_eq]
            rcases hs : splitVal k with ⟨hi, lo⟩
            have main : (∀ u, LC.abs c hi = some u → (LT.abs u).IsSucc lo none) → _ := ch_successor I hs
            have fin : (∀ u, LC.abs c hi = some u → (LT.abs u).IsSucc lo none) →
                ∀ f : R (Option (K × V × (V → Tree K V S C))),
                (VebTree.successor s hi = .ok none → f = .ok (some (mx.1, mx.2,
                  (⟨mn, some ⟨mx, some (s, c)⟩⟩ : Tree K V S C).putMax ⟨mx, some (s, c)⟩))) →
                (∀ hi' u lo' v putC put, VebTree.successor s hi = .ok (some (hi', ())) →
                  TreeCollection.getMut c hi' = .ok (some (u, putC)) →
                  VebTree.minValMut u = .ok (lo', v, put) →
                  f = .ok (some (join hi' lo', v, fun w =>
                    (⟨mn, some ⟨mx, some (s, c)⟩⟩ : Tree K V S C).putChildren ⟨mx, some (s, c)⟩ s
                      (putC (put w))))) →
                ∃ r, f = .ok r ∧ MutOk Inv abs (⟨mn, some ⟨mx, some (s, c)⟩⟩ : Tree K V S C)
                  ((⟨mn, some ⟨mx, some (s, c)⟩⟩ : Tree K V S C).abs.IsSucc k) r := by
              intro hno f f1 f2
              rcases main hno with ⟨h1, h2⟩ | ⟨hi', u', lo', v, h1, h2, h2', h3, h3', h4⟩
              · exact ⟨_, f1 h1, mutOk_some (Map.isSucc_inner_none h.1 h.2.between hk' hx' h2) (put_max h)⟩
              · obtain ⟨putC, hp, hpc⟩ := LC.getMut_some _ _ _ I.cInv h2
                obtain ⟨⟨lo'', v'', put⟩, hr, hr1, hr2⟩ := LT.minValMut u' h2'
                cases h3'.unique hr1
                exact ⟨_, f2 _ _ _ _ _ _ h1 hp hr,
                  mutOk_some (Map.isSucc_inner_some h.1 h.2.between hk' h4) (put_child h h2 h3'.1 hpc hr2)⟩
            rcases hc : LC.abs c hi with _ | u
            · simp only [LC.getMut_none _ _ I.cInv hc, R.ok_bind, R.pure_eq]
              apply fin (by simp [hc])
              · intro h1; simp [h1]
              · intro hi' u lo' v putC put h1 h2 h3; simp [h1, h2, h3]
            · obtain ⟨putC, hp, hpc⟩ := LC.getMut_some _ _ _ I.cInv hc
              obtain ⟨r, hr, hr1, hr2⟩ := LT.successorMut u lo (I.child _ _ hc)
              simp only [hp, hr, R.ok_bind, R.pure_eq]
              obtain _ | ⟨lo', v, put⟩ := r
              · apply fin (by simpa [hc] using hr1)
                · intro h1; simp [h1]
                · intro hi' u lo' v putC put h1 h2 h3; simp [h1, h2, h3]
              · refine ⟨_, rfl, mutOk_some ?_ (put_child h hc hr1.1 hpc (hr2 _ _ _ rfl))⟩
                exact Map.isSucc_inner_some h.1 h.2.between hk' (I.isSucc_child hs hc hr1)

/-! ### insertion -/

theorem insertBelow_ok {B : K → Prop} {mn mx : K × V} {ch : Option (S × C)} {k : K} {v : V} (hb : ChOK B ch)
    (hB : B k)
    (hsafe : ∀ s c, ch = some (s, c) →
      (∀ u, LC.abs c (splitVal k).1 = some u → LT.Safe (LT.abs u).Mem (splitVal k).2) ∧
      (LC.abs c (splitVal k).1 = none → LS.Safe (LS.abs s).Mem (splitVal k).1)) :
    ∃ ch', insertBelow mn ⟨mx, ch⟩ k v =
        .ok (⟨mn, some ⟨mx, ch'⟩⟩, (chmap K ch k).map fun v => (k, v)) ∧
      ChOK B ch' ∧ chmap K ch' = (chmap K ch).upd k (some v) := by
  rcases hs : splitVal k with ⟨hi, lo⟩
  simp only [insertBelow, hs]
  obtain _ | ⟨s, c⟩ := ch
  · obtain ⟨c', hc1, hc2, hc3⟩ := LC.create hi (VebTree.fromMonad lo v)
    have hT := LT.fromMonad lo v
    have hS := LS.fromMonad hi ()
    obtain ⟨e1, e2⟩ := ChInv.first_child hs hB hc2 hc3 hT.1 hT.2 hS.1 hS.2
    exact ⟨some (VebTree.fromMonad hi (), c'), by simp [hc1, chmap], e1, e2⟩
  · have I : ChInv B s c := hb
    obtain ⟨hst, hss⟩ := hsafe s c rfl
    rw [hs] at hst hss
    rcases hc : LC.abs c hi with _ | u
    · obtain ⟨c', hc1, hc2, hc3⟩ := LC.insert_none c hi lo v I.cInv hc
      obtain ⟨s', hs1, hs2, hs3⟩ := LS.insert s hi () I.sInv (hss hc)
      have hT := LT.fromMonad lo v
      obtain ⟨e1, e2⟩ := I.add_child hs hB hc hc2 hc3 hT.1 hT.2 hs2 hs3
      exact ⟨some (s', c'), by simp [hc1, hs1, chmap, cmap_split hs, hc], e1, e2⟩
    · obtain ⟨u', hu1, hu2, hu3⟩ := LT.insert u lo v (I.child _ _ hc) (hst u hc)
      obtain ⟨c', hc1, hc2, hc3⟩ := LC.insert_some c hi lo v u u' _ I.cInv hc hu1
      obtain ⟨e1, e2⟩ := I.set_child hs hB hc hc2 hc3 hu2 hu3
      refine ⟨some (s, c'), ?_, e1, e2⟩
      simp only [hc1, R.ok_bind, chmap, cmap_split hs, hc, Option.bind_some]
      rcases LT.abs u lo with _ | w
      · simp
      · simp [join_of_split hs]

/-- the key sets met below agree with the ones in `Safe` -/
theorem safe_below {mn mx : K × V} {ch : Option (S × C)} (h1 : mn.1 < mx.1) (hb : ChOK (Btw mn.1 mx.1) ch)
    {k x : K} (hx : x = if mx.1 < k then mx.1 else k) (hk1 : k ≠ mn.1) (hk2 : k ≠ mx.1)
    (hs : Safe LS.Safe LT.Safe (⟨mn, some ⟨mx, ch⟩⟩ : Tree K V S C).abs.Mem k) :
    ∀ s c, ch = some (s, c) →
      (∀ u, LC.abs c (splitVal x).1 = some u → LT.Safe (LT.abs u).Mem (splitVal x).2) ∧
      (LC.abs c (splitVal x).1 = none → LS.Safe (LS.abs s).Mem (splitVal x).1) := by
  rintro s c rfl
  have I : ChInv (Btw mn.1 mx.1) s c := hb
  have hmn := Map.isMin_ends h1 I.bound
  have hmx := Map.isMax_ends h1 I.bound
  obtain ⟨_, hor⟩ := hs mn.1 mx.1 (Map.mem_of hmn.1) (Map.mem_of hmx.1) h1.ne
    fun j hj => ⟨hmn.2 j hj, hmx.2 j hj⟩
  rcases hor with h | h | hor
  · exact absurd h hk1
  · exact absurd h hk2
  obtain ⟨hT, hS⟩ := hor x hx
  have inner : ∀ j, ((⟨mn, some ⟨mx, some (s, c)⟩⟩ : Tree K V S C).abs.Mem j ∧ j ≠ mn.1 ∧ j ≠ mx.1) ↔
      (cmap K c).Mem j := by
    intro j
    rw [abs_some, Map.mem_ends]
    constructor
    · rintro ⟨h | h | h, h2, h3⟩
      · exact absurd h h2
      · exact absurd h h3
      · exact h
    · intro h
      exact ⟨.inr (.inr h), (I.bound j h).1.ne', (I.bound j h).2.ne⟩
  constructor
  · intro u hu
    refine hT _ ?_ (LT.nonempty u (I.child _ _ hu))
    intro l
    constructor
    · intro hl
      have hg := I.good _ u l hu hl
      have hm : (cmap K c).Mem (join (splitVal x).1 l) := by
        rw [Map.Mem, I.cmap_join hu hl]; exact hl
      obtain ⟨a, b, d⟩ := (inner _).2 hm
      exact ⟨_, a, b, d, hg⟩
    · rintro ⟨j, a, b, d, e⟩
      obtain ⟨u', hu', hl'⟩ := cmap_mem.1 ((inner _).1 ⟨a, b, d⟩)
      rw [e] at hu' hl'
      rw [hu] at hu'
      obtain rfl := Option.some.inj hu'
      exact hl'
  · intro hu
    have hsum : ∀ h, (LS.abs s).Mem h ↔
        ∃ j, (⟨mn, some ⟨mx, some (s, c)⟩⟩ : Tree K V S C).abs.Mem j ∧ j ≠ mn.1 ∧ j ≠ mx.1 ∧
          (splitVal j).1 = h := by
      intro h
      constructor
      · intro hh
        obtain ⟨u, hu, hui⟩ := I.child_of_sum hh
        obtain ⟨l, hl⟩ := LT.nonempty u hui
        have hg := I.good _ u l hu hl
        have hm : (cmap K c).Mem (join h l) := by
          rw [Map.Mem, I.cmap_join hu hl]; exact hl
        obtain ⟨a, b, d⟩ := (inner _).2 hm
        exact ⟨_, a, b, d, by rw [hg]⟩
      · rintro ⟨j, a, b, d, e⟩
        obtain ⟨u', hu', hl'⟩ := cmap_mem.1 ((inner _).1 ⟨a, b, d⟩)
        rw [e] at hu'
        exact I.sum_of_child hu'
    refine hS _ hsum ?_ (LS.nonempty s I.sInv)
    intro hm
    obtain ⟨u, hu', _⟩ := I.child_of_sum hm
    rw [hu] at hu'
    cases hu'

theorem insert_ok (t : Tree K V S C) (k : K) (v : V) (h : t.Inv) (hsafe : Safe LS.Safe LT.Safe t.abs.Mem k) :
    ∃ t', t.insert k v = .ok (t', (t.abs k).map fun v => (k, v)) ∧ t'.Inv ∧
      t'.abs = t.abs.upd k (some v) := by
  obtain ⟨mn, d⟩ := t
  rcases lt_trichotomy k mn.1 with hk | rfl | hk
  · obtain _ | ⟨mx, ch⟩ := d
    · refine ⟨⟨(k, v), some ⟨mn, none⟩⟩, ?_, ⟨hk, trivial⟩, ?_⟩
      · simp [insert, cmp_lt hk, abs_none, Map.single_apply, hk.ne]
      · rw [abs_none, abs_some, Map.ends_mono_single_lt]; rfl
    · have hmn := Map.isMin_ends h.1 h.2.between
      have hmx := Map.isMax_ends h.1 h.2.between
      obtain ⟨hle, _⟩ := hsafe mn.1 mx.1 (Map.mem_of hmn.1) (Map.mem_of hmx.1) h.1.ne
        fun j hj => ⟨hmn.2 j hj, hmx.2 j hj⟩
      exact absurd hk (not_lt.mpr hle)
  · obtain _ | ⟨mx, ch⟩ := d
    · refine ⟨⟨(mn.1, v), none⟩, ?_, trivial, ?_⟩
      · simp [insert, cmp_self, abs_none]
      · simp [abs_none, Map.single_upd]
    · refine ⟨⟨(mn.1, v), some ⟨mx, ch⟩⟩, ?_, h, ?_⟩
      · simp [insert, cmp_self, abs_some, Map.ends_min]
      · simp [abs_some, Map.ends_upd_min]
  · obtain _ | ⟨mx, ch⟩ := d
    · refine ⟨⟨mn, some ⟨(k, v), none⟩⟩, ?_, ⟨hk, trivial⟩, ?_⟩
      · simp [insert, cmp_gt hk, abs_none, Map.single_apply, hk.ne']
      · rw [abs_none, abs_some, Map.ends_mono_single_gt hk]; rfl
    · have h1 : mn.1 < mx.1 := h.1
      have h2 : ChOK (Btw mn.1 mx.1) ch := h.2
      rcases lt_trichotomy k mx.1 with hx | rfl | hx
      · obtain ⟨ch', e1, e2, e3⟩ := insertBelow_ok (mn := mn) (mx := mx) (k := k) (v := v) h2 ⟨hk, hx⟩
          (safe_below h1 h2 (by rw [if_neg (not_lt.mpr hx.le)]) hk.ne' hx.ne hsafe)
        refine ⟨_, ?_, inv_some (d := ⟨mx, ch'⟩) h1 e2, ?_⟩
        · simp only [insert, cmp_gt hk, cmp_lt hx, e1, abs_some]
          rw [Map.ends_inner h1 h2.between hk.ne' hx.ne]
        · simp only [abs_some, e3]
          rw [Map.ends_upd_inner h1 h2.between _ hk.ne' hx.ne]
      · refine ⟨⟨mn, some ⟨(mx.1, v), ch⟩⟩, ?_, h, ?_⟩
        · simp [insert, cmp_gt hk, cmp_self, abs_some, Map.ends_max h1]
        · simp [abs_some, Map.ends_upd_max h1]
      · have h2' : ChOK (Btw mn.1 k) ch := by
          obtain _ | ⟨s, c⟩ := ch
          · trivial
          · exact ChInv.rebound h2 fun j hj => ⟨(ChInv.bound h2 j hj).1, (ChInv.bound h2 j hj).2.trans hx⟩
        obtain ⟨ch', e1, e2, e3⟩ := insertBelow_ok (mn := mn) (mx := (k, v)) (v := mx.2) h2' ⟨h1, hx⟩
          (safe_below h1 h2 (by rw [if_pos hx]) hk.ne' hx.ne' hsafe)
        have hn : chmap K ch mx.1 = none := Map.inner_max h1 h2.between
        have hn' : Map.ends mn mx (chmap K ch) k = none := by
          by_contra hc
          exact absurd ((Map.isMax_ends h1 h2.between).2 _ hc) (not_le.mpr hx)
        refine ⟨_, ?_, inv_some (d := ⟨(k, v), ch'⟩) hk e2, ?_⟩
        · simp [insert, cmp_gt hk, cmp_gt hx, e1, abs_some, hn, hn']
        · simp only [abs_some, e3]
          rw [Map.ends_new_max _ h1 hx]

/-! ### removal -/

theorem ch_removeMin {B : K → Prop} {s : S} {c : C} (I : ChInv B s c) :
    ∃ hi lo val res, VebTree.minVal s = .ok (hi, ()) ∧
      TreeCollection.removeKey c hi VebTree.removeMin = .ok (res, (lo, val)) ∧
      (cmap K c).IsMin (join hi lo, val) ∧
      ∃ ch' : Option (S × C), ChOK B ch' ∧ chmap K ch' = (cmap K c).upd (join hi lo) none ∧
        (res = none ∧ ch' = none ∨ (∃ c', res = some (c', false) ∧ ch' = some (s, c')) ∨
          ∃ c' s' x, res = some (c', true) ∧ VebTree.removeMin s = .ok (some s', x) ∧
            ch' = some (s', c')) := by
  obtain ⟨hi, u, lo, val, h1, hu, hui, h3, hs, hl, hm⟩ := ch_min I
  obtain ⟨o, kv, hr, hk, ho⟩ := LT.removeMin u hui
  cases hl.unique hk
  obtain ⟨res, hres, hc⟩ := LC.removeKey c hi u _ o (lo, val) I.cInv hu hr
  have hg := I.good hi u lo hu (Map.mem_of hl.1)
  refine ⟨hi, lo, val, res, h1, hres, hm, ?_⟩
  obtain _ | ⟨c', _ | _⟩ := res
  · exact ⟨none, trivial, (ChInv.remove_last hg hu ho hc).symm, .inl ⟨rfl, rfl⟩⟩
  · obtain ⟨e1, e2⟩ := I.remove_keep hg hu ho hc
    exact ⟨some (s, c'), e1, e2, .inr (.inl ⟨c', rfl, rfl⟩)⟩
  · obtain ⟨so, x, hsr, hsm, hso⟩ := LS.removeMin s I.sInv
    cases hs.unique hsm
    obtain ⟨s', rfl, e1, e2⟩ := I.remove_drop hg hu ho hc hso
    exact ⟨some (s', c'), e1, e2, .inr (.inr ⟨c', s', _, rfl, hsr, rfl⟩)⟩

theorem ch_removeMax {B : K → Prop} {s : S} {c : C} (I : ChInv B s c) :
    ∃ hi lo val res, VebTree.maxVal s = .ok (hi, ()) ∧
      TreeCollection.removeKey c hi VebTree.removeMax = .ok (res, (lo, val)) ∧
      (cmap K c).IsMax (join hi lo, val) ∧
      ∃ ch' : Option (S × C), ChOK B ch' ∧ chmap K ch' = (cmap K c).upd (join hi lo) none ∧
        (res = none ∧ ch' = none ∨ (∃ c', res = some (c', false) ∧ ch' = some (s, c')) ∨
          ∃ c' s' x, res = some (c', true) ∧ VebTree.removeMax s = .ok (some s', x) ∧
            ch' = some (s', c')) := by
  obtain ⟨hi, u, lo, val, h1, hu, hui, h3, hs, hl, hm⟩ := ch_max I
  obtain ⟨o, kv, hr, hk, ho⟩ := LT.removeMax u hui
  cases hl.unique hk
  obtain ⟨res, hres, hc⟩ := LC.removeKey c hi u _ o (lo, val) I.cInv hu hr
  have hg := I.good hi u lo hu (Map.mem_of hl.1)
  refine ⟨hi, lo, val, res, h1, hres, hm, ?_⟩
  obtain _ | ⟨c', _ | _⟩ := res
  · exact ⟨none, trivial, (ChInv.remove_last hg hu ho hc).symm, .inl ⟨rfl, rfl⟩⟩
  · obtain ⟨e1, e2⟩ := I.remove_keep hg hu ho hc
    exact ⟨some (s, c'), e1, e2, .inr (.inl ⟨c', rfl, rfl⟩)⟩
  · obtain ⟨so, x, hsr, hsm, hso⟩ := LS.removeMax s I.sInv
    cases hs.unique hsm
    obtain ⟨s', rfl, e1, e2⟩ := I.remove_drop hg hu ho hc hso
    exact ⟨some (s', c'), e1, e2, .inr (.inr ⟨c', s', _, rfl, hsr, rfl⟩)⟩

theorem ChOK.rebound {B B' : K → Prop} {ch : Option (S × C)} (h : ChOK B ch)
    (hb : ∀ k, (chmap K ch).Mem k → B' k) : ChOK B' ch := by
  obtain _ | ⟨s, c⟩ := ch
  · trivial
  · exact ChInv.rebound h hb

theorem removeMin_ok (t : Tree K V S C) (h : t.Inv) : ∃ o kv, t.removeMin = .ok (o, kv) ∧
    t.abs.IsMin kv ∧ RemOk Inv abs (t.abs.upd kv.1 none) o := by
  obtain ⟨mn, _ | ⟨mx, _ | ⟨s, c⟩⟩⟩ := t
  · refine ⟨none, mn, by simp [removeMin], Map.isMin_single _ _, Map.single_upd_none _ _⟩
  · exact ⟨some ⟨mx, none⟩, mn, by simp [removeMin], Map.isMin_ends h.1 h.2.between,
      trivial, (Map.ends_empty_remove_min h.1).symm⟩
  · have I : ChInv (Btw mn.1 mx.1) s c := h.2
    obtain ⟨hi, lo, val, res, h1, h2, h3, ch', h4, h5, h6⟩ := ch_removeMin I
    refine ⟨some ⟨(join hi lo, val), some ⟨mx, ch'⟩⟩, mn, ?_, Map.isMin_ends h.1 h.2.between, ?_, ?_⟩
    · rcases h6 with ⟨rfl, rfl⟩ | ⟨c', rfl, rfl⟩ | ⟨c', s', x, rfl, hx, rfl⟩
      · simp [removeMin, h1, h2]
      · simp [removeMin, h1, h2]
      · simp [removeMin, h1, h2, hx]
    · refine inv_some (d := ⟨mx, ch'⟩) (I.bound _ (Map.mem_of h3.1)).2 (h4.rebound ?_)
      rw [h5]
      exact Map.between_remove_min h.1 I.bound h3
    · simp only [abs_some, h5]
      exact (Map.ends_remove_min h.1 I.bound h3).symm

theorem removeMax_ok (t : Tree K V S C) (h : t.Inv) : ∃ o kv, t.removeMax = .ok (o, kv) ∧
    t.abs.IsMax kv ∧ RemOk Inv abs (t.abs.upd kv.1 none) o := by
  obtain ⟨mn, _ | ⟨mx, _ | ⟨s, c⟩⟩⟩ := t
  · refine ⟨none, mn, by simp [removeMax], Map.isMax_single _ _, Map.single_upd_none _ _⟩
  · exact ⟨some ⟨mn, none⟩, mx, by simp [removeMax], Map.isMax_ends h.1 h.2.between,
      trivial, (Map.ends_empty_remove_max h.1).symm⟩
  · have I : ChInv (Btw mn.1 mx.1) s c := h.2
    obtain ⟨hi, lo, val, res, h1, h2, h3, ch', h4, h5, h6⟩ := ch_removeMax I
    refine ⟨some ⟨mn, some ⟨(join hi lo, val), ch'⟩⟩, mx, ?_, Map.isMax_ends h.1 h.2.between, ?_, ?_⟩
    · rcases h6 with ⟨rfl, rfl⟩ | ⟨c', rfl, rfl⟩ | ⟨c', s', x, rfl, hx, rfl⟩
      · simp [removeMax, h1, h2]
      · simp [removeMax, h1, h2]
      · simp [removeMax, h1, h2, hx]
    · refine inv_some (d := ⟨_, ch'⟩) (I.bound _ (Map.mem_of h3.1)).1 (h4.rebound ?_)
      rw [h5]
      exact Map.between_remove_max h.1 I.bound h3
    · simp only [abs_some, h5]
      exact (Map.ends_remove_max h.1 I.bound h3).symm

theorem remove_none (t : Tree K V S C) (k : K) (h : t.Inv) (hk : t.abs k = none) :
    t.remove k = .ok (.Err t) := by
  obtain ⟨mn, d⟩ := t
  have h1 : k ≠ mn.1 := by
    rintro rfl
    obtain _ | d := d
    · simp [abs_none] at hk
    · simp [abs_some, Map.ends_min] at hk
  obtain _ | ⟨mx, ch⟩ := d
  · simp [remove, h1]
  · have h2 : k ≠ mx.1 := by
      rintro rfl
      simp [abs_some, Map.ends_max h.1] at hk
    rw [abs_some, Map.ends_inner h.1 h.2.between h1 h2] at hk
    obtain _ | ⟨s, c⟩ := ch
    · simp [remove, h1, h2.symm]
    · have I : ChInv (Btw mn.1 mx.1) s c := h.2
      rcases hs : splitVal k with ⟨hi, lo⟩
      simp only [chmap, cmap_split hs] at hk
      simp only [remove, h1, h2, if_false, LK.ref_eq, hs]
      rcases hc : LC.abs c hi with _ | u
      · simp [LC.maybe_absent c hi _ I.cInv hc]
      · rw [hc, Option.bind_some] at hk
        simp [LC.maybe_err c hi u (fun v => VebTree.remove v lo) I.cInv hc (LT.remove_none u lo (I.child _ _ hc) hk)]

theorem remove_some (t : Tree K V S C) (k : K) (v : V) (h : t.Inv) (hk : t.abs k = some v) :
    ∃ o, t.remove k = .ok (.Ok (o, (k, v))) ∧ RemOk Inv abs (t.abs.upd k none) o := by
  by_cases h1 : k = t.min.1
  · obtain ⟨o, kv, e1, e2, e3⟩ := removeMin_ok t h
    have : kv = (k, v) := by
      have hmin : t.abs.IsMin t.min := by
        obtain ⟨mn, _ | d⟩ := t
        · exact Map.isMin_single _ _
        · exact Map.isMin_ends h.1 h.2.between
      have := e2.unique hmin
      subst this
      subst h1
      have := e2.1.symm.trans hk
      simp only [Option.some.injEq] at this
      rw [← this]
    subst this
    exact ⟨o, by rw [remove, if_pos h1, e1]; rfl, e3⟩
  · obtain ⟨mn, d⟩ := t
    obtain _ | ⟨mx, ch⟩ := d
    · rw [abs_none, Map.single_apply, if_neg h1] at hk
      cases hk
    · replace h1 : k ≠ mn.1 := h1
      by_cases h2 : k = mx.1
      · subst h2
        rw [abs_some, Map.ends_max h.1, Option.some.injEq] at hk
        subst hk
        have e := removeMax_ok _ h
        obtain ⟨o, kv, e1, e2, e3⟩ := e
        cases e2.unique (Map.isMax_ends h.1 h.2.between)
        refine ⟨o, ?_, e3⟩
        obtain _ | ⟨s, c⟩ := ch
        · simp only [removeMax, R.pure_eq, Except.ok.injEq] at e1
          simp [remove, h1, ← e1]
        · have I : ChInv (Btw mn.1 mx.1) s c := h.2
          obtain ⟨hi, lo, val, res, g1, g2, g3, ch', g4, g5, g6⟩ := ch_removeMax I
          rcases g6 with ⟨rfl, rfl⟩ | ⟨c', rfl, rfl⟩ | ⟨c', s', x, rfl, hx, rfl⟩
          · simp [removeMax, g1, g2] at e1
            simp [remove, h1, g1, g2, ← e1]
          · simp [removeMax, g1, g2] at e1
            simp [remove, h1, g1, g2, ← e1]
          · simp [removeMax, g1, g2, hx] at e1
            simp [remove, h1, g1, g2, hx, ← e1]
      · rw [abs_some, Map.ends_inner h.1 h.2.between h1 h2] at hk
        rw [abs_some, Map.ends_upd_inner h.1 h.2.between _ h1 h2]
        obtain _ | ⟨s, c⟩ := ch
        · simp [chmap] at hk
        · have I : ChInv (Btw mn.1 mx.1) s c := h.2
          rcases hs : splitVal k with ⟨hi, lo⟩
          simp only [chmap, cmap_split hs] at hk ⊢
          simp only [remove, h1, h2, if_false, LK.ref_eq, hs]
          rcases hc : LC.abs c hi with _ | u
          · simp [hc] at hk
          · rw [hc, Option.bind_some] at hk
            obtain ⟨o, hr, ho⟩ := LT.remove_some u lo v (I.child _ _ hc) hk
            obtain ⟨res, hres, hcr⟩ := LC.maybe_ok c hi u (fun v => VebTree.remove v lo) o (lo, v) I.cInv hc hr
            obtain _ | ⟨c', _ | _⟩ := res
            · refine ⟨some ⟨mn, some ⟨mx, none⟩⟩, by simp [hres, join_of_split hs], ⟨h.1, trivial⟩, ?_⟩
              rw [ChInv.remove_last hs hc ho hcr]
              rfl
            · obtain ⟨e1, e2⟩ := I.remove_keep hs hc ho hcr
              refine ⟨some ⟨mn, some ⟨mx, some (s, c')⟩⟩, by simp [hres, join_of_split hs], ⟨h.1, e1⟩, ?_⟩
              rw [← e2]
              rfl
            · obtain ⟨⟨⟩, hsv⟩ := Map.mem_iff.1 (I.sum_of_child hc)
              obtain ⟨so, hsr, hso⟩ := LS.remove_some s hi () I.sInv hsv
              obtain ⟨s', rfl, e1, e2⟩ := I.remove_drop hs hc ho hcr hso
              refine ⟨some ⟨mn, some ⟨mx, some (s', c')⟩⟩, by simp [hres, hsr, join_of_split hs],
                ⟨h.1, e1⟩, ?_⟩
              rw [← e2]
              rfl

/-! ### the instance -/

theorem finite_ok (t : Tree K V S C) (h : t.Inv) : Set.Finite {k | t.abs.Mem k} := by
  obtain ⟨mn, _ | ⟨mx, ch⟩⟩ := t
  · simp only [abs_none, Map.mem_single]
    exact Set.finite_singleton _
  · simp only [abs_some, Map.mem_ends, Set.ofPred_or]
    refine (Set.finite_singleton _).union ((Set.finite_singleton _).union ?_)
    obtain _ | ⟨s, c⟩ := ch
    · simp [chmap]
    · exact ChInv.finite h.2

theorem isMonad_ok (t : Tree K V S C) (h : t.Inv) :
    ∃ b, t.isMonad = .ok b ∧ (b = true ↔ t.abs.IsSingle) := by
  obtain ⟨mn, _ | d⟩ := t
  · exact ⟨true, rfl, by simp [abs_none, Map.isSingle_single]⟩
  · exact ⟨false, rfl, by simp [abs_some, Map.ends_not_single h.1]⟩

end Tree

/-- The provided `len_hint` is a lower bound whenever `is_monad` is right. -/
theorem defaultLenHint_ok {T K V : Type} {isMonad : T → R Bool} {t : T} {M : Map K V} {b : Bool}
    (h : isMonad t = .ok b) (hb : b = true ↔ M.IsSingle) (hf : Set.Finite {k | M.Mem k})
    (hne : ∃ k, M.Mem k) :
    ∃ lo hi, defaultLenHint isMonad t = .ok (lo, hi) ∧ lo ≤ M.card ∧ ∀ h, hi = some h → M.card = h := by
  have hpos : 0 < M.card := (Set.ncard_pos hf).2 hne
  cases b with
  | true => exact ⟨1, none, by simp [defaultLenHint, h], hpos, by simp⟩
  | false =>
    refine ⟨2, none, by simp [defaultLenHint, h], ?_, by simp⟩
    by_contra hc
    have h1 : M.card = 1 := by omega
    obtain ⟨k, hk⟩ := Set.ncard_eq_one.1 h1
    have : M.IsSingle := by
      refine ⟨k, ?_, fun j hj => ?_⟩
      · have : k ∈ {k | M.Mem k} := by rw [hk]; rfl
        exact this
      · have : j ∈ {k | M.Mem k} := hj
        rw [hk] at this
        exact this
    simpa using hb.2 this

namespace Tree
variable {K V S C Hi Lo T : Type} [LinearOrder K] [LinearOrder Hi] [LinearOrder Lo]
  [VebKey K Hi Lo] [VebKeyRef K Hi Lo] [LK : LawfulVebKey K Hi Lo]
  [VebTree S Hi Unit] [LS : LawfulVebTree S Hi Unit]
  [VebTree T Lo V] [LT : LawfulVebTree T Lo V]
  [TreeCollection C Hi T Lo V] [LC : LawfulColl C Hi T Lo V]

theorem nonempty_ok (t : Tree K V S C) (h : t.Inv) : ∃ k, t.abs.Mem k := by
  obtain ⟨mn, _ | d⟩ := t
  · exact ⟨mn.1, by simp [abs_none, Map.mem_single]⟩
  · exact ⟨mn.1, by simp [abs_some, Map.mem_ends]⟩

instance instLawful : LawfulVebTree (Tree K V S C) K V where
  Inv := Inv
  abs := abs
  Safe := Safe LS.Safe LT.Safe
  nonempty := nonempty_ok
  finite := finite_ok
  fromMonad k v := ⟨trivial, rfl⟩
  isMonad := isMonad_ok
  lenHint t h := by
    obtain ⟨b, h1, h2⟩ := isMonad_ok t h
    exact defaultLenHint_ok h1 h2 (finite_ok t h) (nonempty_ok t h)
  intoMonad t h := by
    obtain ⟨mn, _ | d⟩ := t
    · exact .inl ⟨mn.1, mn.2, rfl, rfl⟩
    · exact .inr ⟨rfl, Map.ends_not_single h.1⟩
  minVal t h := by
    obtain ⟨mn, _ | d⟩ := t
    · exact ⟨mn, rfl, Map.isMin_single _ _⟩
    · exact ⟨mn, rfl, Map.isMin_ends h.1 h.2.between⟩
  minValMut t h := by
    obtain ⟨mn, _ | d⟩ := t
    · exact ⟨_, rfl, Map.isMin_single _ _, put_min h⟩
    · exact ⟨_, rfl, Map.isMin_ends h.1 h.2.between, put_min h⟩
  maxVal t h := by
    obtain ⟨mn, _ | d⟩ := t
    · exact ⟨mn, rfl, Map.isMax_single _ _⟩
    · exact ⟨d.max, rfl, Map.isMax_ends h.1 h.2.between⟩
  maxValMut t h := by
    obtain ⟨mn, _ | d⟩ := t
    · exact ⟨_, rfl, Map.isMax_single _ _, put_min h⟩
    · exact ⟨_, rfl, Map.isMax_ends h.1 h.2.between, put_max h⟩
  find := find_ok
  findMut := findMut_ok
  predecessor := predecessor_ok
  predecessorMut := predecessorMut_ok
  successor := successor_ok
  successorMut := successorMut_ok
  insert := insert_ok
  remove_none := remove_none
  remove_some := remove_some
  removeMin := removeMin_ok
  removeMax := removeMax_ok

end Tree
end Veb
