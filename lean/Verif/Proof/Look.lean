import Verif.Proof.Wrappers
import Verif.Proof.Tree
import Verif.Proof.Crate
import Verif.Proof.Refine
import Verif.SpecLook

/-!
# Searching a tree that has only been inserted into

As long as nothing is removed, the defect of `Tree::insert` leaves `find` and the minimum intact: the freshest copy of
a key is found first, and the minimum stays below all stored keys.
-/

set_option autoImplicit false
set_option linter.unusedSectionVars false

namespace Veb

theorem R.bind_ok {α β : Type} {x : R α} {f : α → R β} {b : β} (h : (x >>= f) = .ok b) :
    ∃ a, x = .ok a ∧ f a = .ok b := by
  cases x with
  | error e => cases h
  | ok a => exact ⟨a, rfl, h⟩

/-- What `find` sees of a tree that has only been inserted into. -/
class LookTree (T : Type) (K V : outParam Type) [LinearOrder K] [VebTree T K V] where
  G : T → Prop
  look : T → Map K V
  nonempty : ∀ t, G t → ∃ k, (look t).Mem k
  fromMonad : ∀ k v, G (VebTree.fromMonad k v) ∧ look (VebTree.fromMonad k v) = Map.single k v
  isMonad : ∀ t b, G t → VebTree.isMonad t = .ok b → (b = true ↔ (look t).IsSingle)
  intoMonad : ∀ t, G t →
    (∃ k v, VebTree.intoMonad t = .ok (.Ok (k, v)) ∧ look t = Map.single k v) ∨
    (VebTree.intoMonad t = .ok (.Err t) ∧ ¬ (look t).IsSingle)
  minVal : ∀ t, G t → ∃ kv, VebTree.minVal t = .ok kv ∧ (look t).IsMin kv
  minValMut : ∀ t, G t → ∃ p, VebTree.minValMut t = .ok p ∧
    (look t).IsMin (p.1, p.2.1) ∧ PutOk G look t p.1 p.2.2
  find : ∀ t k, G t → VebTree.find t k = .ok ((look t k).map fun v => (k, v))
  findMut : ∀ t k, G t → ∃ r, VebTree.findMut t k = .ok r ∧
    MutOk G look t (fun e => e = (look t k).map fun v => (k, v)) r
  successor : ∀ t k e, G t → VebTree.successor t k = .ok (some e) → k < e.1 ∧ (look t).Mem e.1
  insert : ∀ t k v t' o, G t → VebTree.insert t k v = .ok (t', o) → G t' ∧ look t' = (look t).upd k (some v)

namespace LookTree

section
variable {T K V : Type} [LinearOrder K] [VebTree T K V] [L : LawfulVebTree T K V]

@[reducible] def ofLawful (hsafe : ∀ P k, L.Safe P k) : LookTree T K V where
  G := L.Inv
  look := L.abs
  nonempty := L.nonempty
  fromMonad := L.fromMonad
  isMonad t b I h := by
    obtain ⟨b', h1, h2⟩ := L.isMonad t I
    rw [h] at h1; cases h1; exact h2
  intoMonad := L.intoMonad
  minVal := L.minVal
  minValMut := L.minValMut
  find := L.find
  findMut := L.findMut
  successor t k e I h := by
    obtain ⟨r, h1, h2⟩ := L.successor t k I
    rw [h] at h1; cases h1
    exact ⟨h2.2.1, Map.mem_of h2.1⟩
  insert t k v t' o I h := by
    obtain ⟨t1, h1, h2⟩ := L.insert t k v I (hsafe _ _)
    rw [h] at h1; cases h1; exact h2

end

section
variable {T K V : Type} [LinearOrder K] [VebTree T K V] [L : LookTree T K V]

instance instBox : LookTree (Box T) K V where
  G t := L.G t.val
  look t := L.look t.val
  nonempty t := L.nonempty t.val
  fromMonad := L.fromMonad
  isMonad t b I h := L.isMonad t.val b I h
  intoMonad t h := by
    rcases L.intoMonad t.val h with ⟨k, v, h1, h2⟩ | ⟨h1, h2⟩
    · exact .inl ⟨k, v, by simp [VebTree.intoMonad, h1], h2⟩
    · exact .inr ⟨by simp [VebTree.intoMonad, h1], h2⟩
  minVal t := L.minVal t.val
  minValMut t h := by
    obtain ⟨r, h1, h2⟩ := L.minValMut t.val h
    exact ⟨_, by simp only [VebTree.minValMut, h1]; rfl, h2⟩
  find t := L.find t.val
  findMut t k h := by
    obtain ⟨r, h1, h2⟩ := L.findMut t.val k h
    exact ⟨_, by simp only [VebTree.findMut, h1]; rfl, h2.map (f := Box.mk) fun _ _ _ _ _ a b => ⟨a, b⟩⟩
  successor t := L.successor t.val
  insert t k v t' o h hi := by
    simp only [VebTree.insert] at hi
    obtain ⟨⟨u, o'⟩, h1, h2⟩ := R.bind_ok hi
    cases h2
    exact L.insert t.val k v u o' h h1

instance instSized : LookTree (SizedVebTree T) K V where
  G t := L.G t.tree
  look t := L.look t.tree
  nonempty t := L.nonempty t.tree
  fromMonad := L.fromMonad
  isMonad t b I h := by
    simp only [VebTree.isMonad] at h
    obtain ⟨b', h1, h2⟩ := R.bind_ok h
    rw [← L.isMonad t.tree b' I h1]
    cases b' with
    | false => cases h2; rfl
    | true =>
      obtain ⟨_, -, h3⟩ := R.bind_ok h2
      cases h3; rfl
  intoMonad t h := by
    rcases L.intoMonad t.tree h with ⟨k, v, h1, h2⟩ | ⟨h1, h2⟩
    · exact .inl ⟨k, v, by simp [VebTree.intoMonad, h1], h2⟩
    · exact .inr ⟨by simp [VebTree.intoMonad, h1], h2⟩
  minVal t := L.minVal t.tree
  minValMut t h := by
    obtain ⟨r, h1, h2⟩ := L.minValMut t.tree h
    exact ⟨_, by simp only [VebTree.minValMut, h1]; rfl, h2⟩
  find t := L.find t.tree
  findMut t k h := by
    obtain ⟨r, h1, h2⟩ := L.findMut t.tree k h
    exact ⟨_, by simp only [VebTree.findMut, h1]; rfl, h2.map (f := fun u => (⟨u, t.size⟩ : SizedVebTree T)) fun _ _ _ _ _ a b => ⟨a, b⟩⟩
  successor t := L.successor t.tree
  insert t k v t' o h hi := by
    simp only [VebTree.insert] at hi
    obtain ⟨⟨u, o'⟩, h1, h2⟩ := R.bind_ok hi
    have h3 := L.insert t.tree k v u o' h h1
    dsimp only at h2
    split at h2
    · obtain ⟨n, -, h4⟩ := R.bind_ok h2
      cases h4; exact h3
    · cases h2; exact h3

end
end LookTree

namespace Tree
variable {K V S C Hi Lo T : Type} [LinearOrder K] [LinearOrder Hi] [LinearOrder Lo]
  [VebKey K Hi Lo] [VebKeyRef K Hi Lo] [LK : LawfulVebKey K Hi Lo]
  [VebTree S Hi Unit] [LS : LookTree S Hi Unit]
  [VebTree T Lo V] [LT : LookTree T Lo V]
  [TreeCollection C Hi T Lo V] [LC : LawfulColl C Hi T Lo V]

open VebKey (splitVal join)

/-- What is seen of the children. -/
def chlook (K : Type) [VebKey K Hi Lo] : Option (S × C) → Map K V
  | none => Map.empty
  | some (_, c) => fun k => (LC.abs c (splitVal k).1).bind fun u => LT.look u (splitVal k).2

/-- The children are fit to be searched. -/
def ChG (K : Type) [VebKey K Hi Lo] : Option (S × C) → Prop
  | none => True
  | some (s, c) => LC.Inv c ∧ LS.G s ∧ ∀ h u, LC.abs c h = some u →
      LT.G u ∧ ∀ l, (LT.look u).Mem l → splitVal (join h l : K) = (h, l)

/-- What is seen of a tree: first the minimum, then the maximum, then the children. -/
def look (t : Tree K V S C) : Map K V :=
  match t.data with
  | none => Map.single t.min.1 t.min.2
  | some d => ((chlook K d.children).upd d.max.1 (some d.max.2)).upd t.min.1 (some t.min.2)

/-- Fit to be searched: the minimum is below everything else. -/
def G (t : Tree K V S C) : Prop :=
  match t.data with
  | none => True
  | some d => t.min.1 < d.max.1 ∧ ChG K d.children ∧ ∀ k, (chlook K d.children).Mem k → t.min.1 < k

theorem look_insertBelow {mn mx : K × V} {ch : Option (S × C)} {k : K} {v : V} {t' : Tree K V S C}
    {o : Option (K × V)} (h : ChG K ch) (hi : insertBelow mn ⟨mx, ch⟩ k v = .ok (t', o)) :
    ∃ ch', t' = ⟨mn, some ⟨mx, ch'⟩⟩ ∧ ChG K ch' ∧ chlook K ch' = (chlook K ch).upd k (some v) := by
  rcases hs : splitVal k with ⟨h0, lo⟩
  have inj : ∀ j : K, splitVal j = (h0, lo) → j = k := fun j hj => by
    rw [← LK.join_split j, ← LK.join_split k, hj, hs]
  simp only [insertBelow, hs] at hi
  obtain _ | ⟨s, c⟩ := ch
  · obtain ⟨c', hc1, hc2, hc3⟩ := LC.create h0 (VebTree.fromMonad lo v)
    simp only [hc1, R.ok_bind, R.pure_eq, Except.ok.injEq, Prod.mk.injEq] at hi
    refine ⟨_, hi.1.symm, ⟨hc2, (LS.fromMonad h0 ()).1, fun j u hj => ?_⟩, ?_⟩
    · rw [hc3, Map.single_apply] at hj
      split at hj
      · next e =>
        cases hj; subst e
        refine ⟨(LT.fromMonad lo v).1, fun l hl => ?_⟩
        rw [(LT.fromMonad lo v).2, Map.mem_single] at hl
        subst hl
        rw [join_of_split hs, hs]
      · cases hj
    · funext j
      simp only [chlook, hc3, Map.single_apply, Map.upd_apply, Map.empty_apply]
      rcases hj : splitVal j with ⟨a, b⟩
      by_cases ha : a = h0
      · subst ha
        simp only [if_true, Option.bind_some, (LT.fromMonad lo v).2, Map.single_apply]
        by_cases hb : b = lo
        · subst hb
          rw [if_pos rfl, if_pos (inj j hj)]
        · rw [if_neg hb, if_neg]
          rintro rfl
          rw [hs] at hj; cases hj; exact hb rfl
      · rw [if_neg ha, if_neg]
        · rfl
        · rintro rfl
          rw [hs] at hj; cases hj; exact ha rfl
  · obtain ⟨hci, hsg, hg⟩ := h
    have key : ∀ (s' : S) (c' : C) (u' : T), LS.G s' → LC.Inv c' → LC.abs c' = (LC.abs c).upd h0 (some u') → LT.G u' →
        LT.look u' = ((LC.abs c h0).elim Map.empty LT.look).upd lo (some v) →
        ChG K (some (s', c')) ∧ chlook K (some (s', c')) = (chlook K (some (s, c))).upd k (some v) := by
      intro s' c' u' h0s h1 h2 h3 h4
      refine ⟨⟨h1, h0s, fun j u hj => ?_⟩, ?_⟩
      · rw [h2, Map.upd_apply] at hj
        split at hj
        · next e =>
          cases hj; subst e
          refine ⟨h3, fun l hl => ?_⟩
          rw [h4, Map.mem_upd_some] at hl
          rcases hl with rfl | hl
          · rw [join_of_split hs, hs]
          · rcases hc : LC.abs c j with _ | u
            · rw [hc] at hl; exact absurd hl (Map.mem_empty l)
            · rw [hc] at hl; exact (hg _ _ hc).2 l hl
        · exact hg j u hj
      · funext j
        simp only [chlook, h2, Map.upd_apply]
        rcases hj : splitVal j with ⟨a, b⟩
        by_cases ha : a = h0
        · subst ha
          simp only [if_true, Option.bind_some, h4, Map.upd_apply]
          by_cases hb : b = lo
          · subst hb
            rw [if_pos rfl, if_pos (inj j hj)]
          · rw [if_neg hb, if_neg]
            · cases LC.abs c a <;> rfl
            · rintro rfl
              rw [hs] at hj; cases hj; exact hb rfl
        · rw [if_neg ha, if_neg]
          rintro rfl
          rw [hs] at hj; cases hj; exact ha rfl
    rcases hc : LC.abs c h0 with _ | u
    · obtain ⟨c', hc1, hc2, hc3⟩ := LC.insert_none c h0 lo v hci hc
      simp only [hc1, R.ok_bind] at hi
      obtain ⟨⟨s', o'⟩, h1, h2⟩ := R.bind_ok hi
      cases h2
      refine ⟨_, rfl, key s' c' _ (LS.insert _ _ _ _ _ hsg h1).1 hc2 hc3 (LT.fromMonad lo v).1 ?_⟩
      rw [(LT.fromMonad lo v).2, hc]; rfl
    · rcases hu : VebTree.insert u lo v with e | ⟨u', o'⟩
      · simp only [LC.insert_panic c h0 lo v u e hci hc hu] at hi
        cases hi
      · obtain ⟨c', hc1, hc2, hc3⟩ := LC.insert_some c h0 lo v u u' _ hci hc hu
        obtain ⟨g1, g2⟩ := LT.insert u lo v u' o' (hg _ _ hc).1 hu
        simp only [hc1, R.ok_bind] at hi
        have : t' = ⟨mn, some ⟨mx, some (s, c')⟩⟩ := by
          obtain _ | ⟨l', v'⟩ := o' <;> cases hi <;> rfl
        exact ⟨_, this, key s c' u' hsg hc2 hc3 g1 (by rw [g2, hc]; rfl)⟩

theorem look_insert (t : Tree K V S C) (k : K) (v : V) (t' : Tree K V S C) (o : Option (K × V)) (h : G t)
    (hi : t.insert k v = .ok (t', o)) : G t' ∧ look t' = (look t).upd k (some v) := by
  obtain ⟨mn, d⟩ := t
  rcases lt_trichotomy k mn.1 with hk | rfl | hk
  · obtain _ | ⟨mx, ch⟩ := d
    · simp only [insert, cmp_lt hk] at hi
      cases hi
      refine ⟨⟨hk, trivial, fun j hj => absurd hj (Map.mem_empty j)⟩, ?_⟩
      rfl
    · obtain ⟨h1, h2, h3⟩ := h
      simp only [insert, cmp_lt hk, cmp_gt h1] at hi
      obtain ⟨ch', rfl, g1, g2⟩ := look_insertBelow h2 hi
      refine ⟨⟨hk, g1, fun j hj => ?_⟩, ?_⟩
      · simp only [g2, Map.mem_upd_some] at hj
        rcases hj with rfl | hj
        · exact hk.trans h1
        · exact hk.trans (h3 j hj)
      · simp only [look, g2]
  · simp only [insert, cmp_self] at hi
    cases hi
    obtain _ | ⟨mx, ch⟩ := d
    · exact ⟨trivial, by simp [look, Map.single_upd]⟩
    · exact ⟨h, by simp [look]⟩
  · obtain _ | ⟨mx, ch⟩ := d
    · simp only [insert, cmp_gt hk] at hi
      cases hi
      refine ⟨⟨hk, trivial, fun j hj => absurd hj (Map.mem_empty j)⟩, ?_⟩
      simp only [look, chlook, Map.single]
      rw [Map.upd_comm _ _ _ hk.ne]
    · obtain ⟨h1, h2, h3⟩ := h
      rcases lt_trichotomy k mx.1 with hx | rfl | hx
      · simp only [insert, cmp_gt hk, cmp_lt hx] at hi
        obtain ⟨ch', rfl, g1, g2⟩ := look_insertBelow h2 hi
        refine ⟨⟨h1, g1, fun j hj => ?_⟩, ?_⟩
        · simp only [g2, Map.mem_upd_some] at hj
          rcases hj with rfl | hj
          · exact hk
          · exact h3 j hj
        · simp only [look, g2]
          rw [Map.upd_comm _ _ _ hx.ne, Map.upd_comm _ _ _ hk.ne']
      · simp only [insert, cmp_gt hk, cmp_self] at hi
        cases hi
        refine ⟨⟨hk, h2, h3⟩, ?_⟩
        simp only [look]
        rw [Map.upd_comm _ _ _ hk.ne, Map.upd_upd]
      · simp only [insert, cmp_gt hk, cmp_gt hx] at hi
        obtain ⟨ch', rfl, g1, g2⟩ := look_insertBelow h2 hi
        refine ⟨⟨hk, g1, fun j hj => ?_⟩, ?_⟩
        · simp only [g2, Map.mem_upd_some] at hj
          rcases hj with rfl | hj
          · exact h1
          · exact h3 j hj
        · simp only [look, g2]
          rw [Map.upd_comm _ _ _ hk.ne']

theorem look_min (t : Tree K V S C) (h : G t) : (look t).IsMin t.min := by
  obtain ⟨mn, d⟩ := t
  obtain _ | ⟨mx, ch⟩ := d
  · exact Map.isMin_single _ _
  · refine ⟨by simp [look], fun j hj => ?_⟩
    simp only [look, Map.mem_upd_some] at hj
    rcases hj with rfl | rfl | hj
    · exact le_rfl
    · exact h.1.le
    · exact (h.2.2 j hj).le

theorem look_putMin (t : Tree K V S C) (h : G t) : PutOk G look t t.min.1 t.putMin := by
  intro w
  obtain ⟨mn, d⟩ := t
  obtain _ | ⟨mx, ch⟩ := d
  · exact ⟨trivial, by simp [look, putMin, Map.single_upd]⟩
  · exact ⟨h, by simp [look, putMin]⟩

theorem look_putMax {mn mx : K × V} {ch : Option (S × C)} (h : G (⟨mn, some ⟨mx, ch⟩⟩ : Tree K V S C)) :
    PutOk G look (⟨mn, some ⟨mx, ch⟩⟩ : Tree K V S C) mx.1 (putMax ⟨mn, some ⟨mx, ch⟩⟩ ⟨mx, ch⟩) := by
  intro w
  refine ⟨h, ?_⟩
  simp only [look, putMax]
  rw [Map.upd_comm _ _ _ h.1.ne, Map.upd_upd]

theorem isSingle_look (t : Tree K V S C) (h : G t) : (look t).IsSingle ↔ t.data.isNone = true := by
  obtain ⟨mn, d⟩ := t
  obtain _ | ⟨mx, ch⟩ := d
  · exact ⟨fun _ => rfl, fun _ => Map.isSingle_single _ _⟩
  · refine ⟨fun ⟨k, _, hu⟩ => ?_, fun h => by cases h⟩
    have h1 := hu mn.1 (by simp [look, Map.mem_upd_some])
    have h2 := hu mx.1 (by simp [look, Map.mem_upd_some])
    exact absurd (h1.trans h2.symm) h.1.ne

theorem look_find (t : Tree K V S C) (k : K) (h : G t) :
    t.find k = .ok ((look t k).map fun v => (k, v)) := by
  have hmin := (look_min t h).2 k
  obtain ⟨⟨mk, mv⟩, d⟩ := t
  rcases lt_trichotomy k mk with hk | rfl | hk
  · have : (look (⟨(mk, mv), d⟩ : Tree K V S C)) k = none := by
      by_contra hc
      exact absurd (hmin hc) (not_le.mpr hk)
    simp [find, cmp_lt hk, this]
  · simp only [find, cmp_self]
    cases d <;> simp [look]
  · simp only [find, cmp_gt hk]
    obtain _ | ⟨mx, ch⟩ := d
    · simp [look, Map.single_apply, hk.ne']
    · by_cases hx : k = mx.1
      · subst hx
        simp [look, Map.upd_apply, hk.ne']
      · simp only [hx, if_false, look]
        rw [Map.upd_ne _ _ hk.ne', Map.upd_ne _ _ hx]
        obtain _ | ⟨s, c⟩ := ch
        · simp [chlook]
        · obtain ⟨hci, hsg, hg⟩ : ChG K (some (s, c)) := h.2.1
          simp only [LK.ref_eq, chlook]
          rcases hs : splitVal k with ⟨hi, lo⟩
          simp only [LC.get _ _ hci, R.ok_bind]
          rcases hc : LC.abs c hi with _ | u
          · simp
          · simp only [LT.find _ _ (hg _ _ hc).1, R.ok_bind, Option.bind_some]
            rcases LT.look u lo with _ | v
            · simp
            · simp [join_of_split hs]

theorem look_findMut (t : Tree K V S C) (k : K) (h : G t) :
    ∃ r, t.findMut k = .ok r ∧ MutOk G look t (fun e => e = (look t k).map fun v => (k, v)) r := by
  have hf := look_find t k h
  obtain ⟨⟨mk, mv⟩, d⟩ := t
  rcases lt_trichotomy k mk with hk | rfl | hk
  · simp only [find, findMut, cmp_lt hk, R.pure_eq, Except.ok.injEq] at hf ⊢
    exact ⟨_, rfl, hf, by simp⟩
  · simp only [find, findMut, cmp_self, R.pure_eq, Except.ok.injEq] at hf ⊢
    refine ⟨_, rfl, hf, ?_⟩
    rintro _ _ _ ⟨⟩
    exact look_putMin _ h
  · simp only [find, findMut, cmp_gt hk] at hf ⊢
    obtain _ | ⟨mx, ch⟩ := d
    · simp only [R.pure_eq, Except.ok.injEq] at hf ⊢
      exact ⟨_, rfl, hf, by simp⟩
    · by_cases hx : k = mx.1
      · simp only [hx, if_true, R.pure_eq, Except.ok.injEq] at hf ⊢
        refine ⟨_, rfl, hf, ?_⟩
        rintro _ _ _ ⟨⟩
        exact look_putMax h
      · simp only [hx, if_false] at hf ⊢
        obtain _ | ⟨s, c⟩ := ch
        · simp only [R.pure_eq, Except.ok.injEq] at hf ⊢
          exact ⟨_, rfl, hf, by simp⟩
        · obtain ⟨hci, hsg, hg⟩ : ChG K (some (s, c)) := h.2.1
          simp only [LK.ref_eq] at hf ⊢
          rcases hs : splitVal k with ⟨hi, lo⟩
          have inj : ∀ j : K, splitVal j = (hi, lo) → j = k := fun j hj => by
            rw [← LK.join_split j, ← LK.join_split k, hj, hs]
          simp only [hs, LC.get _ _ hci, R.ok_bind] at hf ⊢
          rcases hc : LC.abs c hi with _ | u
          · simp only [hc, LC.getMut_none _ _ hci hc, R.ok_bind, R.pure_eq, Except.ok.injEq] at hf ⊢
            exact ⟨_, rfl, hf, by simp⟩
          · obtain ⟨putC, hp, hpc⟩ := LC.getMut_some _ _ _ hci hc
            obtain ⟨r, hr, hr1, hr2⟩ := LT.findMut u lo (hg _ _ hc).1
            simp only [hc, LT.find _ _ (hg _ _ hc).1, hp, hr, R.ok_bind] at hf ⊢
            rcases hv : LT.look u lo with _ | v
            · rw [hv] at hr1
              obtain rfl : r = none := by simpa using hr1
              simp only [hv, Option.map_none, R.pure_eq, Except.ok.injEq] at hf ⊢
              exact ⟨_, rfl, hf, by simp⟩
            · rw [hv] at hr1
              obtain ⟨⟨lo', v', put⟩, rfl⟩ : ∃ p, r = some p := by
                cases r with
                | none => simp at hr1
                | some p => exact ⟨p, rfl⟩
              simp only [Option.map_some, Option.some.injEq, Prod.mk.injEq] at hr1
              obtain ⟨rfl, rfl⟩ := hr1
              simp only [hv, Option.map_some, R.pure_eq, Except.ok.injEq] at hf ⊢
              refine ⟨_, rfl, hf, ?_⟩
              rintro _ _ _ ⟨⟩
              intro w
              obtain ⟨q1, q2⟩ := hr2 _ _ _ rfl w
              obtain ⟨p1, p2⟩ := hpc (put w)
              have hmem : (chlook K (some (s, c)) : Map K V).Mem k := by
                simp [chlook, Map.Mem, hs, hc, hv]
              have hch : chlook K (some (s, putC (put w))) = (chlook K (some (s, c)) : Map K V).upd k (some w) := by
                funext j
                simp only [chlook, p2, Map.upd_apply]
                rcases hj : splitVal j with ⟨a, b⟩
                by_cases ha : a = hi
                · subst ha
                  simp only [if_true, Option.bind_some, q2, Map.upd_apply]
                  by_cases hb : b = lo'
                  · subst hb
                    rw [if_pos rfl, if_pos (inj j hj)]
                  · rw [if_neg hb, if_neg]
                    · rw [hc]; rfl
                    · rintro rfl
                      rw [hs] at hj; cases hj; exact hb rfl
                · rw [if_neg ha, if_neg]
                  rintro rfl
                  rw [hs] at hj; cases hj; exact ha rfl
              rw [join_of_split hs]
              refine ⟨⟨h.1, ⟨p1, hsg, fun j u' hj => ?_⟩, fun j hj => ?_⟩, ?_⟩
              · rw [p2, Map.upd_apply] at hj
                split at hj
                · next e =>
                  cases hj; subst e
                  refine ⟨q1, fun l hl => ?_⟩
                  rw [q2, Map.mem_upd_some] at hl
                  rcases hl with rfl | hl
                  · rw [join_of_split hs, hs]
                  · exact (hg _ _ hc).2 l hl
                · exact hg j u' hj
              · simp only [hch, Map.mem_upd_some] at hj
                rcases hj with rfl | hj
                · exact hk
                · exact h.2.2 j hj
              · simp only [look, putChildren, hch]
                rw [Map.upd_comm _ _ _ hx, Map.upd_comm _ _ _ hk.ne']

theorem look_successor (t : Tree K V S C) (k : K) (e : K × V) (h : G t) (hr : t.successor k = .ok (some e)) :
    k < e.1 ∧ (look t).Mem e.1 := by
  obtain ⟨mn, d⟩ := t
  simp only [successor] at hr
  split at hr
  · next hk =>
    cases hr
    exact ⟨hk, Map.mem_of (look_min _ h).1⟩
  · next hk =>
    obtain _ | ⟨mx, ch⟩ := d
    · cases hr
    · dsimp only at hr
      have hmx : (look (⟨mn, some ⟨mx, ch⟩⟩ : Tree K V S C)).Mem mx.1 := by simp [look, Map.mem_upd_some]
      split at hr
      · cases hr
      · next hx =>
        obtain _ | ⟨s, c⟩ := ch
        · cases hr; exact ⟨lt_of_not_ge hx, hmx⟩
        · obtain ⟨hmm, ⟨hci, hsg, hg⟩, hb⟩ := h
          have chmem : ∀ a b u, LC.abs c a = some u → (LT.look u).Mem b →
              splitVal (join a b : K) = (a, b) ∧ (chlook K (some (s, c)) : Map K V).Mem (join a b) ∧
              (look (⟨mn, some ⟨mx, some (s, c)⟩⟩ : Tree K V S C)).Mem (join a b) := by
            intro a b u hu hbu
            have h1 := (hg a u hu).2 b hbu
            have h2 : (chlook K (some (s, c)) : Map K V).Mem (join a b) := by
              rw [Map.Mem]; simpa [chlook, h1, hu, Map.Mem] using hbu
            exact ⟨h1, h2, by simp only [look, Map.mem_upd_some]; exact .inr (.inr h2)⟩
          have viaMin : ∀ a, (expect "child should exist for summary key" (LC.abs c a) >>= fun child =>
              VebTree.minVal child >>= fun p => pure (some ((join a p.1 : K), p.2))) = .ok (some e) →
              ∃ b u, e.1 = join a b ∧ LC.abs c a = some u ∧ (LT.look u).Mem b := by
            intro a ha
            obtain ⟨u, h1, h2⟩ := R.bind_ok ha
            obtain ⟨p, h3, h4⟩ := R.bind_ok h2
            cases h4
            rcases hu : LC.abs c a with _ | u'
            · rw [hu] at h1; cases h1
            · rw [hu] at h1; cases h1
              obtain ⟨kv, h5, h6⟩ := LT.minVal u (hg _ _ hu).1
              rw [h3] at h5; cases h5
              exact ⟨p.1, u, rfl, rfl, Map.mem_of h6.1⟩
          simp only [LC.get _ _ hci, R.ok_bind, LK.ref_eq] at hr
          split at hr
          · next hkm =>
            obtain ⟨⟨a, _⟩, h1, h2⟩ := R.bind_ok hr
            obtain ⟨b, u, he, hu, hbu⟩ := viaMin a h2
            obtain ⟨-, m1, m2⟩ := chmem a b u hu hbu
            rw [he]
            exact ⟨hkm ▸ hb _ m1, m2⟩
          · rcases hs : splitVal k with ⟨a, b⟩
            simp only [hs] at hr
            have down : VebTree.successor s a >>= (fun r => match r with
                | some (hi, ()) => expect "child should exist for summary key" (LC.abs c hi) >>= fun child =>
                    VebTree.minVal child >>= fun p => pure (some ((join hi p.1 : K), p.2))
                | none => pure (some mx)) = .ok (some e) →
                k < e.1 ∧ (look (⟨mn, some ⟨mx, some (s, c)⟩⟩ : Tree K V S C)).Mem e.1 := by
              intro hd
              obtain ⟨r, h1, h2⟩ := R.bind_ok hd
              obtain _ | ⟨a', _⟩ := r
              · cases h2; exact ⟨lt_of_not_ge hx, hmx⟩
              · obtain ⟨b', u, he, hu, hbu⟩ := viaMin a' h2
                obtain ⟨m0, -, m2⟩ := chmem a' b' u hu hbu
                rw [he]
                refine ⟨(LK.lt_iff _ _).2 (.inl ?_), m2⟩
                rw [hs, m0]
                exact (LS.successor s a _ hsg h1).1
            rcases hc : LC.abs c a with _ | u
            · simp only [hc, R.pure_eq, R.ok_bind] at hr
              exact down hr
            · simp only [hc] at hr
              obtain ⟨r, h1, h2⟩ := R.bind_ok hr
              obtain _ | ⟨b', v'⟩ := r
              · exact down h2
              · cases h2
                obtain ⟨g1, g2⟩ := LT.successor u b _ (hg _ _ hc).1 h1
                obtain ⟨m0, -, m2⟩ := chmem a b' u hc g2
                refine ⟨(LK.lt_iff _ _).2 (.inr ?_), m2⟩
                rw [hs, m0]
                exact ⟨rfl, g1⟩

instance instLook : LookTree (Tree K V S C) K V where
  G := G
  look := look
  nonempty t h := ⟨t.min.1, Map.mem_of (look_min t h).1⟩
  fromMonad k v := ⟨trivial, rfl⟩
  isMonad t b h hb := by
    rw [isSingle_look t h]
    simp only [VebTree.isMonad, isMonad, R.pure_eq, Except.ok.injEq] at hb
    rw [hb]
  intoMonad t h := by
    rcases hd : t.data with _ | d
    · refine .inl ⟨t.min.1, t.min.2, ?_, ?_⟩
      · simp [VebTree.intoMonad, intoMonad, isMonad, hd]
      · simp [look, hd]
    · refine .inr ⟨?_, ?_⟩
      · simp [VebTree.intoMonad, intoMonad, isMonad, hd]
      · rw [isSingle_look t h, hd]; simp
  minVal t h := ⟨_, rfl, look_min t h⟩
  minValMut t h := ⟨_, rfl, look_min t h, look_putMin t h⟩
  find := look_find
  findMut := look_findMut
  successor := look_successor
  insert := look_insert

end Tree

theorem CrateTree.look {T K V : Type} [LinearOrder K] [VebTree T K V] {safe : (K → Prop) → K → Prop}
    (h : CrateTree T K V safe) : Nonempty (LookTree T K V) := by
  induction h with
  | byteSet => exact ⟨LookTree.ofLawful fun _ _ => trivial⟩
  | byteMap => exact ⟨LookTree.ofLawful fun _ _ => trivial⟩
  | btreeMap => exact ⟨LookTree.ofLawful fun _ _ => trivial⟩
  | box _ ih => obtain ⟨P⟩ := ih; exact ⟨inferInstance⟩
  | sized _ ih => obtain ⟨P⟩ := ih; exact ⟨inferInstance⟩
  | tree hk _ _ hc ihs iht =>
    have := hk.lawful
    obtain ⟨LC⟩ := hc.lawful
    obtain ⟨PS⟩ := ihs
    obtain ⟨PT⟩ := iht
    exact ⟨inferInstance⟩

section
variable {T K V : Type} [LinearOrder K] [VebTree T K V] [L : LookTree T K V]

/-- The optional tree `t`, searched, shows the entries listed in `l`. -/
def LookRel (t : Option T) (l : SL K V) : Prop :=
  match t with
  | none => l = []
  | some t => L.G t ∧ SL.Lists l (L.look t)

theorem look_write {t : T} {l : SL K V} {w : V} {r : Option (K × V × (V → T))} {Q : Option (K × V) → Prop}
    {e : Option (K × V)} (I : L.G t) (hl : SL.Lists l (L.look t)) (h : MutOk L.G L.look t Q r)
    (hQ : ∀ r, Q r → r = e) (hm : ∀ p, e = some p → (L.look t).Mem p.1) :
    (Exec.writeOpt t w r).2 = .kv e ∧ LookRel (Exec.writeOpt t w r).1 (SL.setAt l e w) := by
  have he := hQ _ h.1
  obtain _ | ⟨k, v, put⟩ := r
  · simp only [Option.map_none] at he
    subst he
    exact ⟨rfl, I, hl⟩
  · simp only [Option.map_some] at he
    subst he
    refine ⟨rfl, ?_⟩
    have := h.2 k v put rfl w
    refine ⟨this.1, ?_⟩
    show SL.Lists (SL.set l k w) (L.look (put w))
    rw [this.2]
    exact hl.set w (hm _ rfl)

theorem look_step {t : Option T} {l : SL K V} (h : LookRel t l) (op : Op K V) (hk : op.keeps = true)
    {t' : Option T} {o : Out K V} (hs : Exec.step t op = .ok (t', o)) :
    LookRel t' (SL.step l op).1 ∧ (op.pointwise = true → o = (SL.step l op).2) := by
  obtain _ | t := t
  · have h : l = [] := h
    subst h
    cases op with
    | insert k v =>
      cases hs
      refine ⟨⟨(L.fromMonad k v).1, ?_⟩, fun h => by cases h⟩
      rw [(L.fromMonad k v).2]
      exact SL.lists_single k v
    | _ => cases hs; exact ⟨rfl, fun _ => rfl⟩
  · obtain ⟨I, hl⟩ := h
    cases op with
    | insert k v =>
      simp only [Exec.step, Exec.stepTree] at hs
      obtain ⟨⟨t1, o1⟩, h1, h2⟩ := R.bind_ok hs
      cases h2
      obtain ⟨g1, g2⟩ := L.insert t k v t1 o1 I h1
      exact ⟨⟨g1, g2 ▸ hl.insert k v⟩, fun h => by cases h⟩
    | find k =>
      simp only [Exec.step, Exec.stepTree, L.find t k I] at hs
      cases hs
      exact ⟨⟨I, hl⟩, fun _ => by simp [SL.step, hl.find k]⟩
    | minVal =>
      obtain ⟨kv, h1, h2⟩ := L.minVal t I
      simp only [Exec.step, Exec.stepTree, h1] at hs
      cases hs
      exact ⟨⟨I, hl⟩, fun _ => by simp [SL.step, hl.minE.2 h2]⟩
    | isMonad =>
      simp only [Exec.step, Exec.stepTree] at hs
      obtain ⟨b, h1, h2⟩ := R.bind_ok hs
      cases h2
      have := L.isMonad t b I h1
      refine ⟨⟨I, hl⟩, fun _ => ?_⟩
      have : b = (l.length == 1) := by
        rw [Bool.eq_iff_iff, this, ← hl.length_one, beq_iff_eq]
      simp [SL.step, this]
    | intoMonad =>
      rcases L.intoMonad t I with ⟨k, v, h1, h2⟩ | ⟨h1, h2⟩
      · rw [h2] at hl
        have := hl.unique (SL.lists_single k v)
        subst this
        simp only [Exec.step, Exec.stepTree, h1] at hs
        cases hs
        exact ⟨by simp [SL.step, LookRel], fun _ => by simp [SL.step]⟩
      · have h3 : l.length ≠ 1 := mt hl.length_one.1 h2
        simp only [Exec.step, Exec.stepTree, h1] at hs
        cases hs
        exact ⟨by simp [SL.step, h3, LookRel, I, hl], fun _ => by simp [SL.step, h3]⟩
    | findSet k w =>
      obtain ⟨r, h1, h2⟩ := L.findMut t k I
      simp only [Exec.step, Exec.stepTree, h1] at hs
      have hs : Exec.writeOpt t w r = (t', o) := by simpa using hs
      have h3 := look_write (w := w) (e := SL.find l k) I hl h2 (fun r hr => by rw [hr, hl.find k]) (fun p hp => by
        rw [hl.find k, Option.map_eq_some_iff] at hp
        obtain ⟨v, hv, rfl⟩ := hp
        exact Map.mem_of hv)
      rw [hs] at h3
      exact ⟨h3.2, fun _ => h3.1⟩
    | minSet w =>
      obtain ⟨⟨k, v, put⟩, h1, h2, h3⟩ := L.minValMut t I
      simp only [Exec.step, Exec.stepTree, h1] at hs
      cases hs
      have he := hl.minE.2 h2
      refine ⟨⟨(h3 w).1, ?_⟩, fun _ => by simp [SL.step, he]⟩
      simp only [SL.step, he, SL.setAt]
      rw [(h3 w).2]
      exact hl.set w (Map.mem_of h2.1)
    | predecessor k =>
      simp only [Exec.step, Exec.stepTree] at hs
      obtain ⟨b, -, h2⟩ := R.bind_ok hs
      cases h2
      exact ⟨⟨I, hl⟩, fun h => by cases h⟩
    | successor k =>
      simp only [Exec.step, Exec.stepTree] at hs
      obtain ⟨b, -, h2⟩ := R.bind_ok hs
      cases h2
      exact ⟨⟨I, hl⟩, fun h => by cases h⟩
    | maxVal =>
      simp only [Exec.step, Exec.stepTree] at hs
      obtain ⟨b, -, h2⟩ := R.bind_ok hs
      cases h2
      exact ⟨⟨I, hl⟩, fun h => by cases h⟩
    | _ => cases hk

theorem look_run {t : Option T} {l : SL K V} (h : LookRel t l) (ops : List (Op K V))
    (hk : ∀ op ∈ ops, op.keeps = true) {t' : Option T} {os : List (Out K V)}
    (hr : Exec.run t ops = .ok (t', os)) :
    LookRel t' (SL.run l ops).1 ∧ AgreeOn Op.pointwise ops os (SL.run l ops).2 := by
  induction ops generalizing t l os with
  | nil => cases hr; exact ⟨h, rfl, rfl, fun i op hi => by simp at hi⟩
  | cons op ops ih =>
    simp only [Exec.run] at hr
    obtain ⟨⟨t1, o⟩, h1, h2⟩ := R.bind_ok hr
    obtain ⟨⟨t2, os'⟩, h3, h4⟩ := R.bind_ok h2
    cases h4
    obtain ⟨g1, g2⟩ := look_step h op (hk op (by simp)) h1
    obtain ⟨e1, e2, e3, e4⟩ := ih g1 (fun op' hop => hk op' (by simp [hop])) h3
    refine ⟨e1, by simp [e2], by simp [SL.run, e3], fun i op' hi hp => ?_⟩
    cases i with
    | zero =>
      simp only [List.getElem?_cons_zero, Option.some.injEq] at hi
      subst hi
      simp [SL.run, g2 hp]
    | succ i =>
      simp only [List.getElem?_cons_succ] at hi
      simpa [SL.run] using e4 i op' hi hp

end
end Veb
