import Verif.Proof.Cost
import Verif.Proof.Crate

/-!
A tree with two entries has no children; adding a third makes a collection, and taking it out again drops it.
-/

set_option autoImplicit false
set_option linter.unusedSectionVars false

namespace Veb
variable {K V S C Hi Lo T : Type} [LinearOrder K] [LinearOrder Hi] [LinearOrder Lo]
  [VebKey K Hi Lo] [VebKeyRef K Hi Lo] [LK : LawfulVebKey K Hi Lo]
  [VebTree S Hi Unit] [LS : LawfulVebTree S Hi Unit]
  [VebTree T Lo V] [LT : LawfulVebTree T Lo V]
  [TreeCollection C Hi T Lo V] [LC : LawfulColl C Hi T Lo V]

/-- the tree with two entries -/
def Tree.two (a k : K × V) : Tree K V S C := ⟨a, some ⟨k, none⟩⟩

theorem removeMax_fromMonad (k : K) (v : V) [VebTree T K V] [L : LawfulVebTree T K V] :
    VebTree.removeMax (VebTree.fromMonad k v : T) = .ok (none, (k, v)) := by
  obtain ⟨I, e⟩ := L.fromMonad k v
  obtain ⟨o, kv, h1, ⟨h2, -⟩, h3⟩ := L.removeMax _ I
  rw [e] at h2 h3
  have hk : kv.1 = k := by
    by_contra h
    rw [Map.single_apply, if_neg h] at h2
    cases h2
  rw [hk, Map.single_self] at h2
  obtain ⟨x, y⟩ := kv
  cases h2
  cases hk
  rw [h1]
  rw [Map.single_upd_none] at h3
  cases o with
  | none => rfl
  | some t =>
    obtain ⟨j, hj⟩ := L.nonempty t h3.1
    rw [h3.2] at hj
    exact absurd rfl hj

theorem maxVal_fromMonad (k : K) (v : V) [VebTree T K V] [L : LawfulVebTree T K V] :
    VebTree.maxVal (VebTree.fromMonad k v : T) = .ok (k, v) := by
  obtain ⟨I, e⟩ := L.fromMonad k v
  obtain ⟨kv, h1, h2, -⟩ := L.maxVal _ I
  rw [e] at h2
  have hk : kv.1 = k := by
    by_contra h
    rw [Map.single_apply, if_neg h] at h2
    cases h2
  rw [hk, Map.single_self] at h2
  obtain ⟨x, y⟩ := kv
  cases h2
  cases hk
  exact h1

theorem Tree.refill (a k : K × V) (z : K) (v : V) (h1 : a.1 < k.1) (h2 : k.1 < z) :
    ∃ t : Tree K V S C, VebTree.insert (Tree.two a k : Tree K V S C) z v = .ok (t, none) ∧
      VebTree.removeMax t = .ok (some (Tree.two a k), (z, v)) := by
  obtain ⟨c, hc, Ic, ac⟩ := LC.create (VebKey.splitVal k.1).1 (VebTree.fromMonad (VebKey.splitVal k.1).2 k.2)
  refine ⟨⟨a, some ⟨(z, v), some (VebTree.fromMonad (VebKey.splitVal k.1).1 (), c)⟩⟩, ?_, ?_⟩
  · show Tree.insert _ _ _ = _
    have e1 : cmp z a.1 = .gt := cmp_gt (h1.trans h2)
    have e2 : cmp z k.1 = .gt := cmp_gt h2
    simp only [Tree.insert, Tree.two, e1, e2, Tree.insertBelow, hc]
    rfl
  · show Tree.removeMax _ = _
    obtain ⟨res, hr, hr'⟩ := LC.removeKey c (VebKey.splitVal k.1).1 _ VebTree.removeMax none _ Ic
      (by rw [ac, Map.single_self]) (removeMax_fromMonad _ _)
    have hres : res = none := by
      cases res with
      | none => rfl
      | some p =>
        obtain ⟨-, Ic', ac'⟩ := hr'
        obtain ⟨h, hj⟩ := LC.nonempty _ Ic'
        rw [ac', ac, Map.single_upd_none] at hj
        exact absurd rfl hj
    subst hres
    simp only [Tree.removeMax, maxVal_fromMonad]
    rw [R.ok_bind]
    dsimp only
    rw [hr, R.ok_bind]
    dsimp only
    rw [LK.join_split]
    rfl

theorem Tree.refill_bill [TickTree S Hi Unit] [TickTree T Lo V] [TickColl C Hi T Lo V] [ErTree S] [ErTree T]
    [ErColl C] (w : Ev → Nat) {m : Nat} (hm : ∀ h t, m ≤ (TickColl.create h t : Tk C).bill w) (a k : K × V) (z : K) (v : V)
    (h1 : a.1 < k.1) (h2 : k.1 < z) : m ≤ (TickTree.insert (Tree.two a k : Tree K V S C) z v).bill w := by
  show m ≤ (Tree.insertT _ _ _).bill w
  obtain ⟨c, hc, Ic, ac⟩ := LC.create (VebKey.splitVal k.1).1 (VebTree.fromMonad (VebKey.splitVal k.1).2 k.2)
  have e1 : cmp z a.1 = .gt := cmp_gt (h1.trans h2)
  have e2 : cmp z k.1 = .gt := cmp_gt h2
  have e3 : (TickTree.fromMonad (VebKey.splitVal k.1).2 k.2 : Tk T).run = .ok _ := ErTree.fromMonad _ _
  have e4 := hm (VebKey.splitVal k.1).1 (VebTree.fromMonad (VebKey.splitVal k.1).2 k.2)
  have e5 : (TickColl.create (VebKey.splitVal k.1).1 (VebTree.fromMonad (VebKey.splitVal k.1).2 k.2 : T) : Tk C).run = .ok c :=
    (ErColl.create _ _).trans hc
  simp only [Tree.insertT, Tree.two, e1, e2, Tree.insertBelowT, Tk.tick, Tk.bill_evBind, Tk.bill_bind w _ _ e3,
    Tk.bill_bind w _ _ e5]
  omega

end Veb
