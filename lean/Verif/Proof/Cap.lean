import Verif.SpecCap
import Verif.Proof.NoPanic
import Verif.Proof.KeyProps

/-!
How many entries fit into a tree type.
-/

set_option autoImplicit false
set_option linter.unusedSectionVars false

namespace Veb

theorem Map.card_le_card {K V : Type} [Finite K] (M : Map K V) : M.card ≤ Nat.card K := by
  rw [← Set.ncard_univ]; exact Set.ncard_le_ncard (Set.subset_univ _) (Set.toFinite _)

instance (w : Nat) : Finite (U w) := Nat.finite_of_card_ne_zero (by rw [card_U]; exact Nat.ne_of_gt (Nat.two_pow_pos w))
instance (w : Nat) : Finite (S w) := Nat.finite_of_card_ne_zero (by rw [card_S]; exact Nat.ne_of_gt (Nat.two_pow_pos w))

namespace PhysTree
section
variable {T K V : Type} [LinearOrder K] [VebTree T K V]

theorem ofLawful_cap [Finite K] [L : LawfulVebTree T K V] (hsafe : ∀ P k, L.Safe P k) (t : T)
    (h : (ofLawful hsafe).W t) : ((ofLawful hsafe).ents t).card ≤ Nat.card K := by
  show (mapBag (L.abs t)).card ≤ _
  rw [card_mapBag (L.finite t h)]
  exact Map.card_le_card _

variable [P : PhysTree T K V]

/-- A counted tree that is full before its counter is. -/
@[reducible] def sizedOf {n : Nat} (hl : ¬ P.limited) (hc : ∀ t, P.W t → (P.ents t).card ≤ n) (hn : n ≤ usizeMax) :
    PhysTree (SizedVebTree T) K V :=
  { (inferInstance : PhysTree (SizedVebTree T) K V) with
    limited := False
    insertE := fun t k v I _ => by
      obtain ⟨t', o, h1, h2, h3, h4⟩ := P.insertE t.tree k v I.1 fun h => absurd h hl
      cases o with
      | none =>
        have h3' : P.ents t' = _ := h3
        have hlt : t.size + 1 ≤ usizeMax := by
          have := hc t' h2
          rw [h3', Multiset.card_cons, ← I.2] at this
          exact this.trans hn
        refine ⟨⟨t', t.size + 1⟩, none, ?_, ⟨h2, ?_⟩, h3, h4⟩
        · simp [VebTree.insert, h1, hlt]
        · show t.size + 1 = (P.ents t').card
          rw [h3', Multiset.card_cons, I.2]
      | some e =>
        refine ⟨⟨t', t.size⟩, some e, ?_, ⟨h2, ?_⟩, h3, h4⟩
        · simp [VebTree.insert, h1]
        · obtain ⟨r, e1, e2⟩ := h3
          show t.size = (P.ents t').card
          rw [I.2, e1, e2, Multiset.card_cons, Multiset.card_cons] }

end
end PhysTree

theorem Tree.cap {K V S C Hi Lo T : Type} [LinearOrder K] [LinearOrder Hi] [LinearOrder Lo]
    [VebKey K Hi Lo] [VebKeyRef K Hi Lo] [LawfulVebKey K Hi Lo]
    [VebTree S Hi Unit] [PS : PhysTree S Hi Unit] [VebTree T Lo V] [PT : PhysTree T Lo V]
    [TreeCollection C Hi T Lo V] [LC : LawfulColl C Hi T Lo V] [Finite Hi] {n : Nat}
    (hT : ∀ t, PT.W t → (PT.ents t).card ≤ n) (t : Tree K V S C) (h : Tree.W t) :
    (Tree.ents t).card ≤ 2 + Nat.card Hi * n := by
  obtain ⟨mn, _ | ⟨mx, _ | ⟨s, c⟩⟩⟩ := t
  · simp only [Tree.ents, Multiset.card_singleton]; omega
  · simp [Tree.ents, Tree.ochbag]
  · have I : Tree.ChW K s c := h
    simp only [Tree.ents, Tree.ochbag, Multiset.card_cons]
    have h1 : (Tree.chbag K s c : Multiset (K × V)).card ≤ (PS.bag s).card * n := by
      rw [Tree.chbag, Multiset.card_bind]
      refine (Multiset.sum_le_card_nsmul _ n ?_).trans (by simp)
      intro x hx
      obtain ⟨h, hh, rfl⟩ := Multiset.mem_map.1 hx
      obtain ⟨u, hu⟩ := Map.mem_iff.1 ((I.sum h).1 hh)
      simp only [Function.comp, Tree.cell, hu, Multiset.card_map]
      exact hT u (I.child h u hu)
    have h2 : (PS.bag s).card ≤ Nat.card Hi := by
      have := Fintype.ofFinite Hi
      rw [Nat.card_eq_fintype_card]
      exact Finset.card_le_univ ⟨PS.bag s, I.nodup⟩
    have := Nat.mul_le_mul_right n h2
    omega

theorem CapTree.phys {T K V : Type} [LinearOrder K] [VebTree T K V] {n : Nat} (h : CapTree T K V n) :
    ∃ P : PhysTree T K V, ¬ P.limited ∧ ∀ t, P.W t → (P.ents t).card ≤ n := by
  induction h with
  | byteSet =>
    refine ⟨PhysTree.ofLawful fun _ _ => trivial, id, fun t h => ?_⟩
    rw [← card_U 8]; exact PhysTree.ofLawful_cap _ t h
  | byteMap =>
    refine ⟨PhysTree.ofLawful fun _ _ => trivial, id, fun t h => ?_⟩
    rw [← card_U 8]; exact PhysTree.ofLawful_cap _ t h
  | btreeMap => exact ⟨PhysTree.ofLawful fun _ _ => trivial, id, fun t h => PhysTree.ofLawful_cap _ t h⟩
  | box _ ih => obtain ⟨P, h, hc⟩ := ih; exact ⟨inferInstance, h, fun t => hc t.val⟩
  | sized _ hn ih =>
    obtain ⟨P, h, hc⟩ := ih
    exact ⟨PhysTree.sizedOf h hc hn, id, fun t ht => hc t.tree ht.1⟩
  | tree hk _ _ hc ihs iht =>
    have := hk.lawful
    obtain ⟨LC⟩ := hc.lawful
    obtain ⟨PS, hs, -⟩ := ihs
    obtain ⟨PT, ht, hT⟩ := iht
    exact ⟨inferInstance, fun h => h.elim hs ht, fun t => Tree.cap hT t⟩

theorem CapTree.crate {T K V : Type} [LinearOrder K] [VebTree T K V] {n : Nat} (h : CapTree T K V n) :
    ∃ safe, CrateTree T K V safe := by
  induction h with
  | byteSet => exact ⟨_, .byteSet⟩
  | byteMap => exact ⟨_, .byteMap⟩
  | btreeMap => exact ⟨_, .btreeMap⟩
  | box _ ih => obtain ⟨_, h⟩ := ih; exact ⟨_, .box h⟩
  | sized _ _ ih => obtain ⟨_, h⟩ := ih; exact ⟨_, .sized h⟩
  | tree hk _ _ hc ihs iht =>
    obtain ⟨_, hs⟩ := ihs
    obtain ⟨_, ht⟩ := iht
    exact ⟨_, .tree hk hs ht hc⟩

end Veb
