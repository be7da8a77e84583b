import Verif.Proof.Tree

/-!
Appending to a tree and overwriting a stored key are safe at every depth.
-/

namespace Veb.Tree
open VebKey (splitVal join)

variable {K V S C Hi Lo T : Type} [LinearOrder K] [LinearOrder Hi] [LinearOrder Lo]
  [VebKey K Hi Lo] [VebKeyRef K Hi Lo] [LK : LawfulVebKey K Hi Lo]
  [VebTree S Hi Unit] [LS : LawfulVebTree S Hi Unit] [MS : MonoSafe S Hi Unit]
  [VebTree T Lo V] [LT : LawfulVebTree T Lo V] [MT : MonoSafe T Lo V]
  [TreeCollection C Hi T Lo V] [LC : LawfulColl C Hi T Lo V]

instance instMonoSafe : MonoSafe (Tree K V S C) K V where
  present P k hfin hk := by
    intro mn mx hmn hmx hne hb
    refine ⟨(hb k hk).1, ?_⟩
    by_cases e1 : k = mn
    · exact .inl e1
    by_cases e2 : k = mx
    · exact .inr (.inl e2)
    refine .inr (.inr ?_)
    rintro x hx
    rw [if_neg (not_lt.2 (hb k hk).2)] at hx
    subst hx
    refine ⟨fun child hc _ => ?_, fun sum hs hn _ => ?_⟩
    · refine MT.present child _ ?_ ((hc _).2 ⟨x, hk, e1, e2, rfl⟩)
      refine (hfin.image fun j => (splitVal j).2).subset ?_
      intro l hl
      obtain ⟨j, hj, _, _, e⟩ := (hc l).1 hl
      exact ⟨j, hj, by simp [e]⟩
    · exact absurd ((hs _).2 ⟨x, hk, e1, e2, rfl⟩) hn
  append P k hfin hall hcard := by
    intro mn mx hmn hmx hne hb
    have hlt := hall mx hmx
    refine ⟨(hall mn hmn).le, .inr (.inr ?_)⟩
    rintro x hx
    rw [if_pos hlt] at hx
    subst hx
    refine ⟨fun child hc _ => ?_, fun sum hs hn _ => ?_⟩
    · refine MT.append child _ ?_ ?_ ?_
      · refine (hfin.image fun j => (splitVal j).2).subset ?_
        intro l hl
        obtain ⟨j, hj, _, _, e⟩ := (hc l).1 hl
        exact ⟨j, hj, by simp [e]⟩
      · intro l hl
        obtain ⟨j, hj, _, e2, e⟩ := (hc l).1 hl
        have := lt_of_le_of_ne (hb j hj).2 e2
        rw [LK.lt_iff, e] at this
        simpa using this
      · refine lt_of_le_of_lt ?_ hcard
        refine le_trans (Set.ncard_le_ncard ?_ (hfin.image fun j => (splitVal j).2)) (Set.ncard_image_le hfin)
        intro l hl
        obtain ⟨j, hj, _, _, e⟩ := (hc l).1 hl
        exact ⟨j, hj, by simp [e]⟩
    · refine MS.append sum _ ?_ ?_ ?_
      · refine (hfin.image fun j => (splitVal j).1).subset ?_
        intro h hh
        obtain ⟨j, hj, _, _, e⟩ := (hs h).1 hh
        exact ⟨j, hj, e⟩
      · intro h hh
        have hne : h ≠ (splitVal x).1 := fun e => hn (e ▸ hh)
        obtain ⟨j, hj, _, e2, rfl⟩ := (hs h).1 hh
        have := lt_of_le_of_ne (hb j hj).2 e2
        rw [LK.lt_iff] at this
        rcases this with h1 | ⟨h1, _⟩
        · exact h1
        · exact absurd h1 hne
      · refine lt_of_le_of_lt ?_ hcard
        refine le_trans (Set.ncard_le_ncard ?_ (hfin.image fun j => (splitVal j).1)) (Set.ncard_image_le hfin)
        intro h hh
        obtain ⟨j, hj, _, _, e⟩ := (hs h).1 hh
        exact ⟨j, hj, e⟩

end Veb.Tree
