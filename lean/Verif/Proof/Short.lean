import Verif.Proof.Answers
import Verif.Proof.Black

/-! Histories that store at most two entries have safe insertions only. -/

set_option autoImplicit false
set_option linter.unusedSectionVars false

namespace Veb
open VebTree

variable {T K V : Type} [LinearOrder K] [VebTree T K V] {safe : (K → Prop) → K → Prop}

/-- An insertion into at most one key, or of a stored key into at most two keys, is safe. -/
theorem safe_small (h : CrateTree T K V safe) (P : K → Prop) (k : K)
    (hp : (∀ a b, P a → P b → a = b) ∨ (P k ∧ ∃ a b, ∀ j, P j → j = a ∨ j = b)) : safe P k := by
  induction h with
  | byteSet => trivial
  | byteMap => trivial
  | btreeMap => trivial
  | box _ ih => exact ih P k hp
  | sized _ ih =>
    refine ⟨ih P k hp, ?_⟩
    rcases hp with hp | ⟨hp, -⟩
    · right
      have : Set.ncard {j | P j} ≤ 1 := 
        (Set.ncard_le_one_iff (Set.Subsingleton.finite fun a ha b hb => hp a b ha hb)).2 fun ha hb => hp _ _ ha hb
      exact lt_of_le_of_lt this (by decide)
    · exact .inl hp
  | tree _ _ _ _ _ _ =>
    intro mn mx hmn hmx hne hbd
    rcases hp with hp | ⟨hp, a, b, hab⟩
    · exact absurd (hp _ _ hmn hmx) hne
    · refine ⟨(hbd _ hp).1, ?_⟩
      rcases hab _ hp with rfl | rfl
      · rcases hab _ hmn with rfl | rfl
        · exact .inl rfl
        · rcases hab _ hmx with rfl | rfl
          · exact .inr (.inl rfl)
          · exact absurd rfl hne
      · rcases hab _ hmn with rfl | rfl
        · rcases hab _ hmx with rfl | rfl
          · exact absurd rfl hne
          · exact .inr (.inl rfl)
        · exact .inl rfl

theorem keys_small {l : SL K V} (hl : l.length ≤ 1) (a b : K) (ha : SL.keys l a) (hb : SL.keys l b) : a = b := by
  obtain ⟨v, ha⟩ := ha
  obtain ⟨w, hb⟩ := hb
  match l, hl with
  | [], _ => cases ha
  | [p], _ =>
    have e1 : (a, v) = p := by simpa using ha
    have e2 : (b, w) = p := by simpa using hb
    rw [← e2] at e1
    exact congrArg Prod.fst e1

theorem keys_two {l : SL K V} (hl : l.length = 2) : ∃ a b, ∀ j, SL.keys l j → j = a ∨ j = b := by
  match l, hl with
  | [p, q], _ =>
    refine ⟨p.1, q.1, ?_⟩
    rintro j ⟨v, hj⟩
    have : (j, v) = p ∨ (j, v) = q := by simpa using hj
    exact this.imp (congrArg Prod.fst) (congrArg Prod.fst)

/-- Histories that never store more than two entries have safe insertions only. -/
theorem safeHist_two (h : CrateTree T K V safe) (ops : List (Op K V))
    (hn : ∀ pre, pre <+: ops → (entries pre).length ≤ 2) : SL.SafeHist safe [] ops := by
  induction ops using List.reverseRecOn with
  | nil => trivial
  | append_singleton ops op ih =>
    refine (SL.safeHist_append _ _ _ _).2
      ⟨ih fun pre hp => hn pre (hp.trans (List.prefix_append _ _)), ?_, trivial⟩
    obtain ⟨k, v⟩ | _ := op <;> try trivial
    right
    have h1 := hn ops (List.prefix_append _ _)
    have h2 := hn _ (List.prefix_refl _)
    refine safe_small h _ k ?_
    rcases Nat.lt_or_ge (entries ops).length 2 with hlt | hge
    · exact .inl (keys_small (Nat.le_of_lt_succ hlt))
    · refine .inr ⟨?_, keys_two (le_antisymm h1 hge)⟩
      have hl := entries_lists ops
      by_contra hk
      rw [show (SL.run [] ops).1 = entries ops from rfl, hl.keys] at hk
      have h3 := (entries_lists (ops ++ [.insert k v])).card
      have h4 : contents (ops ++ [.insert k v]) = (contents ops).upd k (some v) := by
        refine (entries_lists _).ext ?_
        rw [entries_snoc]
        exact hl.insert k v
      rw [h4] at h3
      have h5 := hl.card
      have h6 : ((contents ops).upd k (some v)).card = (contents ops).card + 1 :=
        Map.card_upd_new hl.finite (Map.not_mem.1 hk)
      omega

theorem entries_le_length (ops : List (Op K V)) : (entries ops).length ≤ ops.length := by
  induction ops using List.reverseRecOn with
  | nil => exact le_refl _
  | append_singleton ops op ih =>
    have : (entries (ops ++ [op])).length ≤ (entries ops).length + 1 := by
      by_cases h : (SL.step (entries ops) op).1 = []
      · rw [entries_snoc, h]; exact Nat.zero_le _
      · rw [entries_snoc, SL.length_newSize (entries_lists ops).1 op h]
        cases op <;> simp only [newSize] <;> first | omega | (split <;> omega)
    simp only [List.length_append, List.length_singleton]
    omega

end Veb
