import Verif.SpecCheck
import Verif.Proof.Exact

/-! The check of `SpecCheck` decides `safe`. -/

set_option autoImplicit false
set_option linter.unusedSectionVars false

namespace Veb
open VebKey (splitVal)

/-- `c` decides `safe` on lists. -/
def Decides {K : Type} (safe : (K → Prop) → K → Prop) (c : List K → K → Bool) : Prop :=
  ∀ l k, safe (· ∈ l) k ↔ c l k = true

section
variable {K V Hi Lo : Type} [LinearOrder K] [LinearOrder Hi] [LinearOrder Lo] [VebKey K Hi Lo]

theorem leastOf_some {l : List K} {m : K} (h : leastOf l = some m) : m ∈ l ∧ ∀ j ∈ l, m ≤ j := by
  have h1 := List.find?_some h
  exact ⟨List.mem_of_find?_eq_some h, by simpa using h1⟩

theorem greatestOf_some {l : List K} {m : K} (h : greatestOf l = some m) : m ∈ l ∧ ∀ j ∈ l, j ≤ m := by
  have h1 := List.find?_some h
  exact ⟨List.mem_of_find?_eq_some h, by simpa using h1⟩

theorem leastOf_eq {l : List K} {m : K} (h : m ∈ l) (hm : ∀ j ∈ l, m ≤ j) : leastOf l = some m := by
  rcases hl : leastOf l with _ | m'
  · have := List.find?_eq_none.1 hl m h
    exact absurd (by simpa using hm) this
  · obtain ⟨a, b⟩ := leastOf_some hl
    rw [le_antisymm (b m h) (hm m' a)]

theorem greatestOf_eq {l : List K} {m : K} (h : m ∈ l) (hm : ∀ j ∈ l, j ≤ m) : greatestOf l = some m := by
  rcases hl : greatestOf l with _ | m'
  · have := List.find?_eq_none.1 hl m h
    exact absurd (by simpa using hm) this
  · obtain ⟨a, b⟩ := greatestOf_some hl
    rw [le_antisymm (hm m' a) (b m h)]

theorem tree_decides {sS : (Hi → Prop) → Hi → Prop} {sT : (Lo → Prop) → Lo → Prop}
    {cS : List Hi → Hi → Bool} {cT : List Lo → Lo → Bool} (dS : Decides sS cS) (dT : Decides sT cT) :
    Decides (Tree.Safe (K := K) sS sT) (treeCheck cS cT) := by
  intro l k
  -- the part below two different ends
  have key : ∀ mn mx : K, ∀ x, x = (if mx < k then mx else k) →
      (((∀ child : Lo → Prop,
          (∀ i, child i ↔ ∃ j, j ∈ l ∧ j ≠ mn ∧ j ≠ mx ∧ splitVal j = ((splitVal x).1, i)) →
          (∃ i, child i) → sT child (splitVal x).2) ∧
        (∀ sum : Hi → Prop,
          (∀ h, sum h ↔ ∃ j, j ∈ l ∧ j ≠ mn ∧ j ≠ mx ∧ (splitVal j).1 = h) →
          ¬ sum (splitVal x).1 → (∃ h, sum h) → sS sum (splitVal x).1)) ↔
      ((((l.filter fun j => decide (j ≠ mn) && decide (j ≠ mx)).filter fun j =>
            decide ((splitVal j).1 = (splitVal x).1)).map fun j => (splitVal j).2).isEmpty ||
          cT (((l.filter fun j => decide (j ≠ mn) && decide (j ≠ mx)).filter fun j =>
            decide ((splitVal j).1 = (splitVal x).1)).map fun j => (splitVal j).2) (splitVal x).2) = true ∧
        (decide ((splitVal x).1 ∈ (l.filter fun j => decide (j ≠ mn) && decide (j ≠ mx)).map fun j => (splitVal j).1) ||
          ((l.filter fun j => decide (j ≠ mn) && decide (j ≠ mx)).map fun j => (splitVal j).1).isEmpty ||
          cS ((l.filter fun j => decide (j ≠ mn) && decide (j ≠ mx)).map fun j => (splitVal j).1)
            (splitVal x).1) = true) := by
    intro mn mx x _
    generalize hch : ((l.filter fun j => decide (j ≠ mn) && decide (j ≠ mx)).filter fun j =>
      decide ((splitVal j).1 = (splitVal x).1)).map (fun j => (splitVal j).2) = child
    generalize hsm : (l.filter fun j => decide (j ≠ mn) && decide (j ≠ mx)).map (fun j => (splitVal j).1) = sum
    have h1 : ∀ i, i ∈ child ↔ ∃ j, j ∈ l ∧ j ≠ mn ∧ j ≠ mx ∧ splitVal j = ((splitVal x).1, i) := by
      intro i
      rw [← hch]
      simp only [List.mem_map, List.mem_filter, Bool.and_eq_true, decide_eq_true_eq]
      constructor
      · rintro ⟨j, ⟨⟨a, b, c⟩, d⟩, rfl⟩
        exact ⟨j, a, b, c, by rw [← d]⟩
      · rintro ⟨j, a, b, c, d⟩
        exact ⟨j, ⟨⟨a, b, c⟩, by rw [d]⟩, by rw [d]⟩
    have h2 : ∀ h, h ∈ sum ↔ ∃ j, j ∈ l ∧ j ≠ mn ∧ j ≠ mx ∧ (splitVal j).1 = h := by
      intro h
      rw [← hsm]
      simp only [List.mem_map, List.mem_filter, Bool.and_eq_true, decide_eq_true_eq]
      constructor
      · rintro ⟨j, ⟨a, b, c⟩, d⟩; exact ⟨j, a, b, c, d⟩
      · rintro ⟨j, a, b, c, d⟩; exact ⟨j, ⟨a, b, c⟩, d⟩
    refine and_congr ?_ ?_
    · rw [Bool.or_eq_true, List.isEmpty_iff]
      constructor
      · intro h
        rcases child.eq_nil_or_concat with e | ⟨as, a, e⟩
        · exact .inl e
        · exact .inr ((dT _ _).1 (h (· ∈ child) h1 ⟨a, by rw [e]; simp⟩))
      · intro h P hP ⟨i, hi⟩
        have e : P = (· ∈ child) := by
          funext i; exact propext ((hP i).trans (h1 i).symm)
        rcases h with h | h
        · rw [e, h] at hi; cases hi
        · rw [e]; exact (dT _ _).2 h
    · rw [Bool.or_eq_true, Bool.or_eq_true, List.isEmpty_iff, decide_eq_true_eq]
      constructor
      · intro h
        by_cases hm : (splitVal x).1 ∈ sum
        · exact .inl (.inl hm)
        · rcases sum.eq_nil_or_concat with e | ⟨as, a, e⟩
          · exact .inl (.inr e)
          · exact .inr ((dS _ _).1 (h (· ∈ sum) h2 hm ⟨a, by rw [e]; simp⟩))
      · intro h P hP hn ⟨i, hi⟩
        have e : P = (· ∈ sum) := by
          funext i; exact propext ((hP i).trans (h2 i).symm)
        rw [e] at hi hn ⊢
        rcases h with (h | h) | h
        · exact absurd h hn
        · rw [h] at hi; cases hi
        · exact (dS _ _).2 h
  constructor
  · intro h
    unfold treeCheck
    split
    · next mn mx hmn hmx =>
      obtain ⟨a1, a2⟩ := leastOf_some hmn
      obtain ⟨b1, b2⟩ := greatestOf_some hmx
      by_cases hne : mn = mx
      · simp [hne]
      · obtain ⟨c1, c2⟩ := h mn mx a1 b1 hne fun j hj => ⟨a2 j hj, b2 j hj⟩
        simp only [Bool.or_eq_true, Bool.and_eq_true, decide_eq_true_eq]
        refine .inr ⟨c1, ?_⟩
        rcases c2 with c2 | c2 | c2
        · exact .inl (.inl c2)
        · exact .inl (.inr c2)
        · have := (key mn mx _ rfl).1 (c2 _ rfl)
          simp only [Bool.or_eq_true, decide_eq_true_eq] at this
          exact .inr this
    · rfl
  · intro h mn mx hmn hmx hne hbd
    have e1 := leastOf_eq hmn fun j hj => (hbd j hj).1
    have e2 := greatestOf_eq hmx fun j hj => (hbd j hj).2
    unfold treeCheck at h
    rw [e1, e2] at h
    simp only [Bool.or_eq_true, Bool.and_eq_true, decide_eq_true_eq] at h
    rcases h with h | ⟨h1, h⟩
    · exact absurd h hne
    refine ⟨h1, ?_⟩
    rcases h with (h | h) | h
    · exact .inl h
    · exact .inr (.inl h)
    · refine .inr (.inr fun x hx => ?_)
      rw [← hx] at h
      refine (key mn mx x hx).2 ?_
      simp only [Bool.or_eq_true, decide_eq_true_eq]
      exact h

theorem sized_decides {s : (K → Prop) → K → Prop} {c : List K → K → Bool} (d : Decides s c) :
    Decides (sizedSafe s) (sizedCheck c) := by
  intro l k
  have : Set.ncard {j | j ∈ l} = l.dedup.length := by
    have e : {j | j ∈ l} = ((l.toFinset : Finset K) : Set K) := by ext; simp
    rw [e, Set.ncard_coe_finset, List.card_toFinset]
  unfold sizedSafe sizedCheck
  rw [this, d l k]
  simp

theorem CrateTree.check {T : Type} [VebTree T K V] {safe : (K → Prop) → K → Prop} (h : CrateTree T K V safe) :
    ∃ c, CheckFor T K V c ∧ Decides safe c := by
  induction h with
  | byteSet => exact ⟨_, .byteSet, fun _ _ => by simp [always]⟩
  | byteMap => exact ⟨_, .byteMap, fun _ _ => by simp [always]⟩
  | btreeMap => exact ⟨_, .btreeMap, fun _ _ => by simp [always]⟩
  | box _ ih => obtain ⟨c, h1, h2⟩ := ih; exact ⟨c, .box h1, h2⟩
  | sized _ ih => obtain ⟨c, h1, h2⟩ := ih; exact ⟨_, .sized h1, sized_decides h2⟩
  | tree hk _ _ hc ihs iht =>
    obtain ⟨cS, s1, s2⟩ := ihs
    obtain ⟨cT, t1, t2⟩ := iht
    exact ⟨_, .tree hk s1 t1 hc, tree_decides s2 t2⟩

theorem CheckFor.crate {T : Type} [VebTree T K V] {c : List K → K → Bool} (h : CheckFor T K V c) :
    ∃ safe, CrateTree T K V safe ∧ Decides safe c := by
  induction h with
  | byteSet => exact ⟨_, .byteSet, fun _ _ => by simp [always]⟩
  | byteMap => exact ⟨_, .byteMap, fun _ _ => by simp [always]⟩
  | btreeMap => exact ⟨_, .btreeMap, fun _ _ => by simp [always]⟩
  | box _ ih => obtain ⟨c, h1, h2⟩ := ih; exact ⟨c, .box h1, h2⟩
  | sized _ ih => obtain ⟨c, h1, h2⟩ := ih; exact ⟨_, .sized h1, sized_decides h2⟩
  | tree hk _ _ hc ihs iht =>
    obtain ⟨cS, s1, s2⟩ := ihs
    obtain ⟨cT, t1, t2⟩ := iht
    exact ⟨_, .tree hk s1 t1 hc, tree_decides s2 t2⟩

/-- nothing stored: every insertion passes -/
theorem CheckFor.nil {T : Type} [VebTree T K V] {c : List K → K → Bool} (h : CheckFor T K V c) (k : K) :
    c [] k = true := by
  induction h with
  | byteSet => rfl
  | byteMap => rfl
  | btreeMap => rfl
  | box _ ih => exact ih k
  | sized _ ih => simp [sizedCheck, ih k, usizeMax]
  | tree => rfl

theorem keys_eq_mem (l : SL K V) : SL.keys l = (· ∈ l.map Prod.fst) := by
  funext k
  apply propext
  simp [SL.keys]

theorem histCheck_iff {T : Type} [VebTree T K V] {c : List K → K → Bool} {safe : (K → Prop) → K → Prop}
    (h : CheckFor T K V c) (d : Decides safe c) (l : SL K V) (ops : List (Op K V)) :
    histCheck c l ops = true ↔ SL.SafeHist safe l ops := by
  induction ops generalizing l with
  | nil => simp [histCheck, SL.SafeHist]
  | cons op ops ih =>
    simp only [histCheck, SL.SafeHist, Bool.and_eq_true, ih]
    refine and_congr_left fun _ => ?_
    cases op with
    | insert k v =>
      simp only
      rw [keys_eq_mem, d]
      constructor
      · exact .inr
      · rintro (rfl | h')
        · exact h.nil k
        · exact h'
    | _ => simp

end
end Veb
