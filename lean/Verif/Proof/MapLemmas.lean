import Verif.Spec

/-!
Facts about partial maps, in particular about a map laid out as `min`, `max` and a strictly inner part.
-/

set_option linter.unusedSectionVars false

namespace Veb
variable {K V : Type}

theorem cmp_lt [LinearOrder K] {a b : K} (h : a < b) : cmp a b = .lt := by simp [cmp, h]
theorem cmp_self [LinearOrder K] (a : K) : cmp a a = .eq := by simp [cmp]
theorem cmp_gt [LinearOrder K] {a b : K} (h : b < a) : cmp a b = .gt := by
  simp [cmp, not_lt.mpr h.le, h.ne']

namespace Map

@[simp] theorem mem_empty (k : K) : ¬ (empty : Map K V).Mem k := by simp [Mem, empty]
@[simp] theorem empty_apply (k : K) : (empty : Map K V) k = none := rfl

theorem mem_iff {M : Map K V} {k : K} : M.Mem k ↔ ∃ v, M k = some v := by
  simp [Mem, Option.ne_none_iff_exists']

theorem mem_of {M : Map K V} {k : K} {v : V} (h : M k = some v) : M.Mem k := by simp [Mem, h]

theorem not_mem {M : Map K V} {k : K} : ¬ M.Mem k ↔ M k = none := by simp [Mem]

section
variable [DecidableEq K]

theorem upd_apply (M : Map K V) (k j : K) (o : Option V) : M.upd k o j = if j = k then o else M j := rfl
@[simp] theorem upd_self (M : Map K V) (k : K) (o : Option V) : M.upd k o k = o := by simp [upd]
theorem upd_ne (M : Map K V) {k j : K} (o : Option V) (h : j ≠ k) : M.upd k o j = M j := by simp [upd, h]
@[simp] theorem upd_upd (M : Map K V) (k : K) (o o' : Option V) : (M.upd k o).upd k o' = M.upd k o' := by
  funext j; simp only [upd]; split <;> rfl
theorem upd_comm (M : Map K V) {k j : K} (o o' : Option V) (h : k ≠ j) :
    (M.upd k o).upd j o' = (M.upd j o').upd k o := by
  funext i; simp only [upd]; split <;> split <;> simp_all
theorem upd_eq_self (M : Map K V) (k : K) : M.upd k (M k) = M := by
  funext j; simp only [upd]; split <;> simp_all
theorem upd_none_of_none {M : Map K V} {k : K} (h : M k = none) : M.upd k none = M := by
  rw [← h, upd_eq_self]
theorem mem_upd_some (M : Map K V) (k j : K) (v : V) : (M.upd k (some v)).Mem j ↔ j = k ∨ M.Mem j := by
  simp only [Mem, upd]; split <;> simp_all
theorem mem_upd_none (M : Map K V) (k j : K) : (M.upd k none).Mem j ↔ j ≠ k ∧ M.Mem j := by
  simp only [Mem, upd]; split <;> simp_all
theorem single_apply (k j : K) (v : V) : single k v j = if j = k then some v else none := rfl
@[simp] theorem single_self (k : K) (v : V) : single k v k = some v := by simp [single]
theorem mem_single (k j : K) (v : V) : (single k v).Mem j ↔ j = k := by
  simp [single, mem_upd_some]
theorem single_upd (k : K) (v w : V) : (single k v).upd k (some w) = single k w := by simp [single]
theorem single_upd_none (k : K) (v : V) : (single k v).upd k none = (empty : Map K V) := by
  funext j; simp [single, upd, empty]

theorem isSingle_single (k : K) (v : V) : (single k v).IsSingle :=
  ⟨k, by simp [mem_single], fun j h => by simpa [mem_single] using h⟩

/-- A map with one key is a `single`. -/
theorem eq_single {M : Map K V} {k : K} {v : V} (h : M k = some v) (hu : ∀ j, M.Mem j → j = k) :
    M = single k v := by
  funext j
  rw [single_apply]
  split
  · simp_all
  · rename_i hj
    by_contra hc
    exact hj (hu j hc)

end

section
variable [LinearOrder K]

theorem isMin_single (k : K) (v : V) : (single k v).IsMin (k, v) := by
  refine ⟨by simp, fun j h => ?_⟩
  rw [mem_single] at h; simp [h]
theorem isMax_single (k : K) (v : V) : (single k v).IsMax (k, v) := by
  refine ⟨by simp, fun j h => ?_⟩
  rw [mem_single] at h; simp [h]

theorem IsMin.unique {M : Map K V} {a b : K × V} (ha : M.IsMin a) (hb : M.IsMin b) : a = b := by
  have h1 := ha.2 _ (mem_of hb.1)
  have h2 := hb.2 _ (mem_of ha.1)
  have h := le_antisymm h1 h2
  obtain ⟨a, va⟩ := a; obtain ⟨b, vb⟩ := b
  simp only at h; subst h
  have := ha.1.symm.trans hb.1
  simp_all
theorem IsMax.unique {M : Map K V} {a b : K × V} (ha : M.IsMax a) (hb : M.IsMax b) : a = b := by
  have h1 := ha.2 _ (mem_of hb.1)
  have h2 := hb.2 _ (mem_of ha.1)
  have h := le_antisymm h2 h1
  obtain ⟨a, va⟩ := a; obtain ⟨b, vb⟩ := b
  simp only at h; subst h
  have := ha.1.symm.trans hb.1
  simp_all

theorem IsPred.unique {M : Map K V} {k : K} {a b : Option (K × V)} (ha : M.IsPred k a)
    (hb : M.IsPred k b) : a = b := by
  cases a with
  | none =>
    cases b with
    | none => rfl
    | some b => exact absurd hb.2.1 (ha _ (mem_of hb.1))
  | some a =>
    cases b with
    | none => exact absurd ha.2.1 (hb _ (mem_of ha.1))
    | some b =>
      obtain ⟨a, va⟩ := a; obtain ⟨b, vb⟩ := b
      have h := le_antisymm (hb.2.2 _ (mem_of ha.1) ha.2.1) (ha.2.2 _ (mem_of hb.1) hb.2.1)
      subst h
      have := ha.1.symm.trans hb.1
      simp_all
theorem IsSucc.unique {M : Map K V} {k : K} {a b : Option (K × V)} (ha : M.IsSucc k a)
    (hb : M.IsSucc k b) : a = b := by
  cases a with
  | none =>
    cases b with
    | none => rfl
    | some b => exact absurd hb.2.1 (ha _ (mem_of hb.1))
  | some a =>
    cases b with
    | none => exact absurd ha.2.1 (hb _ (mem_of ha.1))
    | some b =>
      obtain ⟨a, va⟩ := a; obtain ⟨b, vb⟩ := b
      have h := le_antisymm (ha.2.2 _ (mem_of hb.1) hb.2.1) (hb.2.2 _ (mem_of ha.1) ha.2.1)
      subst h
      have := ha.1.symm.trans hb.1
      simp_all

theorem isPred_single (k j : K) (v : V) :
    (single k v).IsPred j (if k < j then some (k, v) else none) := by
  split
  · rename_i h
    exact ⟨by simp, h, fun i hi _ => by rw [mem_single] at hi; simp [hi]⟩
  · rename_i h
    intro i hi; rw [mem_single] at hi; subst hi; exact h
theorem isSucc_single (k j : K) (v : V) :
    (single k v).IsSucc j (if j < k then some (k, v) else none) := by
  split
  · rename_i h
    exact ⟨by simp, h, fun i hi _ => by rw [mem_single] at hi; simp [hi]⟩
  · rename_i h
    intro i hi; rw [mem_single] at hi; subst hi; exact h

/-! ### Extremes around an inner map -/

/-- `mn`, `mx` and the inner part `M`. -/
def ends (mn mx : K × V) (M : Map K V) : Map K V := (M.upd mx.1 (some mx.2)).upd mn.1 (some mn.2)

/-- All keys of `M` lie strictly between `a` and `b`. -/
def Between (M : Map K V) (a b : K) : Prop := ∀ k, M.Mem k → a < k ∧ k < b

theorem between_empty (a b : K) : (empty : Map K V).Between a b := fun k h => absurd h (mem_empty k)

section
variable {mn mx : K × V} {M : Map K V}

theorem mem_ends (k : K) : (ends mn mx M).Mem k ↔ k = mn.1 ∨ k = mx.1 ∨ M.Mem k := by
  simp [ends, mem_upd_some]

theorem ends_min : ends mn mx M mn.1 = some mn.2 := by simp [ends]

variable (hlt : mn.1 < mx.1) (hb : M.Between mn.1 mx.1)
include hlt

theorem ends_max : ends mn mx M mx.1 = some mx.2 := by
  rw [ends, upd_ne _ _ hlt.ne']; simp

theorem ends_not_single : ¬ (ends mn mx M).IsSingle := by
  rintro ⟨k, _, h⟩
  have h1 := h mn.1 ((mem_ends _).2 (.inl rfl))
  have h2 := h mx.1 ((mem_ends _).2 (.inr (.inl rfl)))
  exact hlt.ne (h1.trans h2.symm)

include hb

theorem inner_min : M mn.1 = none := by
  by_contra h; exact lt_irrefl _ (hb _ h).1
theorem inner_max : M mx.1 = none := by
  by_contra h; exact lt_irrefl _ (hb _ h).2

theorem ends_inner {k : K} (h1 : k ≠ mn.1) (h2 : k ≠ mx.1) : ends mn mx M k = M k := by
  rw [ends, upd_ne _ _ h1, upd_ne _ _ h2]

theorem ends_of_inner {k : K} {v : V} (h : M k = some v) : ends mn mx M k = some v := by
  have := hb k (mem_of h)
  rw [ends_inner hlt hb this.1.ne' this.2.ne, h]

theorem isMin_ends : (ends mn mx M).IsMin mn := by
  refine ⟨ends_min, fun j hj => ?_⟩
  rcases (mem_ends j).1 hj with h | h | h
  · rw [h]
  · rw [h]; exact hlt.le
  · exact (hb j h).1.le

theorem isMax_ends : (ends mn mx M).IsMax mx := by
  refine ⟨ends_max hlt, fun j hj => ?_⟩
  rcases (mem_ends j).1 hj with h | h | h
  · rw [h]; exact hlt.le
  · rw [h]
  · exact (hb j h).2.le

/-- below or at the minimum nothing precedes -/
theorem isPred_le {k : K} (h : k ≤ mn.1) : (ends mn mx M).IsPred k none := by
  intro j hj hlt'
  exact absurd ((isMin_ends hlt hb).2 j hj) (not_le.mpr (hlt'.trans_le h))

theorem isPred_gt {k : K} (h : mx.1 < k) : (ends mn mx M).IsPred k (some mx) :=
  ⟨ends_max hlt, h, fun j hj _ => (isMax_ends hlt hb).2 j hj⟩

theorem isPred_inner_none {k : K} (h1 : mn.1 < k) (h2 : k ≤ mx.1) (h : M.IsPred k none) :
    (ends mn mx M).IsPred k (some mn) := by
  refine ⟨ends_min, h1, fun j hj hjk => ?_⟩
  rcases (mem_ends j).1 hj with e | e | e
  · rw [e]
  · rw [e] at hjk; exact absurd hjk (not_lt.mpr h2)
  · exact absurd hjk (h j e)

theorem isPred_inner_some {k : K} {e : K × V} (h2 : k ≤ mx.1) (h : M.IsPred k (some e)) :
    (ends mn mx M).IsPred k (some e) := by
  refine ⟨ends_of_inner hlt hb h.1, h.2.1, fun j hj hjk => ?_⟩
  rcases (mem_ends j).1 hj with q | q | q
  · rw [q]; exact (hb _ (mem_of h.1)).1.le
  · rw [q] at hjk; exact absurd hjk (not_lt.mpr h2)
  · exact h.2.2 j q hjk

theorem isPred_max {e : K × V} (h : M.IsMax e) : (ends mn mx M).IsPred mx.1 (some e) :=
  isPred_inner_some hlt hb le_rfl ⟨h.1, (hb _ (mem_of h.1)).2, fun j hj _ => h.2 j hj⟩

theorem isSucc_lt {k : K} (h : k < mn.1) : (ends mn mx M).IsSucc k (some mn) :=
  ⟨ends_min, h, fun j hj _ => (isMin_ends hlt hb).2 j hj⟩

theorem isSucc_ge {k : K} (h : mx.1 ≤ k) : (ends mn mx M).IsSucc k none := by
  intro j hj hlt'
  exact absurd ((isMax_ends hlt hb).2 j hj) (not_le.mpr (h.trans_lt hlt'))

theorem isSucc_inner_none {k : K} (h1 : mn.1 ≤ k) (h2 : k < mx.1) (h : M.IsSucc k none) :
    (ends mn mx M).IsSucc k (some mx) := by
  refine ⟨ends_max hlt, h2, fun j hj hjk => ?_⟩
  rcases (mem_ends j).1 hj with e | e | e
  · rw [e] at hjk; exact absurd hjk (not_lt.mpr h1)
  · rw [e]
  · exact absurd hjk (h j e)

theorem isSucc_inner_some {k : K} {e : K × V} (h1 : mn.1 ≤ k) (h : M.IsSucc k (some e)) :
    (ends mn mx M).IsSucc k (some e) := by
  refine ⟨ends_of_inner hlt hb h.1, h.2.1, fun j hj hjk => ?_⟩
  rcases (mem_ends j).1 hj with q | q | q
  · rw [q] at hjk; exact absurd hjk (not_lt.mpr h1)
  · rw [q]; exact (hb _ (mem_of h.1)).2.le
  · exact h.2.2 j q hjk

theorem isSucc_min {e : K × V} (h : M.IsMin e) : (ends mn mx M).IsSucc mn.1 (some e) :=
  isSucc_inner_some hlt hb le_rfl ⟨h.1, (hb _ (mem_of h.1)).1, fun j hj _ => h.2 j hj⟩

/-! updates -/

omit hlt hb in
theorem ends_upd_min (w : V) : (ends mn mx M).upd mn.1 (some w) = ends (mn.1, w) mx M := by
  simp [ends]

omit hb in
theorem ends_upd_max (w : V) : (ends mn mx M).upd mx.1 (some w) = ends mn (mx.1, w) M := by
  simp only [ends]
  rw [upd_comm _ _ _ hlt.ne, upd_upd]

theorem ends_upd_inner {k : K} (o : Option V) (h1 : k ≠ mn.1) (h2 : k ≠ mx.1) :
    (ends mn mx M).upd k o = ends mn mx (M.upd k o) := by
  simp only [ends]
  rw [upd_comm _ _ _ h1.symm, upd_comm _ _ _ h2.symm]

/-- removing the maximum when the inner part has the maximum `e` -/
theorem ends_remove_max {e : K × V} (h : M.IsMax e) :
    (ends mn mx M).upd mx.1 none = ends mn e (M.upd e.1 none) := by
  have he := hb _ (mem_of h.1)
  funext j
  simp only [ends, upd]
  by_cases h1 : j = mn.1
  · have : mn.1 ≠ mx.1 := hlt.ne
    simp [h1, this]
  · by_cases h2 : j = mx.1
    · have hm := inner_max hlt hb
      simp only [h2, ↓reduceIte]
      simp [hlt.ne', he.2.ne', hm]
    · by_cases h3 : j = e.1
      · simp [h3, he.1.ne', he.2.ne, h.1]
      · simp [h1, h2, h3]

theorem ends_remove_min {e : K × V} (h : M.IsMin e) :
    (ends mn mx M).upd mn.1 none = ends e mx (M.upd e.1 none) := by
  have he := hb _ (mem_of h.1)
  funext j
  simp only [ends, upd]
  by_cases h1 : j = mn.1
  · have hm := inner_min hlt hb
    simp [h1, hlt.ne, he.1.ne, hm]
  · by_cases h2 : j = mx.1
    · simp [h2, hlt.ne', he.2.ne']
    · by_cases h3 : j = e.1
      · simp [h3, he.1.ne', he.2.ne, h.1]
      · simp [h1, h2, h3]

theorem between_remove_max {e : K × V} (h : M.IsMax e) : (M.upd e.1 none).Between mn.1 e.1 := by
  intro k hk
  rw [mem_upd_none] at hk
  exact ⟨(hb k hk.2).1, lt_of_le_of_ne (h.2 k hk.2) hk.1⟩

theorem between_remove_min {e : K × V} (h : M.IsMin e) : (M.upd e.1 none).Between e.1 mx.1 := by
  intro k hk
  rw [mem_upd_none] at hk
  exact ⟨lt_of_le_of_ne (h.2 k hk.2) (Ne.symm hk.1), (hb k hk.2).2⟩

end

theorem ends_empty_remove_max {mn mx : K × V} (hlt : mn.1 < mx.1) :
    (ends mn mx empty).upd mx.1 none = single mn.1 mn.2 := by
  funext j
  simp only [ends, upd, single, empty]
  by_cases h1 : j = mx.1
  · simp [h1, hlt.ne']
  · simp [h1]

theorem ends_empty_remove_min {mn mx : K × V} (hlt : mn.1 < mx.1) :
    (ends mn mx empty).upd mn.1 none = single mx.1 mx.2 := by
  funext j
  simp only [ends, upd, single, empty]
  by_cases h1 : j = mn.1
  · simp [h1, hlt.ne]
  · simp [h1]

/-- a new maximum: the old one moves inside -/
theorem ends_new_max {mn mx : K × V} {M : Map K V} {k : K} (v : V) (hlt : mn.1 < mx.1)
    (h : mx.1 < k) :
    (ends mn mx M).upd k (some v) = ends mn (k, v) (M.upd mx.1 (some mx.2)) := by
  funext j
  simp only [ends, upd]
  have h3 := hlt.trans h
  by_cases h1 : j = k
  · simp [h1, h3.ne']
  · simp [h1]

/-- a new minimum: the old one moves inside -/
theorem ends_new_min {mn mx : K × V} {M : Map K V} {k : K} (v : V) (hlt : mn.1 < mx.1)
    (h : k < mn.1) :
    (ends mn mx M).upd k (some v) = ends (k, v) mx (M.upd mn.1 (some mn.2)) := by
  funext j
  simp only [ends, upd]
  by_cases h1 : j = mn.1
  · simp [h1, h.ne', hlt.ne]
  · simp [h1]

theorem ends_mono_single_lt {k : K} {v : V} {mn : K × V} :
    (single mn.1 mn.2).upd k (some v) = ends (k, v) mn empty := by
  funext j; simp [ends, upd, single, empty]

theorem ends_mono_single_gt {k : K} {v : V} {mn : K × V} (h : mn.1 < k) :
    (single mn.1 mn.2).upd k (some v) = ends mn (k, v) empty := by
  funext j
  simp only [ends, upd, single, empty]
  by_cases h1 : j = k
  · simp [h1, h.ne']
  · simp [h1]

end
end Map
end Veb
