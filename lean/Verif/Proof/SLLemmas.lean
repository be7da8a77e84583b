import Verif.Proof.MapLemmas
import Mathlib.Data.Set.Finite.List
import Mathlib.Data.List.Nodup
import Mathlib.Data.List.Sort

/-!
The ordered association list of the specification, related to partial maps.
-/

set_option linter.unusedSectionVars false

namespace Veb
namespace SL
variable {K V : Type} [LinearOrder K] {l : SL K V} {M : Map K V}

theorem Sorted.tail {p : K × V} (h : Sorted (p :: l)) : Sorted l := (List.pairwise_cons.1 h).2
theorem Sorted.head {p : K × V} (h : Sorted (p :: l)) : ∀ q ∈ l, p.1 < q.1 := (List.pairwise_cons.1 h).1
theorem Sorted.sublist {l' : SL K V} (h : Sorted l) (hs : l'.Sublist l) : Sorted l' := List.Pairwise.sublist hs h
theorem Sorted.filter {p : K × V → Bool} (h : Sorted l) : Sorted (l.filter p) := h.sublist List.filter_sublist

theorem Sorted.inj (h : Sorted l) {a b : K × V} (ha : a ∈ l) (hb : b ∈ l) (e : a.1 = b.1) : a = b := by
  induction l with
  | nil => cases ha
  | cons p l ih =>
    rcases List.mem_cons.1 ha with rfl | ha'
    · rcases List.mem_cons.1 hb with rfl | hb'
      · rfl
      · exact absurd e (h.head b hb').ne
    · rcases List.mem_cons.1 hb with rfl | hb'
      · exact absurd e.symm (h.head a ha').ne
      · exact ih h.tail ha' hb'

theorem Lists.mem_iff (h : Lists l M) {p : K × V} : p ∈ l ↔ M p.1 = some p.2 := h.2 p.1 p.2

theorem Lists.mem_key (h : Lists l M) {k : K} : M.Mem k ↔ ∃ v, (k, v) ∈ l := by
  rw [Map.mem_iff]
  exact ⟨fun ⟨v, e⟩ => ⟨v, (h.2 k v).2 e⟩, fun ⟨v, e⟩ => ⟨v, (h.2 k v).1 e⟩⟩

theorem Lists.keys (h : Lists l M) : SL.keys l = M.Mem := by
  funext k; exact propext h.mem_key.symm

theorem Lists.ext {M' : Map K V} (h : Lists l M) (h' : Lists l M') : M = M' := by
  funext k
  apply Option.ext
  intro v
  rw [← h.2, ← h'.2]

theorem Lists.find (h : Lists l M) (k : K) : SL.find l k = (M k).map fun v => (k, v) := by
  rcases hf : SL.find l k with _ | p
  · rcases hm : M k with _ | v
    · rfl
    · have := List.find?_eq_none.1 hf (k, v) ((h.2 k v).2 hm)
      simp at this
  · have h1 := List.mem_of_find?_eq_some hf
    have h2 := List.find?_some hf
    simp only [decide_eq_true_eq] at h2
    have := (h.2 p.1 p.2).1 h1
    subst h2
    simp [this]

theorem lists_toMap (h : Sorted l) : Lists l (toMap l) := by
  refine ⟨h, fun k v => ?_⟩
  rcases hf : SL.find l k with _ | p
  · simp only [toMap, hf, Option.map_none, reduceCtorEq, iff_false]
    intro hm
    have := List.find?_eq_none.1 hf (k, v) hm
    simp at this
  · have h1 := List.mem_of_find?_eq_some hf
    have h2 := List.find?_some hf
    simp only [decide_eq_true_eq] at h2
    simp only [toMap, hf, Option.map_some, Option.some.injEq]
    subst h2
    constructor
    · intro hm
      have := h.inj h1 hm rfl
      rw [this]
    · rintro rfl
      exact h1

theorem Lists.toMap_eq (h : Lists l M) : toMap l = M := (lists_toMap h.1).ext h

theorem lists_nil : Lists ([] : SL K V) Map.empty := ⟨List.Pairwise.nil, by simp⟩

theorem Lists.nil_iff (h : Lists l M) : l = [] ↔ M = Map.empty := by
  constructor
  · rintro rfl
    exact h.ext lists_nil
  · rintro rfl
    rw [List.eq_nil_iff_forall_not_mem]
    intro p hp
    have := h.mem_iff.1 hp
    simp at this

theorem lists_single (k : K) (v : V) : Lists [(k, v)] (Map.single k v) := by
  refine ⟨List.pairwise_singleton _ _, fun j w => ?_⟩
  rw [Map.single_apply]
  by_cases e : j = k
  · simp [e, eq_comm]
  · simp [e]

theorem Lists.finite (h : Lists l M) : Set.Finite {k | M.Mem k} := by
  have : {k | M.Mem k} ⊆ {k | k ∈ l.map Prod.fst} := by
    intro k hk
    obtain ⟨v, hv⟩ := h.mem_key.1 hk
    exact List.mem_map.2 ⟨_, hv, rfl⟩
  exact Set.Finite.subset (List.finite_toSet _) this

theorem Sorted.nodup_keys (h : Sorted l) : (l.map Prod.fst).Nodup := by
  have : (l.map Prod.fst).Pairwise (· < ·) := List.pairwise_map.2 h
  exact this.imp fun h => h.ne

theorem Lists.card (h : Lists l M) : M.card = l.length := by
  have : {k | M.Mem k} = ↑(l.map Prod.fst).toFinset := by
    ext k
    simp only [Set.mem_ofPred_eq, List.coe_toFinset, List.mem_map, h.mem_key]
    constructor
    · rintro ⟨v, hv⟩; exact ⟨_, hv, rfl⟩
    · rintro ⟨p, hp, rfl⟩; exact ⟨p.2, hp⟩
  rw [Map.card, this, Set.ncard_coe_finset, List.toFinset_card_of_nodup h.1.nodup_keys, List.length_map]

theorem Lists.length_one (h : Lists l M) : l.length = 1 ↔ M.IsSingle := by
  constructor
  · intro h1
    obtain ⟨p, rfl⟩ := List.length_eq_one_iff.1 h1
    refine ⟨p.1, Map.mem_of (h.mem_iff.1 (List.mem_singleton.2 rfl)), fun j hj => ?_⟩
    obtain ⟨v, hv⟩ := h.mem_key.1 hj
    rw [List.mem_singleton] at hv
    rw [← hv]
  · rintro ⟨k, hk, hu⟩
    have : M.card = 1 := by
      rw [Map.card, Set.ncard_eq_one]
      refine ⟨k, ?_⟩
      ext j
      simp only [Set.mem_ofPred_eq, Set.mem_singleton_iff]
      exact ⟨hu j, fun e => e ▸ hk⟩
    rw [← h.card, this]

theorem Lists.minE {e : K × V} (h : Lists l M) : SL.minE l = some e ↔ M.IsMin e := by
  constructor
  · intro he
    obtain ⟨l', rfl⟩ : ∃ l', l = e :: l' := by
      cases l with
      | nil => cases he
      | cons p l => cases he; exact ⟨l, rfl⟩
    refine ⟨h.mem_iff.1 (List.mem_cons_self), fun j hj => ?_⟩
    obtain ⟨v, hv⟩ := h.mem_key.1 hj
    rcases List.mem_cons.1 hv with hv | hv
    · rw [← hv]
    · exact (h.1.head _ hv).le
  · intro he
    cases l with
    | nil => exact absurd (h.mem_iff.2 he.1) (by simp)
    | cons p l =>
      have hp := h.mem_iff.1 (List.mem_cons_self (a := p) (l := l))
      have hle := he.2 p.1 (Map.mem_of hp)
      rcases List.mem_cons.1 (h.mem_iff.2 he.1) with e1 | e1
      · rw [e1]; rfl
      · exact absurd (h.1.head _ e1) (not_lt.mpr hle)

theorem sorted_getLast {e : K × V} (h : Sorted l) (he : l.getLast? = some e) : ∀ q ∈ l, q.1 ≤ e.1 := by
  obtain ⟨l', rfl⟩ := List.getLast?_eq_some_iff.1 he
  intro q hq
  rcases List.mem_append.1 hq with h1 | h1
  · exact ((List.pairwise_append.1 h).2.2 q h1 e (List.mem_singleton.2 rfl)).le
  · rw [List.mem_singleton.1 h1]

theorem Lists.maxE {e : K × V} (h : Lists l M) : SL.maxE l = some e ↔ M.IsMax e := by
  constructor
  · intro he
    refine ⟨h.mem_iff.1 (List.mem_of_getLast? he), fun j hj => ?_⟩
    obtain ⟨v, hv⟩ := h.mem_key.1 hj
    exact sorted_getLast h.1 he _ hv
  · intro he
    have hm := h.mem_iff.2 he.1
    rcases hl : l.getLast? with _ | p
    · rw [List.getLast?_eq_none_iff] at hl
      rw [hl] at hm; cases hm
    · have h1 := sorted_getLast h.1 hl _ hm
      have hp := List.mem_of_getLast? hl
      have h2 := he.2 p.1 (Map.mem_of (h.mem_iff.1 hp))
      rw [SL.maxE, hl, h.1.inj hp hm (le_antisymm h2 h1)]

theorem Lists.pred (h : Lists l M) (k : K) : M.IsPred k (SL.pred l k) := by
  rcases hp : SL.pred l k with _ | p
  · intro j hj hlt
    obtain ⟨v, hv⟩ := h.mem_key.1 hj
    have : (j, v) ∈ l.filter (fun p => decide (p.1 < k)) := List.mem_filter.2 ⟨hv, by simpa using hlt⟩
    rw [SL.pred, List.getLast?_eq_none_iff] at hp
    rw [hp] at this
    cases this
  · have hm := List.mem_filter.1 (List.mem_of_getLast? hp)
    refine ⟨h.mem_iff.1 hm.1, by simpa using hm.2, fun j hj hlt => ?_⟩
    obtain ⟨v, hv⟩ := h.mem_key.1 hj
    exact sorted_getLast h.1.filter hp _ (List.mem_filter.2 ⟨hv, by simpa using hlt⟩)

theorem sorted_head {e : K × V} (h : Sorted l) (he : l.head? = some e) : ∀ q ∈ l, e.1 ≤ q.1 := by
  cases l with
  | nil => cases he
  | cons p l =>
    cases he
    intro q hq
    rcases List.mem_cons.1 hq with rfl | h1
    · exact le_rfl
    · exact (h.head q h1).le

theorem Lists.succ (h : Lists l M) (k : K) : M.IsSucc k (SL.succ l k) := by
  rcases hp : SL.succ l k with _ | p
  · intro j hj hlt
    obtain ⟨v, hv⟩ := h.mem_key.1 hj
    have : (j, v) ∈ l.filter (fun p => decide (k < p.1)) := List.mem_filter.2 ⟨hv, by simpa using hlt⟩
    rw [SL.succ, List.head?_eq_none_iff] at hp
    rw [hp] at this
    cases this
  · have hm := List.mem_filter.1 (List.mem_of_head? hp)
    refine ⟨h.mem_iff.1 hm.1, by simpa using hm.2, fun j hj hlt => ?_⟩
    obtain ⟨v, hv⟩ := h.mem_key.1 hj
    exact sorted_head h.1.filter hp _ (List.mem_filter.2 ⟨hv, by simpa using hlt⟩)

theorem Lists.pred_eq (h : Lists l M) {k : K} {r : Option (K × V)} (hr : M.IsPred k r) : r = SL.pred l k :=
  hr.unique (h.pred k)
theorem Lists.succ_eq (h : Lists l M) {k : K} {r : Option (K × V)} (hr : M.IsSucc k r) : r = SL.succ l k :=
  hr.unique (h.succ k)

theorem Lists.insert (h : Lists l M) (k : K) (v : V) : Lists (SL.insert l k v) (M.upd k (some v)) := by
  refine ⟨?_, fun j w => ?_⟩
  · refine List.pairwise_append.2 ⟨h.1.filter, List.pairwise_cons.2 ⟨?_, h.1.filter⟩, ?_⟩
    · intro q hq
      simpa using (List.mem_filter.1 hq).2
    · intro a ha b hb
      have h1 : a.1 < k := by simpa using (List.mem_filter.1 ha).2
      rcases List.mem_cons.1 hb with rfl | hb
      · exact h1
      · exact h1.trans (by simpa using (List.mem_filter.1 hb).2)
  · rw [Map.upd_apply]
    simp only [SL.insert, List.mem_append, List.mem_filter, List.mem_cons, decide_eq_true_eq, h.2,
      Prod.mk.injEq]
    by_cases e : j = k
    · subst e
      simp [eq_comm]
    · simp only [e, if_false, false_and, false_or]
      constructor
      · rintro (⟨a, -⟩ | ⟨a, -⟩) <;> exact a
      · intro a
        rcases lt_or_gt_of_ne e with b | b
        · exact .inl ⟨a, b⟩
        · exact .inr ⟨a, b⟩

theorem Lists.erase (h : Lists l M) (k : K) : Lists (SL.erase l k) (M.upd k none) := by
  refine ⟨h.1.filter, fun j w => ?_⟩
  rw [Map.upd_apply]
  simp only [SL.erase, List.mem_filter, decide_eq_true_eq, h.2]
  by_cases e : j = k <;> simp [e]

theorem Lists.set (h : Lists l M) {k : K} (v : V) (hk : M.Mem k) :
    Lists (SL.set l k v) (M.upd k (some v)) := by
  refine ⟨?_, fun j w => ?_⟩
  · refine List.pairwise_map.2 (h.1.imp ?_)
    intro a b hab
    split <;> split <;> simp_all
  · rw [Map.upd_apply]
    simp only [SL.set, List.mem_map]
    by_cases e : j = k
    · subst e
      simp only [if_true, Option.some.injEq]
      constructor
      · rintro ⟨p, hp, he⟩
        split at he
        · cases he; rfl
        · rename_i hne
          cases he
          exact absurd rfl hne
      · rintro rfl
        obtain ⟨u, hu⟩ := h.mem_key.1 hk
        exact ⟨(j, u), hu, by simp⟩
    · simp only [e, if_false, ← h.2]
      constructor
      · rintro ⟨p, hp, he⟩
        split at he
        · cases he; exact absurd rfl e
        · rw [← he]; exact hp
      · intro hm
        exact ⟨(j, w), hm, by simp [e]⟩

theorem Lists.tail (h : Lists l M) {e : K × V} (he : SL.minE l = some e) :
    Lists l.tail (M.upd e.1 none) := by
  cases l with
  | nil => cases he
  | cons p l =>
    cases he
    have := h.erase e.1
    have e2 : SL.erase (e :: l) e.1 = l := by
      rw [SL.erase, List.filter_cons_of_neg (by simp), List.filter_eq_self]
      intro q hq
      simpa using (h.1.head q hq).ne'
    rw [e2] at this
    exact this

theorem Lists.dropLast (h : Lists l M) {e : K × V} (he : SL.maxE l = some e) :
    Lists l.dropLast (M.upd e.1 none) := by
  obtain ⟨l', rfl⟩ := List.getLast?_eq_some_iff.1 he
  have := h.erase e.1
  have e2 : SL.erase (l' ++ [e]) e.1 = l' := by
    rw [SL.erase, List.filter_append, List.filter_cons_of_neg (by simp), List.filter_nil, List.append_nil,
      List.filter_eq_self]
    intro q hq
    simpa using ((List.pairwise_append.1 h.1).2.2 q hq e (List.mem_singleton.2 rfl)).ne
  rw [e2] at this
  simpa using this

/-- Two lists of the same map are equal. -/
theorem Lists.unique {l' : SL K V} (h : Lists l M) (h' : Lists l' M) : l = l' := by
  have hp : l.Perm l' := by
    have n1 : l.Nodup := h.1.imp fun h e => absurd (e ▸ h) (lt_irrefl _)
    have n2 : l'.Nodup := h'.1.imp fun h e => absurd (e ▸ h) (lt_irrefl _)
    exact (List.perm_ext_iff_of_nodup n1 n2).2 fun p => by rw [h.mem_iff, h'.mem_iff]
  have h1 := h.1
  refine List.Perm.eq_of_pairwise (le := fun a b : K × V => a.1 < b.1) ?_ h.1 h'.1 hp
  intro a b _ _ h1 h2
  exact absurd (h1.trans h2) (lt_irrefl _)

/-- Every map with finitely many keys has a list. -/
theorem exists_lists (hf : Set.Finite {k | M.Mem k}) : ∃ l, Lists l M := by
  generalize hn : M.card = n
  induction n generalizing M with
  | zero =>
    have : M = Map.empty := by
      rw [Map.card, Set.ncard_eq_zero hf] at hn
      funext j
      have : j ∉ {j | M.Mem j} := by rw [hn]; exact Set.notMem_empty j
      exact Map.not_mem.1 this
    exact ⟨[], this ▸ lists_nil⟩
  | succ n ih =>
    have hpos : 0 < Set.ncard {k | M.Mem k} := by rw [Map.card] at hn; omega
    obtain ⟨k, hk⟩ := (Set.ncard_pos hf).1 hpos
    have hs : {j | (M.upd k none).Mem j} = {j | M.Mem j} \ {k} := by
      ext j
      simp only [Set.mem_ofPred_eq, Map.mem_upd_none, Set.mem_sdiff, Set.mem_singleton_iff]
      tauto
    have hc : (M.upd k none).card = n := by
      rw [Map.card, hs]
      have := Set.ncard_sdiff_singleton_add_one hk hf
      rw [Map.card] at hn
      omega
    obtain ⟨l, hl⟩ := ih (by rw [hs]; exact hf.subset Set.sdiff_subset) hc
    obtain ⟨v, hv⟩ := Map.mem_iff.1 hk
    refine ⟨SL.insert l k v, ?_⟩
    have := hl.insert k v
    rw [Map.upd_upd, ← hv, Map.upd_eq_self] at this
    exact this

end SL
end Veb
