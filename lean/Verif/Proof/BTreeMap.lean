import Verif.Proof.SLLemmas
import Verif.Proof.Wrappers

/-!
`BTreeMap` is lawful.
-/

set_option linter.unusedSectionVars false

namespace Veb
namespace BTreeMap
variable {K V : Type} [LinearOrder K]

def Inv (t : BTreeMap K V) : Prop := SL.Sorted t.entries ∧ t.entries ≠ []
def abs (t : BTreeMap K V) : Map K V := SL.toMap t.entries

theorem lists {t : BTreeMap K V} (I : t.Inv) : SL.Lists t.entries t.abs := SL.lists_toMap I.1

/-- a tree whose entries list a nonempty map -/
theorem of_lists {l : SL K V} {M : Map K V} (h : SL.Lists l M) (hne : l ≠ []) :
    (⟨l⟩ : BTreeMap K V).Inv ∧ (⟨l⟩ : BTreeMap K V).abs = M := ⟨⟨h.1, hne⟩, h.toMap_eq⟩

theorem stdInsert_eq {l : SL K V} (h : SL.Sorted l) (k : K) (v : V) (hn : SL.find l k = none) :
    stdInsert k v l = SL.insert l k v := by
  induction l with
  | nil => rfl
  | cons p l ih =>
    have hne : p.1 ≠ k := by
      intro e
      have := List.find?_eq_none.1 hn p (List.mem_cons_self)
      simp [e] at this
    have hn' : SL.find l k = none := by
      rw [SL.find, List.find?_eq_none] at hn ⊢
      exact fun q hq => hn q (List.mem_cons_of_mem _ hq)
    rcases lt_or_gt_of_ne hne with hlt | hlt
    · simp only [stdInsert, cmp_gt hlt, ih h.tail hn', SL.insert]
      rw [List.filter_cons_of_pos (by simpa using hlt), List.filter_cons_of_neg (by simpa using hlt.le)]
      rfl
    · have h1 : List.filter (fun q : K × V => decide (q.1 < k)) (p :: l) = [] := by
        rw [List.filter_eq_nil_iff]
        intro q hq
        rcases List.mem_cons.1 hq with rfl | hq
        · simpa using hlt.le
        · simpa using (hlt.trans (h.head q hq)).le
      have h2 : List.filter (fun q : K × V => decide (k < q.1)) (p :: l) = p :: l := by
        rw [List.filter_eq_self]
        intro q hq
        rcases List.mem_cons.1 hq with rfl | hq
        · simpa using hlt
        · simpa using hlt.trans (h.head q hq)
      simp only [stdInsert, cmp_lt hlt, SL.insert, h1, h2]
      rfl

theorem stdPut_eq (l : SL K V) (k : K) (v : V) : stdPut l k v = SL.set l k v := by
  apply List.map_congr_left
  intro p _
  by_cases e : p.1 = k <;> simp [e]

theorem put_ok {t : BTreeMap K V} (I : t.Inv) {p : K × V} (hp : t.abs.Mem p.1) :
    PutOk Inv abs t p.1 (t.mutAt p).2.2 := by
  intro w
  have := (lists I).set w hp
  simp only [mutAt, stdPut_eq]
  refine of_lists this ?_
  rw [SL.set]
  simpa using I.2

theorem mut_ok {t : BTreeMap K V} (I : t.Inv) {Q : Option (K × V) → Prop} {o : Option (K × V)} (h : Q o)
    (hm : ∀ p, o = some p → t.abs p.1 = some p.2) : MutOk Inv abs t Q (o.map t.mutAt) := by
  obtain _ | p := o
  · exact ⟨h, by simp⟩
  · refine ⟨h, ?_⟩
    rintro _ _ _ ⟨⟩
    exact put_ok I (Map.mem_of (hm p rfl))

theorem getMin {t : BTreeMap K V} (I : t.Inv) : ∃ e, t.entries.head? = some e ∧ t.abs.IsMin e := by
  rcases h : t.entries.head? with _ | e
  · exact absurd (List.head?_eq_none_iff.1 h) I.2
  · exact ⟨e, rfl, (lists I).minE.1 h⟩

theorem getMax {t : BTreeMap K V} (I : t.Inv) : ∃ e, t.entries.getLast? = some e ∧ t.abs.IsMax e := by
  rcases h : t.entries.getLast? with _ | e
  · exact absurd (List.getLast?_eq_none_iff.1 h) I.2
  · exact ⟨e, rfl, (lists I).maxE.1 h⟩

theorem rem_ok {l : SL K V} {M : Map K V} (h : SL.Lists l M) :
    RemOk Inv abs M (if l.isEmpty then none else some (⟨l⟩ : BTreeMap K V)) := by
  split
  · rename_i he
    exact (h.nil_iff).1 (List.isEmpty_iff.1 he)
  · rename_i he
    exact of_lists h (by simpa using he)

theorem stdGet_eq {t : BTreeMap K V} (I : t.Inv) (k : K) :
    stdGet t.entries k = (t.abs k).map fun v => (k, v) := (lists I).find k

instance : LawfulVebTree (BTreeMap K V) K V where
  Inv := Inv
  abs := abs
  Safe _ _ := True
  nonempty t I := by
    obtain ⟨e, _, h⟩ := getMin I
    exact ⟨e.1, Map.mem_of h.1⟩
  finite t I := (lists I).finite
  fromMonad k v := of_lists (l := [(k, v)]) (SL.lists_single k v) (by simp)
  isMonad t I := ⟨_, rfl, by rw [decide_eq_true_eq, (lists I).length_one]⟩
  lenHint t I := ⟨_, _, rfl, (lists I).card.ge, by rintro _ ⟨⟩; exact (lists I).card⟩
  intoMonad t I := by
    by_cases h1 : t.entries.length = 1
    · left
      obtain ⟨⟨k, v⟩, hp⟩ := List.length_eq_one_iff.1 h1
      refine ⟨k, v, ?_, ?_⟩
      · show intoMonad t = _
        simp [intoMonad, isMonad, hp]
      · have := lists I
        rw [hp] at this
        exact this.ext (SL.lists_single k v)
    · right
      refine ⟨?_, fun h => h1 ((lists I).length_one.2 h)⟩
      show intoMonad t = _
      simp [intoMonad, isMonad, h1]
  minVal t I := by
    obtain ⟨e, h1, h2⟩ := getMin I
    exact ⟨e, by show minVal t = _; simp [minVal, h1], h2⟩
  minValMut t I := by
    obtain ⟨e, h1, h2⟩ := getMin I
    exact ⟨t.mutAt e, by show minValMut t = _; simp [minValMut, h1], h2, put_ok I (Map.mem_of h2.1)⟩
  maxVal t I := by
    obtain ⟨e, h1, h2⟩ := getMax I
    exact ⟨e, by show maxVal t = _; simp [maxVal, h1], h2⟩
  maxValMut t I := by
    obtain ⟨e, h1, h2⟩ := getMax I
    exact ⟨t.mutAt e, by show maxValMut t = _; simp [maxValMut, h1], h2, put_ok I (Map.mem_of h2.1)⟩
  find t k I := by
    show find t k = _
    simp [find, stdGet_eq I]
  findMut t k I := by
    have he : (t.entries.filter (fun p => decide (k ≤ p.1 ∧ p.1 ≤ k))).head? = stdGet t.entries k := by
      rw [stdGet, List.head?_filter]
      congr 1
      funext p
      rw [decide_eq_decide]
      exact ⟨fun h => le_antisymm h.2 h.1, fun h => by simp [h]⟩
    refine ⟨(stdGet t.entries k).map t.mutAt, by show findMut t k = _; rw [← he]; rfl, mut_ok I ?_ ?_⟩
    · exact stdGet_eq I k
    · intro p hp
      exact (lists I).mem_iff.1 (List.mem_of_find?_eq_some hp)
  predecessor t k I := ⟨_, rfl, (lists I).pred k⟩
  predecessorMut t k I := by
    refine ⟨_, rfl, mut_ok I ((lists I).pred k) ?_⟩
    intro p hp
    exact (lists I).mem_iff.1 (List.mem_filter.1 (List.mem_of_getLast? hp)).1
  successor t k I := ⟨_, rfl, (lists I).succ k⟩
  successorMut t k I := by
    refine ⟨_, rfl, mut_ok I ((lists I).succ k) ?_⟩
    intro p hp
    exact (lists I).mem_iff.1 (List.mem_filter.1 (List.mem_of_head? hp)).1
  insert t k v I _ := by
    rcases h : t.abs k with _ | w
    · have hf : SL.find t.entries k = none := by rw [(lists I).find k, h]; rfl
      refine ⟨⟨stdInsert k v t.entries⟩, ?_, ?_⟩
      · show insert t k v = _
        simp [insert, stdGet_eq I, h]
      · rw [stdInsert_eq I.1 k v hf]
        exact of_lists ((lists I).insert k v) (by simp [SL.insert])
    · refine ⟨⟨stdPut t.entries k v⟩, ?_, ?_⟩
      · show insert t k v = _
        simp [insert, stdGet_eq I, h]
      · exact put_ok I (p := (k, w)) (Map.mem_of h) v
  remove_none t k I hk := by
    show remove t k = _
    simp [remove, isMonad, stdGet_eq I, hk]
  remove_some t k v I hk := by
    have hl := (lists I).erase k
    by_cases h1 : t.entries.length = 1
    · refine ⟨none, ?_, ?_⟩
      · show remove t k = _
        simp [remove, isMonad, stdGet_eq I, hk, h1]
      · obtain ⟨p, hp⟩ := List.length_eq_one_iff.1 h1
        have hm : (k, v) ∈ t.entries := (lists I).mem_iff.2 hk
        rw [hp, List.mem_singleton] at hm
        rw [hp, ← hm] at hl
        have : SL.erase [(k, v)] k = [] := by simp [SL.erase]
        rw [this] at hl
        exact hl.nil_iff.1 rfl
    · refine ⟨some ⟨stdErase t.entries k⟩, ?_, of_lists hl ?_⟩
      · show remove t k = _
        simp [remove, isMonad, stdGet_eq I, hk, h1]
      · intro he
        have hc := hl.card
        have h2 := Map.card_upd_none (lists I).finite (Map.mem_of hk)
        change _ = (stdErase t.entries k).length at hc
        rw [he, List.length_nil] at hc
        rw [hc, (lists I).card] at h2
        omega
  removeMin t I := by
    obtain ⟨e, h1, h2⟩ := getMin I
    refine ⟨_, e, ?_, h2, rem_ok ((lists I).tail h1)⟩
    show removeMin t = _
    simp [removeMin, h1]
  removeMax t I := by
    obtain ⟨e, h1, h2⟩ := getMax I
    refine ⟨_, e, ?_, h2, rem_ok ((lists I).dropLast h1)⟩
    show removeMax t = _
    simp [removeMax, h1]

instance : MonoSafe (BTreeMap K V) K V := ⟨fun _ _ _ _ => trivial, fun _ _ _ _ _ => trivial⟩

end BTreeMap
end Veb
