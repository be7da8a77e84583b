import Verif.Model.ByteMap
import Verif.Proof.ByteSet
import Verif.Proof.Tree
import Verif.Proof.Collection

/-!
`ByteMap` is lawful, as a tree and as a collection of trees: the payload of key `k` sits at position "number
of keys below `k`".
-/

namespace Veb

/-- number of `i < n` with `p i` -/
abbrev cnt (p : Nat → Bool) (n : Nat) : Nat := (List.range n).countP p

theorem cnt_succ (p : Nat → Bool) (n : Nat) : cnt p (n + 1) = cnt p n + if p n then 1 else 0 := by
  rw [cnt, List.range_succ, List.countP_append, List.countP_singleton]

theorem cnt_mono (p : Nat → Bool) {a b : Nat} (h : a ≤ b) : cnt p a ≤ cnt p b :=
  List.Sublist.countP_le (List.range_sublist.2 h)

theorem cnt_lt {p : Nat → Bool} {a b : Nat} (h : a < b) (ha : p a = true) : cnt p a < cnt p b := by
  have := cnt_mono p h
  rw [Nat.succ_eq_add_one, cnt_succ, if_pos ha] at this
  omega

theorem cnt_set {p q : Nat → Bool} {k : Nat} (hq : ∀ n, q n = (p n || decide (n = k))) (hk : p k = false)
    (n : Nat) : cnt q n = cnt p n + if k < n then 1 else 0 := by
  induction n with
  | zero => simp [cnt]
  | succ n ih =>
    rw [cnt_succ, cnt_succ, ih, hq]
    rcases lt_trichotomy k n with h | h | h
    · have h1 : n ≠ k := by omega
      have h2 : k < n + 1 := by omega
      simp [h, h1, h2]; omega
    · subst h; simp [hk]
    · have h1 : n ≠ k := by omega
      have h2 : ¬ k < n + 1 := by omega
      have h3 : ¬ k < n := by omega
      simp [h1, h2, h3]

theorem cnt_unset {p q : Nat → Bool} {k : Nat} (hq : ∀ n, q n = (p n && !decide (n = k))) (hk : p k = true)
    (n : Nat) : cnt p n = cnt q n + if k < n then 1 else 0 := by
  refine cnt_set (p := q) (q := p) (fun n => ?_) (by rw [hq]; simp) n
  rw [hq]
  by_cases h : n = k
  · simp [h, hk]
  · simp [h]

namespace ByteMap
open Words ByteSet
variable {A V : Type}

def Inv (m : ByteMap A) : Prop := m.set.Inv ∧ m.list.length = cnt m.set.words.bitAt 256

def abs (m : ByteMap A) : Map (U 8) A :=
  fun k => if m.set.words.bitAt (nat k) then m.list[cnt m.set.words.bitAt (nat k)]? else none

theorem rank_lt {m : ByteMap A} (I : m.Inv) {k : U 8} (h : m.set.words.bitAt (nat k) = true) :
    cnt m.set.words.bitAt (nat k) < m.list.length := by
  rw [I.2]
  exact cnt_lt (nat_lt k) h

theorem get_ok {m : ByteMap A} (I : m.Inv) {k : U 8} (h : m.set.words.bitAt (nat k) = true) :
    ∃ a, m.list[cnt m.set.words.bitAt (nat k)]? = some a ∧ m.abs k = some a := by
  refine ⟨_, List.getElem?_eq_getElem (rank_lt I h), ?_⟩
  rw [abs, if_pos h, List.getElem?_eq_getElem (rank_lt I h)]

theorem mem_abs {m : ByteMap A} (I : m.Inv) {k : U 8} : m.abs.Mem k ↔ m.set.words.bitAt (nat k) = true := by
  constructor
  · intro h
    by_contra hc
    exact h (by simp [abs, hc])
  · intro h
    obtain ⟨a, _, ha⟩ := get_ok I h
    exact Map.mem_of ha

theorem mem_set {m : ByteMap A} (I : m.Inv) {k : U 8} : m.abs.Mem k ↔ m.set.abs.Mem k := by
  rw [mem_abs I, ByteSet.mem_abs]

theorem abs_none {m : ByteMap A} (I : m.Inv) {k : U 8} (h : m.abs k = none) :
    m.set.words.bitAt (nat k) = false := by
  by_contra hc
  exact (mem_abs I).2 (by simpa using hc) h

theorem rank_ne {m : ByteMap A} {k j : U 8} (h : m.set.words.bitAt (nat k) = true)
    (hj : m.set.words.bitAt (nat j) = true) (hne : j ≠ k) :
    cnt m.set.words.bitAt (nat k) ≠ cnt m.set.words.bitAt (nat j) := by
  rcases lt_or_gt_of_ne hne with hl | hl
  · exact (cnt_lt hl hj).ne'
  · exact (cnt_lt hl h).ne

theorem put_ok {m : ByteMap A} (I : m.Inv) {k : U 8} (h : m.set.words.bitAt (nat k) = true) :
    PutOk Inv abs m k (fun b => { m with list := m.list.set (cnt m.set.words.bitAt (nat k)) b }) := by
  intro b
  refine ⟨⟨I.1, by simpa using I.2⟩, ?_⟩
  funext j
  rw [Map.upd_apply]
  by_cases e : j = k
  · subst e
    have := rank_lt I h
    simp [abs, h, List.getElem?_set_self this]
  · rw [if_neg e]
    by_cases hj : m.set.words.bitAt (nat j) = true
    · simp [abs, hj, List.getElem?_set_ne (rank_ne h hj e)]
    · simp [abs, hj]

theorem add_ok {m : ByteMap A} (I : m.Inv) {k : U 8} (h : m.set.words.bitAt (nat k) = false) (b : A) :
    cnt m.set.words.bitAt (nat k) ≤ m.list.length ∧
    Inv ⟨m.set.setBit k, m.list.insertIdx (cnt m.set.words.bitAt (nat k)) b⟩ ∧
    abs ⟨m.set.setBit k, m.list.insertIdx (cnt m.set.words.bitAt (nat k)) b⟩ = m.abs.upd k (some b) := by
  have hb := bitAt_arraySetBit m.set.words k
  have hc := cnt_set hb h
  have hle : cnt m.set.words.bitAt (nat k) ≤ m.list.length := by
    rw [I.2]; exact cnt_mono _ (nat_lt k).le
  refine ⟨hle, ⟨?_, ?_⟩, ?_⟩
  · rw [inv_iff, abs_setBit]
    exact ⟨k, by simp [Map.mem_upd_some]⟩
  · show (m.list.insertIdx _ b).length = cnt (arraySetBit m.set.words k).bitAt 256
    rw [List.length_insertIdx_of_le_length hle, hc, if_pos (nat_lt k), I.2]
  · funext j
    rw [Map.upd_apply]
    show (if (arraySetBit m.set.words k).bitAt (nat j) then
      (m.list.insertIdx _ b)[cnt (arraySetBit m.set.words k).bitAt (nat j)]? else none) = _
    rw [hb, hc]
    by_cases e : j = k
    · subst e
      simp [List.getElem?_insertIdx_self, hle]
    · have hne : nat j ≠ nat k := fun h' => e (U.ext' h')
      rw [if_neg e]
      by_cases hj : m.set.words.bitAt (nat j) = true
      · rw [if_pos (by simp [hj])]
        rcases lt_or_gt_of_ne hne with hl | hl
        · rw [if_neg (by omega), Nat.add_zero, List.getElem?_insertIdx_of_lt (cnt_lt hl hj)]
          simp [abs, hj]
        · rw [if_pos hl, List.getElem?_insertIdx_of_gt (by have := cnt_mono m.set.words.bitAt hl.le; omega)]
          simp [abs, hj]
      · rw [if_neg (by simp [hj, hne])]
        simp [abs, hj]

theorem abs_erase {m : ByteMap A} {k : U 8} (h : m.set.words.bitAt (nat k) = true) :
    abs ⟨m.set.unsetBit k, m.list.eraseIdx (cnt m.set.words.bitAt (nat k))⟩ = m.abs.upd k none := by
  have hb := bitAt_unsetBit m.set k
  have hc := cnt_unset hb h
  funext j
  rw [Map.upd_apply]
  show (if (m.set.unsetBit k).words.bitAt (nat j) then
    (m.list.eraseIdx _)[cnt (m.set.unsetBit k).words.bitAt (nat j)]? else none) = _
  have hj' := hc (nat j)
  rw [hb]
  by_cases e : j = k
  · subst e; simp
  · have hne : nat j ≠ nat k := fun h' => e (U.ext' h')
    rw [if_neg e]
    by_cases hj : m.set.words.bitAt (nat j) = true
    · rw [if_pos (by simp [hj, hne])]
      rcases lt_or_gt_of_ne hne with hl | hl
      · rw [if_neg (by omega), Nat.add_zero] at hj'
        rw [← hj', List.getElem?_eraseIdx_of_lt (cnt_lt hl hj)]
        simp [abs, hj]
      · rw [if_pos hl] at hj'
        have h1 := cnt_lt hl h
        rw [List.getElem?_eraseIdx_of_ge (by omega), ← hj']
        simp [abs, hj]
    · rw [if_neg (by simp [hj])]
      simp [abs, hj]

theorem length_erase {m : ByteMap A} (I : m.Inv) {k : U 8} (h : m.set.words.bitAt (nat k) = true) :
    (m.list.eraseIdx (cnt m.set.words.bitAt (nat k))).length = cnt (m.set.unsetBit k).words.bitAt 256 := by
  have hc := cnt_unset (bitAt_unsetBit m.set k) h 256
  rw [if_pos (nat_lt k)] at hc
  rw [List.length_eraseIdx_of_lt (rank_lt I h), I.2, hc, Nat.add_sub_cancel]

theorem length_card {m : ByteMap A} (I : m.Inv) : m.list.length = m.set.abs.card := by
  rw [I.2, ← arrayLen_card, arrayLen_eq]

theorem single_iff {m : ByteMap A} (I : m.Inv) : m.abs.IsSingle ↔ m.set.abs.IsSingle := by
  simp only [Map.IsSingle, mem_set I]

theorem length_one {m : ByteMap A} (I : m.Inv) : m.list.length = 1 ↔ m.abs.IsSingle := by
  rw [length_card I, card_one, single_iff I]

theorem del_ok {m : ByteMap A} (I : m.Inv) {k : U 8} (h : m.set.words.bitAt (nat k) = true)
    (hs : ¬ m.abs.IsSingle) :
    Inv ⟨m.set.unsetBit k, m.list.eraseIdx (cnt m.set.words.bitAt (nat k))⟩ := by
  refine ⟨?_, length_erase I h⟩
  exact (unset_ok (mt (single_iff I).2 hs) (ByteSet.mem_abs.2 h)).1

theorem erase_nil {m : ByteMap A} (I : m.Inv) {k : U 8} (h : m.set.words.bitAt (nat k) = true) :
    m.list.eraseIdx (cnt m.set.words.bitAt (nat k)) = [] ↔ m.abs.IsSingle := by
  have := rank_lt I h
  rw [← length_one I, ← List.length_eq_zero_iff, List.length_eraseIdx_of_lt this]
  omega

theorem countBelow' (m : ByteMap A) (k : U 8) : m.set.countBelow k = cnt m.set.words.bitAt (nat k) :=
  countBelow_eq _ _

theorem upd_empty {m : ByteMap A} {k : U 8} (hs : m.abs.IsSingle) (h : m.abs.Mem k) :
    m.abs.upd k none = Map.empty := by
  obtain ⟨j, _, hu⟩ := hs
  funext i
  rw [Map.upd_apply]
  split
  · rfl
  · rename_i hne
    by_contra hc
    exact hne ((hu i hc).trans (hu k h).symm)

/-! ### as a tree -/

theorem getMut_ok {m : ByteMap A} (I : m.Inv) {k : U 8} (h : m.set.words.bitAt (nat k) = true) :
    ∃ a, index m.list (m.set.countBelow k) = .ok a ∧ m.abs k = some a ∧
      VecDeque.getMut m.list (m.set.countBelow k) =
        .ok (a, fun b => m.list.set (cnt m.set.words.bitAt (nat k)) b) := by
  obtain ⟨a, h1, h2⟩ := get_ok I h
  refine ⟨a, by simp [index, countBelow', h1], h2, by simp [VecDeque.getMut, index, countBelow', h1]⟩

theorem rank_min {m : ByteMap A} {k : U 8} (h : m.set.abs.IsMin (k, ())) :
    cnt m.set.words.bitAt (nat k) = 0 := by
  rw [cnt, List.countP_eq_zero]
  intro n hn hb
  rw [List.mem_range] at hn
  obtain ⟨j, rfl⟩ := of_nat n (bitAt_lt hb)
  have := h.2 j (ByteSet.mem_abs.2 hb)
  exact absurd hn (not_lt.2 this)

theorem rank_max {m : ByteMap A} (I : m.Inv) {k : U 8} (h : m.set.abs.IsMax (k, ())) :
    cnt m.set.words.bitAt (nat k) + 1 = m.list.length := by
  have hb := ByteSet.mem_abs.1 (Map.mem_of h.1)
  obtain ⟨d, hd⟩ : ∃ d, 256 = nat k + 1 + d := ⟨255 - nat k, by have := nat_lt k; omega⟩
  rw [I.2, cnt, cnt, hd, countP_range_add]
  have h0 : (List.range d).countP (fun i => m.set.words.bitAt (nat k + 1 + i)) = 0 := by
    rw [List.countP_eq_zero]
    intro n _ hn
    obtain ⟨j, hj⟩ := of_nat _ (bitAt_lt hn)
    have := h.2 j (ByteSet.mem_abs.2 (by rw [hj]; exact hn))
    have : nat j ≤ nat k := this
    omega
  rw [h0, Nat.add_zero]
  have := cnt_succ m.set.words.bitAt (nat k)
  rw [if_pos hb] at this
  exact this.symm

theorem isMin {m : ByteMap A} (I : m.Inv) {k : U 8} {a : A} (h : m.set.abs.IsMin (k, ())) (ha : m.abs k = some a) :
    m.abs.IsMin (k, a) := ⟨ha, fun j hj => h.2 j ((mem_set I).1 hj)⟩
theorem isMax {m : ByteMap A} (I : m.Inv) {k : U 8} {a : A} (h : m.set.abs.IsMax (k, ())) (ha : m.abs k = some a) :
    m.abs.IsMax (k, a) := ⟨ha, fun j hj => h.2 j ((mem_set I).1 hj)⟩
theorem isPred {m : ByteMap A} (I : m.Inv) {k j : U 8} {a : A} (h : m.set.abs.IsPred k (some (j, ())))
    (ha : m.abs j = some a) : m.abs.IsPred k (some (j, a)) :=
  ⟨ha, h.2.1, fun i hi => h.2.2 i ((mem_set I).1 hi)⟩
theorem isSucc {m : ByteMap A} (I : m.Inv) {k j : U 8} {a : A} (h : m.set.abs.IsSucc k (some (j, ())))
    (ha : m.abs j = some a) : m.abs.IsSucc k (some (j, a)) :=
  ⟨ha, h.2.1, fun i hi => h.2.2 i ((mem_set I).1 hi)⟩

open Classical in
theorem removeValue_ok {m : ByteMap A} (I : m.Inv) {k : U 8} {a : A} (h : m.abs k = some a) :
    VecDeque.removeValue m.list (m.set.countBelow k) = .ok
      (if m.abs.IsSingle then none else some (m.list.eraseIdx (cnt m.set.words.bitAt (nat k))), a) := by
  have hb := (mem_abs I).1 (Map.mem_of h)
  obtain ⟨a', h1, h2⟩ := get_ok I hb
  obtain rfl : a' = a := by rw [h] at h2; exact (Option.some.inj h2).symm
  have hn := erase_nil I hb
  by_cases hs : m.abs.IsSingle
  · simp [VecDeque.removeValue, countBelow', h1, hs, hn.2 hs]
  · simp [VecDeque.removeValue, countBelow', h1, hs, mt hn.1 hs]

theorem bit_of_set {m : ByteMap A} {k : U 8} (h : m.set.abs k = some ()) : m.set.words.bitAt (nat k) = true :=
  abs_some.1 h

theorem set_find (m : ByteMap A) (k : U 8) :
    m.set.find k = .ok (if m.set.words.bitAt (nat k) then some (k, ()) else none) := by
  rw [ByteSet.find, isPresent_eq]
  split <;> simp

theorem set_pred (m : ByteMap A) (k : U 8) :
    (m.set.predecessor k = .ok none ∧ m.set.abs.IsPred k none) ∨
    ∃ j, m.set.predecessor k = .ok (some (j, ())) ∧ m.set.abs.IsPred k (some (j, ())) := by
  rcases pred_cases m.set k with ⟨h1, h2⟩ | ⟨v, j, h1, h2, h3⟩
  · exact .inl ⟨by simp [ByteSet.predecessor, h1], h2⟩
  · exact .inr ⟨j, by simp [ByteSet.predecessor, h1, h2], h3⟩

theorem set_succ (m : ByteMap A) (k : U 8) :
    (m.set.successor k = .ok none ∧ m.set.abs.IsSucc k none) ∨
    ∃ j, m.set.successor k = .ok (some (j, ())) ∧ m.set.abs.IsSucc k (some (j, ())) := by
  rcases succ_cases m.set k with ⟨h1, h2⟩ | ⟨v, j, h1, h2, h3⟩
  · exact .inl ⟨by simp [ByteSet.successor, h1], h2⟩
  · exact .inr ⟨j, by simp [ByteSet.successor, h1, h2], h3⟩

open Classical in
theorem removeAt_ok {m : ByteMap A} (I : m.Inv) {k : U 8} {a : A} (h : m.abs k = some a) :
    RemOk Inv abs (m.abs.upd k none) (if m.abs.IsSingle then none else
      some ⟨m.set.unsetBit k, m.list.eraseIdx (cnt m.set.words.bitAt (nat k))⟩) := by
  have hb := (mem_abs I).1 (Map.mem_of h)
  split
  · rename_i hs
    exact upd_empty hs (Map.mem_of h)
  · rename_i hs
    exact ⟨del_ok I hb hs, abs_erase hb⟩

theorem fromMonad_ok (k : U 8) (v : A) : (⟨ByteSet.fromMonad k (), [v]⟩ : ByteMap A).Inv ∧
    (⟨ByteSet.fromMonad k (), [v]⟩ : ByteMap A).abs = Map.single k v := by
  have hm := abs_fromMonad k
  have hb : ∀ j, (ByteSet.fromMonad k ()).words.bitAt (nat j) = true ↔ j = k := by
    intro j
    rw [← ByteSet.mem_abs, hm, Map.mem_single]
  have hc := arrayLen_card (ByteSet.fromMonad k ())
  rw [hm, Map.card_single, arrayLen_eq] at hc
  refine ⟨⟨?_, hc.symm⟩, ?_⟩
  · rw [inv_iff, hm]
    exact ⟨k, (Map.mem_single _ _ _).2 rfl⟩
  · funext j
    rw [Map.single_apply]
    by_cases e : j = k
    · subst e
      have hz : cnt (ByteSet.fromMonad j ()).words.bitAt (nat j) = 0 := by
        have := cnt_lt (nat_lt j) ((hb j).2 rfl)
        rw [cnt, cnt, hc] at this
        rw [cnt]
        omega
      simp [abs, (hb j).2 rfl, hz]
    · simp [abs, mt (hb j).1 e, e]

instance : LawfulVebTree (ByteMap V) (U 8) V where
  Inv := Inv
  abs := abs
  Safe _ _ := True
  nonempty m I := by
    obtain ⟨k, hk⟩ := inv_iff.1 I.1
    exact ⟨k, (mem_set I).2 hk⟩
  finite m I := by
    have : {k | m.abs.Mem k} = {k | m.set.abs.Mem k} := by ext k; exact mem_set I
    rw [this]
    exact (ByteSet.lists m.set).finite
  fromMonad k v := fromMonad_ok k v
  isMonad m I := ⟨_, rfl, by rw [decide_eq_true_eq, length_one I]⟩
  lenHint m I := by
    refine defaultLenHint_ok (isMonad := isMonad) (b := decide (m.list.length = 1)) rfl
      (by rw [decide_eq_true_eq, length_one I]) ?_ ?_
    · have : {k | m.abs.Mem k} = {k | m.set.abs.Mem k} := by ext k; exact mem_set I
      rw [this]
      exact (ByteSet.lists m.set).finite
    · obtain ⟨k, hk⟩ := inv_iff.1 I.1
      exact ⟨k, (mem_set I).2 hk⟩
  intoMonad m I := by
    obtain ⟨k, h1, h2⟩ := min_ok I.1
    obtain ⟨a, h3, h4, _⟩ := getMut_ok I (bit_of_set h2.1)
    by_cases hs : m.abs.IsSingle
    · left
      have hv := removeValue_ok I h4
      rw [if_pos hs, countBelow', rank_min h2] at hv
      refine ⟨k, a, ?_, ?_⟩
      · show intoMonad m = _
        simp [intoMonad, ByteSet.intoMonad, isMonad_ok I.1, card_one.2 ((single_iff I).1 hs), h1, hv]
      · refine Map.eq_single h4 fun j hj => ?_
        obtain ⟨i, _, hu⟩ := hs
        rw [hu j hj, hu k (Map.mem_of h4)]
    · right
      refine ⟨?_, hs⟩
      show intoMonad m = _
      simp [intoMonad, ByteSet.intoMonad, isMonad_ok I.1, mt card_one.1 (mt (single_iff I).2 hs)]
  minVal m I := by
    obtain ⟨k, h1, h2⟩ := min_ok I.1
    obtain ⟨a, h3, h4, _⟩ := getMut_ok I (bit_of_set h2.1)
    rw [countBelow', rank_min h2] at h3
    refine ⟨(k, a), ?_, isMin I h2 h4⟩
    show minVal m = _
    simp [minVal, ByteSet.minVal, h1, VecDeque.get, h3]
  minValMut m I := by
    obtain ⟨k, h1, h2⟩ := min_ok I.1
    obtain ⟨a, h3, h4, h5⟩ := getMut_ok I (bit_of_set h2.1)
    rw [countBelow', rank_min h2] at h5
    have hp := put_ok I (bit_of_set h2.1)
    rw [rank_min h2] at hp
    refine ⟨(k, a, _), ?_, isMin I h2 h4, hp⟩
    show minValMut m = _
    simp [minValMut, ByteSet.minVal, h1, h5]
  maxVal m I := by
    obtain ⟨k, h1, h2⟩ := max_ok I.1
    obtain ⟨a, h3, h4, _⟩ := getMut_ok I (bit_of_set h2.1)
    have hr := rank_max I h2
    rw [countBelow', show cnt m.set.words.bitAt (nat k) = m.list.length - 1 by omega] at h3
    refine ⟨(k, a), ?_, isMax I h2 h4⟩
    show maxVal m = _
    simp [maxVal, ByteSet.maxVal, h1, VecDeque.get, h3, subUsize, show 1 ≤ m.list.length by omega]
  maxValMut m I := by
    obtain ⟨k, h1, h2⟩ := max_ok I.1
    obtain ⟨a, h3, h4, h5⟩ := getMut_ok I (bit_of_set h2.1)
    have hr := rank_max I h2
    have hp := put_ok I (bit_of_set h2.1)
    rw [countBelow', show cnt m.set.words.bitAt (nat k) = m.list.length - 1 by omega] at h5
    rw [show cnt m.set.words.bitAt (nat k) = m.list.length - 1 by omega] at hp
    refine ⟨(k, a, _), ?_, isMax I h2 h4, hp⟩
    show maxValMut m = _
    simp [maxValMut, ByteSet.maxVal, h1, h5, subUsize, show 1 ≤ m.list.length by omega]
  find m k I := by
    show find m k = _
    by_cases h : m.set.words.bitAt (nat k) = true
    · obtain ⟨a, h3, h4, h5⟩ := getMut_ok I h
      simp [find, set_find, h, VecDeque.get, h3, h4]
    · have : m.abs k = none := by simp [abs, h]
      simp [find, set_find, h, this]
  findMut m k I := by
    by_cases h : m.set.words.bitAt (nat k) = true
    · obtain ⟨a, h3, h4, h5⟩ := getMut_ok I h
      refine ⟨some (k, a, fun b => { m with list := m.list.set (cnt m.set.words.bitAt (nat k)) b }), ?_, ?_, ?_⟩
      · show findMut m k = _
        simp [findMut, set_find, h, h5]
      · simp [h4]
      · rintro _ _ _ ⟨⟩
        exact put_ok I h
    · have : m.abs k = none := by simp [abs, h]
      refine ⟨none, ?_, ?_, by simp⟩
      · show findMut m k = _
        simp [findMut, set_find, h]
      · simp [this]
  predecessor m k I := by
    rcases set_pred m k with ⟨h1, h2⟩ | ⟨j, h1, h2⟩
    · refine ⟨none, ?_, fun i hi => h2 i ((mem_set I).1 hi)⟩
      show predecessor m k = _
      simp [predecessor, h1]
    · obtain ⟨a, h3, h4, h5⟩ := getMut_ok I (bit_of_set h2.1)
      refine ⟨some (j, a), ?_, isPred I h2 h4⟩
      show predecessor m k = _
      simp [predecessor, h1, VecDeque.get, h3]
  predecessorMut m k I := by
    rcases set_pred m k with ⟨h1, h2⟩ | ⟨j, h1, h2⟩
    · refine ⟨none, ?_, fun i hi => h2 i ((mem_set I).1 hi), by simp⟩
      show predecessorMut m k = _
      simp [predecessorMut, h1]
    · obtain ⟨a, h3, h4, h5⟩ := getMut_ok I (bit_of_set h2.1)
      refine ⟨some (j, a, fun b => { m with list := m.list.set (cnt m.set.words.bitAt (nat j)) b }), ?_,
        isPred I h2 h4, ?_⟩
      · show predecessorMut m k = _
        simp [predecessorMut, h1, h5]
      · rintro _ _ _ ⟨⟩
        exact put_ok I (bit_of_set h2.1)
  successor m k I := by
    rcases set_succ m k with ⟨h1, h2⟩ | ⟨j, h1, h2⟩
    · refine ⟨none, ?_, fun i hi => h2 i ((mem_set I).1 hi)⟩
      show successor m k = _
      simp [successor, h1]
    · obtain ⟨a, h3, h4, h5⟩ := getMut_ok I (bit_of_set h2.1)
      refine ⟨some (j, a), ?_, isSucc I h2 h4⟩
      show successor m k = _
      simp [successor, h1, VecDeque.get, h3]
  successorMut m k I := by
    rcases set_succ m k with ⟨h1, h2⟩ | ⟨j, h1, h2⟩
    · refine ⟨none, ?_, fun i hi => h2 i ((mem_set I).1 hi), by simp⟩
      show successorMut m k = _
      simp [successorMut, h1]
    · obtain ⟨a, h3, h4, h5⟩ := getMut_ok I (bit_of_set h2.1)
      refine ⟨some (j, a, fun b => { m with list := m.list.set (cnt m.set.words.bitAt (nat j)) b }), ?_,
        isSucc I h2 h4, ?_⟩
      · show successorMut m k = _
        simp [successorMut, h1, h5]
      · rintro _ _ _ ⟨⟩
        exact put_ok I (bit_of_set h2.1)
  insert m k v I _ := by
    by_cases h : m.set.words.bitAt (nat k) = true
    · obtain ⟨a, h3, h4, h5⟩ := getMut_ok I h
      refine ⟨_, ?_, put_ok I h v⟩
      show insert m k v = _
      simp [insert, ByteSet.insert, isPresent_eq, h, h5, h4]
    · have hn : m.abs k = none := by simp [abs, h]
      obtain ⟨h1, h2, h3⟩ := add_ok I (by simpa using h) v
      have hc : (m.set.setBit k).countBelow k = cnt m.set.words.bitAt (nat k) := by
        rw [countBelow_eq]
        have := cnt_set (bitAt_arraySetBit m.set.words k) (by simpa using h) (nat k)
        rw [if_neg (lt_irrefl _)] at this
        exact this
      refine ⟨_, ?_, h2, h3⟩
      show insert m k v = _
      simp [insert, ByteSet.insert, isPresent_eq, h, hc, VecDeque.insertAt, h1, hn]
  remove_none m k I h := by
    show remove m k = _
    have hb := abs_none I h
    simp [remove, ByteSet.remove, isPresent_eq, hb]
  remove_some m k v I h := by
    have hb := (mem_abs I).1 (Map.mem_of h)
    have hv := removeValue_ok I h
    refine ⟨_, ?_, removeAt_ok I h⟩
    show remove m k = _
    by_cases hs : m.abs.IsSingle
    · rw [if_pos hs] at hv
      simp [remove, ByteSet.remove, isPresent_eq, hb, isMonad_ok I.1, card_one.2 ((single_iff I).1 hs), hv, hs]
    · rw [if_neg hs] at hv
      simp [remove, ByteSet.remove, isPresent_eq, hb, isMonad_ok I.1,
        mt card_one.1 (mt (single_iff I).2 hs), hv, hs]
  removeMin m I := by
    obtain ⟨k, h1, h2⟩ := min_ok I.1
    obtain ⟨a, h3, h4, _⟩ := getMut_ok I (bit_of_set h2.1)
    have hv := removeValue_ok I h4
    refine ⟨_, (k, a), ?_, isMin I h2 h4, removeAt_ok I h4⟩
    show removeMin m = _
    by_cases hs : m.abs.IsSingle
    · rw [if_pos hs] at hv
      simp [removeMin, ByteSet.minVal, ByteSet.removeMin, h1, isMonad_ok I.1,
        card_one.2 ((single_iff I).1 hs), hv, hs]
    · rw [if_neg hs] at hv
      simp [removeMin, ByteSet.minVal, ByteSet.removeMin, h1, isMonad_ok I.1,
        mt card_one.1 (mt (single_iff I).2 hs), hv, hs]
  removeMax m I := by
    obtain ⟨k, h1, h2⟩ := max_ok I.1
    obtain ⟨a, h3, h4, _⟩ := getMut_ok I (bit_of_set h2.1)
    have hv := removeValue_ok I h4
    refine ⟨_, (k, a), ?_, isMax I h2 h4, removeAt_ok I h4⟩
    show removeMax m = _
    by_cases hs : m.abs.IsSingle
    · rw [if_pos hs] at hv
      simp [removeMax, ByteSet.maxVal, ByteSet.removeMax, h1, isMonad_ok I.1,
        card_one.2 ((single_iff I).1 hs), hv, hs]
    · rw [if_neg hs] at hv
      simp [removeMax, ByteSet.maxVal, ByteSet.removeMax, h1, isMonad_ok I.1,
        mt card_one.1 (mt (single_iff I).2 hs), hv, hs]

instance : MonoSafe (ByteMap V) (U 8) V := ⟨fun _ _ _ _ => trivial, fun _ _ _ _ _ => trivial⟩

/-! ### as a collection -/

variable {T Lo : Type} [VebTree T Lo V]

theorem set_nil {m : ByteMap A} (I : m.Inv) {k : U 8} (h : m.set.words.bitAt (nat k) = true) (b : A) :
    ¬ m.list.set (cnt m.set.words.bitAt (nat k)) b = [] := by
  have := rank_lt I h
  intro e
  have := congrArg List.length e
  simp at this
  simp [this] at *

instance : LawfulColl (ByteMap T) (U 8) T Lo V where
  Inv := Inv
  abs := abs
  nonempty m I := by
    obtain ⟨k, hk⟩ := inv_iff.1 I.1
    exact ⟨k, (mem_set I).2 hk⟩
  create h t := ⟨_, rfl, fromMonad_ok h t⟩
  get m k I := by
    show Coll.get m k = _
    by_cases h : m.set.words.bitAt (nat k) = true
    · obtain ⟨a, h3, h4, h5⟩ := getMut_ok I h
      simp [Coll.get, isPresent_eq, h, VecDeque.get, h3, h4]
    · have : m.abs k = none := by simp [abs, h]
      simp [Coll.get, isPresent_eq, h, this]
  getMut_none m k I h := by
    show Coll.getMut m k = _
    have := abs_none I h
    simp [Coll.getMut, isPresent_eq, this]
  getMut_some m k t I h := by
    have hb := (mem_abs I).1 (Map.mem_of h)
    obtain ⟨a, h3, h4, h5⟩ := getMut_ok I hb
    obtain rfl : a = t := by rw [h] at h4; exact (Option.some.inj h4).symm
    refine ⟨_, ?_, put_ok I hb⟩
    show Coll.getMut m k = _
    simp [Coll.getMut, isPresent_eq, hb, h5]
  insert_none m k l v I h := by
    have hb := abs_none I h
    obtain ⟨h1, h2, h3⟩ := add_ok I hb (VebTree.fromMonad l v)
    refine ⟨_, ?_, h2, h3⟩
    show Coll.insertKey m k (l, v) = _
    simp [Coll.insertKey, ByteSet.insert, isPresent_eq, hb, countBelow', VecDeque.insertAt, h1]
  insert_some m k l v t t' o I h hr := by
    have hb := (mem_abs I).1 (Map.mem_of h)
    obtain ⟨a, h3, h4, h5⟩ := getMut_ok I hb
    obtain rfl : a = t := by rw [h] at h4; exact (Option.some.inj h4).symm
    refine ⟨_, ?_, put_ok I hb t'⟩
    show Coll.insertKey m k (l, v) = _
    simp [Coll.insertKey, ByteSet.insert, isPresent_eq, hb, h5, hr]
  removeKey m k t r o val I h hr := by
    have hb := (mem_abs I).1 (Map.mem_of h)
    obtain ⟨a, h3, h4⟩ := get_ok I hb
    obtain rfl : a = t := by rw [h] at h4; exact (Option.some.inj h4).symm
    obtain _ | t' := o
    · have hn := erase_nil I hb
      by_cases hs : m.abs.IsSingle
      · refine ⟨none, ?_, rfl, upd_empty hs (Map.mem_of h)⟩
        show Coll.removeKey m k r = _
        simp [Coll.removeKey, set_find, hb, VecDeque.removeKey, countBelow', h3, hr, hn.2 hs]
      · refine ⟨some (_, true), ?_, rfl, del_ok I hb hs, abs_erase hb⟩
        show Coll.removeKey m k r = _
        simp [Coll.removeKey, set_find, hb, VecDeque.removeKey, countBelow', h3, hr, mt hn.1 hs, isPresent_eq]
    · refine ⟨some (_, false), ?_, rfl, put_ok I hb t'⟩
      show Coll.removeKey m k r = _
      have hne := set_nil I hb t'
      simp only [List.set_eq_nil_iff] at hne
      simp [Coll.removeKey, set_find, hb, VecDeque.removeKey, countBelow', h3, hr, hne]
  insert_panic m k l v t e I h hr := by
    have hb := (mem_abs I).1 (Map.mem_of h)
    obtain ⟨a, h3, h4, h5⟩ := getMut_ok I hb
    obtain rfl : a = t := by rw [h] at h4; exact (Option.some.inj h4).symm
    show Coll.insertKey m k (l, v) = _
    simp [Coll.insertKey, ByteSet.insert, isPresent_eq, hb, h5, hr]; rfl
  removeKey_panic m k t r e I h hr := by
    have hb := (mem_abs I).1 (Map.mem_of h)
    obtain ⟨a, h3, h4⟩ := get_ok I hb
    obtain rfl : a = t := by rw [h] at h4; exact (Option.some.inj h4).symm
    show Coll.removeKey m k r = _
    simp [Coll.removeKey, set_find, hb, VecDeque.removeKey, countBelow', h3, hr]; rfl
  absent := .debugAssert
  removeKey_absent m k r I h := by
    have hb := abs_none I h
    show Coll.removeKey m k r = _
    simp [Coll.removeKey, set_find, hb]; rfl
  maybe_err' m k t r t' I h hr := by
    have hb := (mem_abs I).1 (Map.mem_of h)
    obtain ⟨a, h3, h4⟩ := get_ok I hb
    obtain rfl : a = t := by rw [h] at h4; exact (Option.some.inj h4).symm
    refine ⟨_, ?_, put_ok I hb t'⟩
    show Coll.maybeRemoveKey m k r = _
    simp [Coll.maybeRemoveKey, set_find, hb, VecDeque.maybeRemoveKey, countBelow', h3, hr]
  maybe_panic m k t r e I h hr := by
    have hb := (mem_abs I).1 (Map.mem_of h)
    obtain ⟨a, h3, h4⟩ := get_ok I hb
    obtain rfl : a = t := by rw [h] at h4; exact (Option.some.inj h4).symm
    show Coll.maybeRemoveKey m k r = _
    simp [Coll.maybeRemoveKey, set_find, hb, VecDeque.maybeRemoveKey, countBelow', h3, hr]; rfl
  maybe_absent m k r I h := by
    show Coll.maybeRemoveKey m k r = _
    have hb := abs_none I h
    simp [Coll.maybeRemoveKey, set_find, hb]
  maybe_err m k t r I h hr := by
    have hb := (mem_abs I).1 (Map.mem_of h)
    obtain ⟨a, h3, h4⟩ := get_ok I hb
    obtain rfl : a = t := by rw [h] at h4; exact (Option.some.inj h4).symm
    show Coll.maybeRemoveKey m k r = _
    have hset : m.list.set (cnt m.set.words.bitAt (nat k)) a = m.list := by
      apply List.ext_getElem?
      intro i
      rw [List.getElem?_set]
      split
      · rename_i e
        subst e
        rw [if_pos (rank_lt I hb), h3]
      · rfl
    simp [Coll.maybeRemoveKey, set_find, hb, VecDeque.maybeRemoveKey, countBelow', h3, hr, hset]
  maybe_ok m k t r o val I h hr := by
    have hb := (mem_abs I).1 (Map.mem_of h)
    obtain ⟨a, h3, h4⟩ := get_ok I hb
    obtain rfl : a = t := by rw [h] at h4; exact (Option.some.inj h4).symm
    obtain _ | t' := o
    · have hn := erase_nil I hb
      by_cases hs : m.abs.IsSingle
      · refine ⟨none, ?_, rfl, upd_empty hs (Map.mem_of h)⟩
        show Coll.maybeRemoveKey m k r = _
        simp [Coll.maybeRemoveKey, set_find, hb, VecDeque.maybeRemoveKey, countBelow', h3, hr, hn.2 hs]
      · refine ⟨some (_, true), ?_, rfl, del_ok I hb hs, abs_erase hb⟩
        show Coll.maybeRemoveKey m k r = _
        simp [Coll.maybeRemoveKey, set_find, hb, VecDeque.maybeRemoveKey, countBelow', h3, hr, mt hn.1 hs,
          isPresent_eq]
    · refine ⟨some (_, false), ?_, rfl, put_ok I hb t'⟩
      show Coll.maybeRemoveKey m k r = _
      have hne := set_nil I hb t'
      simp only [List.set_eq_nil_iff] at hne
      simp [Coll.maybeRemoveKey, set_find, hb, VecDeque.maybeRemoveKey, countBelow', h3, hr, hne]

end ByteMap
end Veb
