import Verif.Proof.Act

/-!
# Values in an array of trees, whatever `index` answers
-/

set_option autoImplicit false
set_option linter.unusedSectionVars false

namespace Veb

namespace OptionArray
variable {T M : Type}

/-- a slot overwritten -/
def upd (a : OptionArray T) (i : Nat) (o : Option T) : OptionArray T :=
  { a with slot := fun j => if j = i then o else a.slot j }

/-- the sum of `g` over all slots -/
def total [AddCommMonoid M] (g : Option T → M) (a : OptionArray T) : M := ∑ i ∈ Finset.range a.len, g (a.slot i)

theorem total_upd [AddCommMonoid M] (g : Option T → M) (a : OptionArray T) {i : Nat} (h : i < a.len) (o : Option T) :
    total g (a.upd i o) + g (a.slot i) = total g a + g o := by
  have hi : i ∈ Finset.range a.len := Finset.mem_range.2 h
  unfold total upd
  dsimp only
  rw [← Finset.add_sum_erase _ _ hi, ← Finset.add_sum_erase (f := fun j => g (a.slot j)) _ hi]
  rw [Finset.sum_congr rfl fun j hj => show g (if j = i then o else a.slot j) = g (a.slot j) by
    rw [if_neg (Finset.ne_of_mem_erase hj)]]
  rw [if_pos rfl, add_comm (g o), add_comm (g (a.slot i)), add_assoc, add_assoc, add_comm (g o)]

theorem total_create [AddCommMonoid M] (g : Option T → M) (n : Nat) (h : g none = 0) :
    total g (create n : OptionArray T) = 0 := by
  unfold total create
  simp [h]

theorem upd_upd (a : OptionArray T) (i : Nat) (o o' : Option T) : (a.upd i o).upd i o' = a.upd i o' := by
  unfold upd
  congr 1
  funext j
  dsimp only
  split <;> rfl

theorem upd_same (a : OptionArray T) (i : Nat) : a.upd i (a.slot i) = a := by
  cases a
  unfold upd
  congr 1
  funext j
  dsimp only
  split
  · next h => rw [h]
  · rfl

/-- one for an occupied slot -/
def occ (o : Option T) : Nat := if o.isSome then 1 else 0

theorem none_of_occ {a : OptionArray T} (h : total occ a = 0) {i : Nat} (hi : i < a.len) : a.slot i = none := by
  have := (Finset.sum_eq_zero_iff.1 h) i (Finset.mem_range.2 hi)
  cases hs : a.slot i with
  | none => rfl
  | some t => rw [hs] at this; simp [occ] at this

end OptionArray

open OptionArray

namespace KeepsColl
variable {σ Hi T Lo V : Type} [ActTree σ T Lo V] [P : Keeps σ T Lo V] [ActIndex σ Hi]

theorem post_get {a : OptionArray T} {i : Nat} :
    Post (liftM (a.get i) : Act σ (Option T)) fun o => i < a.len ∧ o = a.slot i := by
  refine .lift fun o h => ?_
  unfold OptionArray.get at h
  split at h
  · next hi => cases h; exact ⟨hi, rfl⟩
  · cases h

theorem post_put {a : OptionArray T} {i : Nat} {o : Option T} :
    Post (liftM (a.put i o) : Act σ (OptionArray T)) fun b => i < a.len ∧ b = a.upd i o := by
  refine .lift fun b h => ?_
  unfold OptionArray.put at h
  split at h
  · next hi => cases h; exact ⟨hi, rfl⟩
  · cases h

/-- an answer of `index` -/
def IsIndex (σ : Type) {Hi : Type} [ActIndex σ Hi] (h : Hi) (i : Nat) : Prop :=
  ∃ s s' : σ, ActIndex.index h s = .ok (i, s')

theorem post_idx {h : Hi} : Post (ActIndex.index (σ := σ) h) (IsIndex σ h) := fun s _ s' e => ⟨s, s', e⟩

theorem IsIndex.same {h : Hi} {i j : Nat} (f : IndexFixed σ Hi) (a : IsIndex σ h i) (b : IsIndex σ h j) : j = i := by
  obtain ⟨f, hf⟩ := f
  obtain ⟨s, s', e⟩ := a
  obtain ⟨u, u', e'⟩ := b
  rw [hf _ _ _ _ e, hf _ _ _ _ e']

/-- all trees in the slots are good -/
def AW (a : OptionArray T) : Prop := ∀ i t, a.slot i = some t → P.W t

/-- the values in the slots -/
def avals (a : OptionArray T) : Multiset V := total (ov P.vals) a

theorem AW.upd {a : OptionArray T} (h : AW (σ := σ) a) {i : Nat} {o : Option T} (ho : ∀ t, o = some t → P.W t) :
    AW (σ := σ) (a.upd i o) := by
  intro j t e
  change (if j = i then o else a.slot j) = _ at e
  split at e
  · exact ho t e
  · exact h j t e

theorem slot_le {a : OptionArray T} {i : Nat} (h : i < a.len) : ov P.vals (a.slot i) ≤ avals (σ := σ) a := by
  have := total_upd (ov P.vals) a h none
  rw [show ov P.vals none = 0 from rfl, add_zero] at this
  unfold avals
  rw [← this]
  exact Multiset.le_add_left _ _

/-- whatever is written into whatever slot -/
theorem upd_le {a : OptionArray T} {i : Nat} (h : i < a.len) (o : Option T) :
    avals (σ := σ) (a.upd i o) ≤ avals (σ := σ) a + ov P.vals o := by
  have := total_upd (ov P.vals) a h o
  unfold avals
  rw [← this]
  exact Multiset.le_add_right _ _

theorem upd_empty {a : OptionArray T} {i : Nat} (h : i < a.len) (e : a.slot i = none) (o : Option T) :
    avals (σ := σ) (a.upd i o) = avals (σ := σ) a + ov P.vals o := by
  have := total_upd (ov P.vals) a h o
  unfold avals
  rw [← this, e]
  exact (add_zero _).symm

theorem take_vals {a : OptionArray T} {i : Nat} (h : i < a.len) {t : T} (e : a.slot i = some t) :
    avals (σ := σ) a = avals (σ := σ) (a.upd i none) + P.vals t := by
  have := total_upd (ov P.vals) a h none
  rw [e] at this
  exact ((add_zero _).symm.trans this.symm)

theorem occ_empty {a : OptionArray T} {i : Nat} (h : i < a.len) (e : a.slot i = none) (t : T) :
    total occ (a.upd i (some t)) = total occ a + 1 := by
  have := total_upd occ a h (some t)
  rw [e] at this
  exact this

theorem occ_take {a : OptionArray T} {i : Nat} (h : i < a.len) {t : T} (e : a.slot i = some t) (o : Option T) :
    total occ (a.upd i o) + 1 = total occ a + occ o := by
  have := total_upd occ a h o
  rw [e] at this
  exact this

theorem upd_slot (a : OptionArray T) (i : Nat) (o : Option T) : (a.upd i o).slot i = o := if_pos rfl

/-- nothing got lost in the trees of an array -/
def AO (a : OptionArray T) : Prop := ∀ i t, i < a.len → a.slot i = some t → P.ok t

theorem AO.of_upd {a : OptionArray T} {i : Nat} {o : Option T} (hi : i < a.len) (h : AO (σ := σ) (a.upd i o)) :
    OptOk P.ok o ∧ (OptOk P.ok (a.slot i) → AO (σ := σ) a) := by
  refine ⟨fun t ht => h i t hi ((upd_slot a i o).trans ht), fun x j t hj e => ?_⟩
  by_cases y : j = i
  · subst y
    exact x t e
  · exact h j t hj ((if_neg y).trans e)

/-- a tree put into a slot that turns out to have been empty -/
theorem put_ok {a : OptionArray T} {j : Nat} {o : Option T} {n m : Nat} (hj : j < a.len) (hn : total occ a ≤ n)
    (hm : m = n + occ o) (e : m = total occ (a.upd j o)) : a.slot j = none ∧ n = total occ a := by
  have h := total_upd occ a hj o
  have h0 : occ (a.slot j) = 0 := by omega
  refine ⟨?_, by omega⟩
  cases hs : a.slot j with
  | none => rfl
  | some t => rw [hs] at h0; cases h0

theorem occ_le {a : OptionArray T} {j : Nat} {o : Option T} (hj : j < a.len) : total occ (a.upd j o) ≤ total occ a + occ o := by
  have h := total_upd occ a hj o
  omega

variable (Hi) in
/-- the invariant of an array: the counter is at least the number of trees, and that number if `index` is fixed -/
def ArrW' (a : OptionArray T) (n : Nat) : Prop :=
  AW (σ := σ) a ∧ total occ a ≤ n ∧ (IndexFixed σ Hi → n = total occ a)
/-- nothing got lost: the counter is the number of trees -/
def ArrO' (a : OptionArray T) (n : Nat) : Prop := AO (σ := σ) a ∧ n = total occ a

variable (σ Hi T) in
/-- the invariant of a collection -/
def ArrW (c : ArrayColl Hi T) : Prop := ArrW' (σ := σ) Hi c.array c.count
variable (σ) in
/-- nothing got lost in a collection -/
def ArrO (c : ArrayColl Hi T) : Prop := ArrO' (σ := σ) c.array c.count

/-- a removed tree put back, in the same slot or elsewhere -/
theorem back {a : OptionArray T} {i j n m : Nat} (hi : i < a.len) (hj : j < (a.upd i none).len) {t : T}
    (e : a.slot i = some t) (o : Option T) (r : Multiset V) (hn : total occ a ≤ n) (hm : m + 1 = n + occ o)
    (F : Flow (P.ok t) (OptOk P.ok o) (P.vals t) (ov P.vals o + r)) :
    Flow (ArrO' (σ := σ) a n) (ArrO' (σ := σ) ((a.upd i none).upd j o) m)
      (avals (σ := σ) a) (avals (σ := σ) ((a.upd i none).upd j o) + r) := by
  have h1 := occ_take hi e none
  rw [show occ (none : Option T) = 0 from rfl, add_zero] at h1
  rw [take_vals hi e]
  constructor
  · calc avals (σ := σ) ((a.upd i none).upd j o) + r ≤ avals (σ := σ) (a.upd i none) + ov P.vals o + r :=
        add_le_add_left (upd_le hj o) r
      _ = avals (σ := σ) (a.upd i none) + (ov P.vals o + r) := add_assoc _ _ _
      _ ≤ _ := add_le_add_right F.le _
  · rintro ⟨f, g⟩
    obtain ⟨h2, h3⟩ := put_ok (n := n - 1) hj (by omega) (by omega) g
    have h4 := AO.of_upd hj f
    have h5 := F.eq h4.1
    refine ⟨⟨(AO.of_upd hi (h4.2 (by rw [h2]; exact optOk_none))).2 (by rw [e]; exact optOk_some.2 h5.1), by omega⟩, ?_⟩
    rw [upd_empty hj h2, add_assoc, h5.2]

theorem avals_zero {a : OptionArray T} (h : total occ a = 0) : avals (σ := σ) a = 0 := by
  unfold avals total
  refine Finset.sum_eq_zero fun i hi => ?_
  rw [none_of_occ h (Finset.mem_range.1 hi)]
  rfl

theorem post_sub {n m : Nat} : Post (liftM (subUsize n m) : Act σ Nat) fun r => m ≤ n ∧ r = n - m := by
  refine .lift fun b h => ?_
  unfold subUsize at h
  split at h
  · next hi => cases h; exact ⟨hi, rfl⟩
  · cases h

theorem post_add {n m : Nat} : Post (liftM (addUsize n m) : Act σ Nat) fun r => r = n + m := by
  refine .lift fun b h => ?_
  unfold addUsize at h
  split at h
  · cases h; rfl
  · cases h

/-- the counter after a removal -/
theorem post_count {α : Type} {n : Nat} {o : Option T} {g : Nat → Act σ α} {Q : α → Prop}
    (h : ∀ r, r + 1 = n + occ o → Post (g r) Q) :
    Post (if o.isNone = true then liftM (subUsize n 1) >>= g else pure n >>= g : Act σ α) Q := by
  cases o with
  | none => exact post_sub.bind fun r hr => h r (by rw [hr.2]; show _ = n; have := hr.1; omega)
  | some t => exact Post.bind (Q := fun m => m = n) (.ret rfl) fun r hr => h r (by rw [hr]; rfl)

theorem count_back {a : OptionArray T} {i j : Nat} {h : Hi} (hi : i < a.len) (hj : j < (a.upd i none).len) {t : T}
    (e : a.slot i = some t)
    (xi : IsIndex σ h i) (xj : IsIndex σ h j) {o : Option T} {n m : Nat} (I : ArrW' (σ := σ) Hi a n) (ho : OptOk P.W o)
    (hm : m + 1 = n + occ o) : ArrW' (σ := σ) Hi ((a.upd i none).upd j o) m := by
  refine ⟨(I.1.upd (by simp)).upd ho, ?_, fun g => ?_⟩
  · have h1 := occ_take hi e none
    have h2 := occ_le (o := o) hj
    have h3 := I.2.1
    rw [show occ (none : Option T) = 0 from rfl, add_zero] at h1
    omega
  · obtain rfl := IsIndex.same g xi xj
    rw [upd_upd]
    have := occ_take hi e o
    rw [I.2.2 g] at hm
    omega

/-- a tree exchanged for another -/
theorem exch {a : OptionArray T} {i n : Nat} (hi : i < a.len) {t u : T} (e : a.slot i = some t)
    (I : ArrW' (σ := σ) Hi a n) (hu : P.W u) : ArrW' (σ := σ) Hi (a.upd i (some u)) n ∧
      avals (σ := σ) (a.upd i (some u)) = avals (σ := σ) (a.upd i none) + P.vals u ∧
      (ArrO' (σ := σ) (a.upd i (some u)) n → P.ok u ∧ (P.ok t → ArrO' (σ := σ) a n)) := by
  have h1 := occ_take hi e (some u)
  rw [show occ (some u) = 1 from rfl] at h1
  have h2 : total occ (a.upd i (some u)) = total occ a := by omega
  refine ⟨⟨I.1.upd (optOk_some.2 hu), by rw [h2]; exact I.2.1, by rw [h2]; exact I.2.2⟩, ?_, ?_⟩
  · rw [← upd_upd _ _ none, upd_empty (show i < (a.upd i none).len from hi) (upd_slot _ _ _)]
    rfl
  · rintro ⟨x, y⟩
    rw [h2] at y
    have h3 := AO.of_upd hi x
    exact ⟨h3.1 _ rfl, fun z => ⟨h3.2 (by rw [e]; exact optOk_some.2 z), y⟩⟩

/-- the last tree is gone -/
theorem emptied {g : Prop} {a : OptionArray T} {b : Multiset V} {n : Nat} {v : V} {okC WC : ArrayColl Hi T → Prop}
    {valsC : ArrayColl Hi T → Multiset V} (h : n = 0) (hn : total occ a ≤ n)
    (F : Flow g (ArrO' (σ := σ) a n) b (avals (σ := σ) a + {v})) : Rest g okC WC valsC b none v := by
  have h0 : total occ a = 0 := by omega
  rw [avals_zero h0] at F
  refine ⟨optOk_none, F.le, fun _ => F.eq ⟨fun i t hi e => ?_, by omega⟩⟩
  rw [none_of_occ h0 hi] at e
  cases e

instance instArray : KeepsColl σ (ArrayColl Hi T) Hi T Lo V where
  W := ArrW σ Hi T
  vals c := avals (σ := σ) c.array
  ok := ArrO σ
  fixed := P.fixed ∧ IndexFixed σ Hi
  okOf f c I := ⟨fun i t _ e => P.okOf f.1 t (I.1 i t e), I.2.2 f.2⟩
  create h t ht := by
    show Post (ArrayColl.createA h t) _
    unfold ArrayColl.createA
    have z : AW (σ := σ) (OptionArray.create (ActIndex.cardinality σ Hi) : OptionArray T) := by rintro i t ⟨⟩
    refine .then_ fun i => post_put.bind fun b hb => .ret ?_
    obtain ⟨hi, rfl⟩ := hb
    have h1 : total occ ((OptionArray.create (ActIndex.cardinality σ Hi)).upd i (some t)) = 1 := by
      rw [occ_empty hi rfl, total_create _ _ rfl]
    refine ⟨⟨z.upd (optOk_some.2 ht), h1.le, fun _ => h1.symm⟩, ?_⟩
    show avals (σ := σ) _ = _
    rw [upd_empty hi rfl]
    unfold avals
    rw [total_create _ _ rfl]
    exact zero_add _
  get c h I := by
    show Post (ArrayColl.getA c h) _
    unfold ArrayColl.getA
    refine .then_ fun i => post_get.mono fun o ho t ht => ?_
    obtain ⟨hi, rfl⟩ := ho
    have := slot_le (σ := σ) hi
    rw [ht] at this
    exact ⟨I.1 i t ht, this⟩
  getMut c h I := by
    show Post (ArrayColl.getMutA c h) _
    unfold ArrayColl.getMutA
    refine .then_ fun i => post_get.bind fun o ho => ?_
    obtain ⟨hi, ho⟩ := ho
    obtain _ | t := o
    · exact .ret (by simp)
    · refine .ret ?_
      rintro _ ⟨⟩
      refine ⟨I.1 i t ho.symm, avals (σ := σ) (c.array.upd i none), ?_, fun u hu => ?_⟩
      · rw [take_vals hi ho.symm, add_comm]
      · obtain ⟨h1, h2, h3⟩ := exch hi ho.symm I hu
        exact ⟨h1, h2.trans (add_comm _ _), fun x y => (h3 y).2 (x (h3 y).1)⟩
  insertKey c h e I := by
    show Post (ArrayColl.insertKeyA c h e) _
    unfold ArrayColl.insertKeyA
    refine post_idx.bind fun i xi => post_get.bind fun o ho => ?_
    obtain ⟨hi, ho⟩ := ho
    obtain _ | t := o
    · refine post_idx.bind fun j xj => post_put.bind fun b hb => ?_
      obtain ⟨hj, rfl⟩ := hb
      refine post_add.bind fun n hn => .ret ⟨⟨I.1.upd (optOk_some.2 (P.fromMonad _ _).1), ?_, fun f => ?_⟩, ?_⟩
      · have h1 := occ_le (o := some (ActTree.fromMonad σ e.1 e.2)) hj
        have h2 := I.2.1
        rw [show occ (some (ActTree.fromMonad σ e.1 e.2)) = 1 from rfl] at h1
        show total occ (c.array.upd j (some (ActTree.fromMonad σ e.1 e.2))) ≤ n
        omega
      · obtain rfl := IsIndex.same f xi xj
        show n = _
        rw [occ_empty hj ho.symm, hn, I.2.2 f]
      · have hv : ov P.vals (some (ActTree.fromMonad σ e.1 e.2)) = {e.2} := (P.fromMonad e.1 e.2).2
        constructor
        · have := upd_le (σ := σ) hj (some (ActTree.fromMonad σ e.1 e.2))
          rw [hv] at this
          exact this
        · rintro ⟨f, g⟩
          obtain ⟨h2, h3⟩ := put_ok hj I.2.1 hn g
          have := upd_empty (σ := σ) hj h2 (some (ActTree.fromMonad σ e.1 e.2))
          rw [hv] at this
          exact ⟨⟨(AO.of_upd hj f).2 (by rw [h2]; exact optOk_none), h3⟩, this⟩
    · refine (P.insert t e.1 e.2 (I.1 i t ho.symm)).bind fun r hr => ?_
      obtain ⟨u, x⟩ := r
      obtain ⟨h1, h2, h3⟩ := hr
      refine post_put.bind fun b hb => .ret ?_
      obtain ⟨hj, rfl⟩ := hb
      obtain ⟨g1, g2, g3⟩ := exch hi ho.symm I h1
      refine ⟨g1, ?_, fun y hy => ?_⟩
      · refine h2.part (avals (σ := σ) (c.array.upd i none)) (fun x => (g3 x).1) (fun x => (g3 x).2) ?_ ?_
        · rw [take_vals hi ho.symm]; abel
        · show avals (σ := σ) (c.array.upd i (some u)) + _ = _
          rw [g2]; abel
      · have := slot_le (σ := σ) hi
        rw [← ho] at this
        exact Multiset.mem_of_le this (h3 y hy)
  removeKey c h f I hf := by
    show Post (ArrayColl.removeKeyA c h f) _
    unfold ArrayColl.removeKeyA
    refine post_idx.bind fun i xi => post_get.bind fun o ho => ?_
    obtain ⟨hi, ho⟩ := ho
    refine Post.exp.bind fun t ht => ?_
    subst ht
    refine post_put.bind fun b hb => ?_
    obtain ⟨-, rfl⟩ := hb
    refine (hf t (I.1 i t ho.symm)).bind fun r hr => ?_
    obtain ⟨o, x, v⟩ := r
    refine post_count fun n hn => post_idx.bind fun j xj => post_put.bind fun b hb => ?_
    obtain ⟨hj, rfl⟩ := hb
    have F := back hi hj ho.symm o {v} I.2.1 hn hr.2
    have N := count_back hi hj ho.symm xi xj I hr.1 hn
    split
    · next h0 => exact .ret (emptied h0 N.2.1 F)
    · exact .ret ⟨optOk_some.2 N, F.le, fun x => F.eq (x _ rfl)⟩
  maybeRemoveKey c h f I hf := by
    show Post (ArrayColl.maybeRemoveKeyA c h f) _
    unfold ArrayColl.maybeRemoveKeyA
    refine post_idx.bind fun i xi => post_get.bind fun o ho => ?_
    obtain ⟨hi, ho⟩ := ho
    obtain _ | t := o
    · exact .ret ⟨I, .of_eq id rfl⟩
    refine post_put.bind fun b hb => ?_
    obtain ⟨-, rfl⟩ := hb
    refine (hf t (I.1 i t ho.symm)).bind fun r hr => ?_
    obtain ⟨o, x, v⟩ | u := r
    · refine post_count fun n hn => post_idx.bind fun j xj => post_put.bind fun b hb => ?_
      obtain ⟨hj, rfl⟩ := hb
      have F := back hi hj ho.symm o {v} I.2.1 hn hr.2
      have N := count_back hi hj ho.symm xi xj I hr.1 hn
      split
      · next h0 => exact .ret (emptied h0 N.2.1 F)
      · exact .ret ⟨optOk_some.2 N, F.le, fun x => F.eq (x _ rfl)⟩
    · refine post_idx.bind fun j xj => post_put.bind fun b hb => ?_
      obtain ⟨hj, rfl⟩ := hb
      have F := back hi hj ho.symm (some u) 0 (m := c.count) I.2.1 rfl
        ⟨(add_zero (P.vals u)).symm ▸ hr.2.le, fun x => ⟨(hr.2.eq (x _ rfl)).1, (add_zero (P.vals u)).trans (hr.2.eq (x _ rfl)).2⟩⟩
      have N := count_back hi hj ho.symm xi xj (o := some u) I (optOk_some.2 hr.1) rfl
      rw [add_zero] at F
      exact .ret ⟨N, F⟩

end KeepsColl
end Veb
