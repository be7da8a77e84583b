import Verif.SpecSpace
import Verif.Proof.NoPanic
import Verif.Proof.Ledger
import Mathlib.Algebra.Order.BigOperators.Group.Multiset
import Mathlib.Tactic.Ring

/-!
Counting nodes, entries and array slots.
-/

set_option autoImplicit false
set_option linter.unusedSectionVars false

namespace Veb
variable {T K V C Hi Lo S : Type}

/-! ## Collections -/

/-- `f` of what is stored at `h`, 0 if nothing is. -/
def Map.weigh (M : Map Hi T) (f : T → Nat) (h : Hi) : Nat := ((M h).map f).getD 0

/-- The trees listed in a collection are those found at its keys, each once; its array is as long as the type says. -/
structure CollCount (C Hi T : Type) [SpaceColl C T] (Inv : C → Prop) (abs : C → Map Hi T) : Prop where
  sum : ∀ c, Inv c → ∀ B : Multiset Hi, B.Nodup → (∀ h, h ∈ B ↔ (abs c).Mem h) → ∀ f : T → Nat,
    ((SpaceColl.children c).map f).sum = (B.map ((abs c).weigh f)).sum
  slots : ∀ c, Inv c → SpaceColl.slots c ≤ SpaceColl.width C

theorem sum_filterMap {α : Type} (g : α → Option T) (f : T → Nat) (l : List α) :
    ((l.filterMap g).map f).sum = ((l.filter fun a => (g a).isSome).map fun a => ((g a).map f).getD 0).sum := by
  induction l with
  | nil => rfl
  | cons a l ih =>
    cases h : g a with
    | none => simp [h, ih]
    | some b => simp [h, ih]

namespace ArrayColl
variable [LinearOrder Hi] [SizedVebKey Hi] [LH : LawfulSizedKey Hi]

theorem collCount : CollCount (ArrayColl Hi T) Hi T Inv abs where
  sum c I B hB hm f := by
    obtain ⟨h1, -, -, h4⟩ := I
    show (((List.range c.array.len).filterMap c.array.slot).map f).sum = _
    rw [sum_filterMap]
    have e : (((List.range c.array.len).filter fun j => (c.array.slot j).isSome : List Nat) : Multiset Nat) =
        B.map SizedVebKey.index := by
      refine (Multiset.Nodup.ext ?_ ?_).2 fun j => ?_
      · exact Multiset.coe_nodup.2 (List.nodup_range.filter _)
      · exact hB.map fun a b e => LH.index_inj a b e
      · rw [Multiset.mem_coe, List.mem_filter, List.mem_range, Multiset.mem_map, h1]
        constructor
        · rintro ⟨-, hj⟩
          obtain ⟨h, rfl⟩ := h4 j (Option.isSome_iff_ne_none.1 hj)
          exact ⟨h, (hm h).2 (Option.isSome_iff_ne_none.1 hj), rfl⟩
        · rintro ⟨h, hh, rfl⟩
          exact ⟨LH.index_lt h, Option.isSome_iff_ne_none.2 ((hm h).1 hh)⟩
    rw [← Multiset.sum_coe, ← Multiset.map_coe, e, Multiset.map_map]
    rfl
  slots c I := I.1.le

end ArrayColl

namespace HashMap
variable [LinearOrder Hi]

theorem lookup_of_mem {l : List (Hi × T)} (h : NodupKeys l) {p : Hi × T} (hp : p ∈ l) :
    (⟨l⟩ : HashMap Hi T).lookup p.1 = some p.2 := by
  induction l with
  | nil => cases hp
  | cons q l ih =>
    rw [lookup_cons]
    simp only [NodupKeys, List.map_cons, List.nodup_cons] at h
    cases hp with
    | head => rw [if_pos rfl]
    | tail _ hp =>
      rw [if_neg, ih h.2 hp]
      intro e
      exact h.1 (e ▸ List.mem_map_of_mem hp)

theorem mem_of_lookup {l : List (Hi × T)} {h : Hi} {t : T} (e : (⟨l⟩ : HashMap Hi T).lookup h = some t) : (h, t) ∈ l := by
  induction l with
  | nil => simp [lookup] at e
  | cons q l ih =>
    rw [lookup_cons] at e
    split at e
    · next e1 => cases e; subst e1; exact List.mem_cons_self
    · exact List.mem_cons_of_mem _ (ih e)

theorem collCount : CollCount (HashMap Hi T) Hi T Inv lookup where
  sum c I B hB hm f := by
    obtain ⟨l⟩ := c
    obtain ⟨hn, -⟩ := I
    show ((l.map Prod.snd).map f).sum = _
    have e : ((l.map Prod.fst : List Hi) : Multiset Hi) = B := by
      refine (Multiset.Nodup.ext (Multiset.coe_nodup.2 hn) hB).2 fun h => ?_
      rw [Multiset.mem_coe, hm, List.mem_map]
      constructor
      · rintro ⟨p, hp, rfl⟩; exact Map.mem_of (lookup_of_mem hn hp)
      · intro h
        obtain ⟨t, ht⟩ := Map.mem_iff.1 h
        exact ⟨_, mem_of_lookup ht, rfl⟩
    rw [← e, Multiset.map_coe, Multiset.sum_coe, List.map_map, List.map_map]
    congr 1
    refine List.map_congr_left fun p hp => ?_
    simp only [Function.comp, Map.weigh, lookup_of_mem hn hp, Option.map_some, Option.getD_some]
  slots _ _ := le_rfl

end HashMap

namespace ByteMap
open ByteSet

theorem take_cnt (p : Nat → Bool) (l : List T) (n : Nat) (h : cnt p n ≤ l.length) :
    l.take (cnt p n) = ((List.range n).filter p).filterMap fun j => l[cnt p j]? := by
  induction n with
  | zero => rfl
  | succ n ih =>
    rw [cnt_succ] at h ⊢
    rw [List.range_succ, List.filter_append, List.filterMap_append, ← ih (by omega)]
    cases hp : p n with
    | false => simp [hp]
    | true =>
      rw [if_pos rfl, List.take_add_one]
      simp [hp]
      rw [hp] at h
      rw [List.getElem?_eq_getElem (by simpa using h)]
      simp [List.getElem?_eq_getElem (show cnt p n < l.length by simpa using h)]

theorem collCount : CollCount (ByteMap T) (U 8) T Inv abs where
  sum c I B hB hm f := by
    show (c.list.map f).sum = _
    have e1 : c.list = ((List.range 256).filter c.set.words.bitAt).filterMap fun j => c.list[cnt c.set.words.bitAt j]? := by
      rw [← take_cnt _ _ _ I.2.ge, ← I.2, List.take_length]
    have e : ((List.range 256).filter c.set.words.bitAt : Multiset Nat) = B.map nat := by
      refine (Multiset.Nodup.ext (Multiset.coe_nodup.2 (List.nodup_range.filter _)) ?_).2 fun j => ?_
      · exact hB.map fun a b e => U.ext' e
      · rw [Multiset.mem_coe, List.mem_filter, List.mem_range, Multiset.mem_map]
        constructor
        · rintro ⟨h1, h2⟩
          exact ⟨U.lit j, (hm _).2 ((mem_abs I).2 (by rwa [natLit h1])), natLit h1⟩
        · rintro ⟨k, hk, rfl⟩
          exact ⟨nat_lt k, (mem_abs I).1 ((hm k).1 hk)⟩
    have e2 : ∀ l : List Nat, (∀ j ∈ l, c.set.words.bitAt j = true) → (∀ j ∈ l, j < 256) →
        ((l.filterMap fun j => c.list[cnt c.set.words.bitAt j]?).map f).sum =
          (l.map fun j => ((c.abs (U.lit j)).map f).getD 0).sum := by
      intro l
      induction l with
      | nil => intros; rfl
      | cons j l ih =>
        intro h1 h2
        have hj := h1 j List.mem_cons_self
        have hj' := h2 j List.mem_cons_self
        rw [List.map_cons, List.sum_cons, ← ih (fun i hi => h1 i (List.mem_cons_of_mem _ hi))
          (fun i hi => h2 i (List.mem_cons_of_mem _ hi))]
        rw [List.filterMap_cons]
        have : c.abs (U.lit j) = c.list[cnt c.set.words.bitAt j]? := by simp [abs, natLit hj', hj]
        rw [this]
        cases c.list[cnt c.set.words.bitAt j]? <;> simp
    conv_lhs => rw [e1]
    rw [e2 _ (fun j hj => (List.mem_filter.1 hj).2) (fun j hj => List.mem_range.1 (List.mem_filter.1 hj).1),
      ← Multiset.sum_coe, ← Multiset.map_coe, e, Multiset.map_map]
    congr 1
    refine Multiset.map_congr rfl fun k _ => ?_
    have : (U.lit (nat k) : U 8) = k := U.ext' (natLit (nat_lt k))
    simp only [Function.comp, Map.weigh, this]
  slots _ _ := le_rfl

end ByteMap

theorem CountedColl.count [LinearOrder Hi] [VebTree T Lo V] [TreeCollection C Hi T Lo V] [SpaceColl C T]
    (h : CountedColl C Hi T Lo V) : ∃ LC : LawfulColl C Hi T Lo V, CollCount C Hi T LC.Inv LC.abs := by
  induction h with
  | array h => have := h.lawful; exact ⟨inferInstance, ArrayColl.collCount⟩
  | hash => exact ⟨inferInstance, HashMap.collCount⟩
  | byte => exact ⟨inferInstance, ByteMap.collCount⟩
  | box _ ih =>
    obtain ⟨LC, h⟩ := ih
    exact ⟨inferInstance, ⟨fun c I => h.sum c.val I, fun c I => h.slots c.val I⟩⟩

/-! ## Trees -/

/-- `n` stored keys take at most `l` more per key. -/
def AtMost (l n x : Nat) : Prop := x + l ≤ l * n + 1

theorem AtMost.mono {l l' n x : Nat} (h : AtMost l n x) (hn : 1 ≤ n) (hl : l ≤ l') : AtMost l' n x := by
  obtain ⟨d, rfl⟩ := Nat.exists_eq_add_of_le hl
  obtain ⟨m, rfl⟩ := Nat.exists_eq_add_of_le hn
  unfold AtMost at *
  have e1 : (l + d) * (1 + m) = l * (1 + m) + d + d * m := by ring
  rw [e1]
  have := Nat.zero_le (d * m)
  omega

theorem AtMost.le {l n x : Nat} (h : AtMost l n x) (hn : 1 ≤ n) : x ≤ l * (n - 1) + 1 := by
  obtain ⟨m, rfl⟩ := Nat.exists_eq_add_of_le hn
  unfold AtMost at h
  rw [Nat.mul_add, Nat.mul_one] at h
  rw [Nat.add_sub_cancel_left]
  omega

/-- The bounds, for the trees with the structure `W` that store `n` entries. -/
structure SpaceOk [Space T] (W : T → Prop) (n : T → Nat) : Prop where
  nodes : ∀ t, W t → AtMost (Space.levels T) (n t) (Space.nodes t)
  entries : ∀ t, W t → AtMost (Space.levels T + 1) (n t) (Space.entries t)
  least : ∀ t, W t → n t ≤ Space.entries t
  slots : ∀ t, W t → Space.slots t ≤ Space.width T * Space.nodes t

theorem SpaceOk.leaf [Space T] {W : T → Prop} {n : T → Nat} (hn : ∀ t, W t → Space.entries t = n t)
    (h1 : Space.levels T = 0) (h2 : ∀ t : T, Space.nodes t = 1) (h3 : ∀ t : T, Space.slots t = 0) :
    SpaceOk W n where
  nodes t h := by rw [h1, h2]; simp [AtMost]
  entries t h := by rw [h1, hn t h]; simp [AtMost]
  least t h := (hn t h).ge
  slots t h := by rw [h3]; exact Nat.zero_le _

theorem ByteSet.entries_card (s : ByteSet) : Space.entries s = s.abs.card := by
  rw [← ByteSet.arrayLen_card, ByteSet.arrayLen_eq]
  refine List.countP_congr fun n hn => ?_
  rw [ByteSet.isPresent_eq, ByteSet.natLit (List.mem_range.1 hn)]

theorem ByteMap.entries_card {m : ByteMap V} (I : m.Inv) : Space.entries m = m.abs.card := by
  show m.list.length = _
  rw [I.2, show cnt m.set.words.bitAt 256 = ByteSet.arrayLen m.set.words from (ByteSet.arrayLen_eq _).symm,
    ByteSet.arrayLen_card]
  unfold Map.card
  congr 1
  ext k
  exact (ByteMap.mem_set I).symm

section
variable [LinearOrder K] [VebTree T K V]

theorem SpaceOk.ofLawful [L : LawfulVebTree T K V] [Space T] (hsafe : ∀ P k, L.Safe P k)
    (hn : ∀ t, L.Inv t → Space.entries t = (L.abs t).card) (h1 : Space.levels T = 0) (h2 : ∀ t : T, Space.nodes t = 1)
    (h3 : ∀ t : T, Space.slots t = 0) :
    SpaceOk (PhysTree.ofLawful hsafe).W fun t => ((PhysTree.ofLawful hsafe).ents t).card :=
  .leaf (fun t I => (hn t I).trans (PhysTree.card_mapBag (L.finite t I)).symm)
    h1 h2 h3

end

namespace Tree
variable [LinearOrder K] [LinearOrder Hi] [LinearOrder Lo] [VebKey K Hi Lo] [VebKeyRef K Hi Lo] [LK : LawfulVebKey K Hi Lo]
  [VebTree S Hi Unit] [PS : PhysTree S Hi Unit] [VebTree T Lo V] [PT : PhysTree T Lo V]
  [TreeCollection C Hi T Lo V] [LC : LawfulColl C Hi T Lo V] [Space S] [Space T] [SpaceColl C T]

theorem ChW.card_eq {s : S} {c : C} (I : ChW K s c) :
    (chbag K s c).card = ((PS.bag s).map ((LC.abs c).weigh fun u => (PT.ents u).card)).sum := by
  rw [chbag, Multiset.card_bind]
  congr 1
  refine Multiset.map_congr rfl fun h hh => ?_
  obtain ⟨u, hu⟩ := Map.mem_iff.1 ((I.sum h).1 hh)
  simp [cell, Map.weigh, hu]

/-- Summing the bounds of the children. -/
theorem ChW.sum_bound {s : S} {c : C} (I : ChW K s c) {f : T → Nat} {l : Nat}
    (hf : ∀ u, PT.W u → AtMost l (PT.ents u).card (f u)) :
    ((PS.bag s).map ((LC.abs c).weigh f)).sum + l * (PS.bag s).card ≤ l * (chbag K s c).card + (PS.bag s).card := by
  rw [I.card_eq]
  have key : ∀ B : Multiset Hi, (∀ h ∈ B, h ∈ PS.bag s) → (B.map ((LC.abs c).weigh f)).sum + l * B.card ≤
      l * (B.map ((LC.abs c).weigh fun u => (PT.ents u).card)).sum + B.card := by
    intro B
    induction B using Multiset.induction with
    | empty => intro _; simp
    | cons h B ih =>
      intro hB
      have ih := ih fun j hj => hB j (Multiset.mem_cons_of_mem hj)
      obtain ⟨u, hu⟩ := Map.mem_iff.1 ((I.sum h).1 (hB h (Multiset.mem_cons_self _ _)))
      have := hf u (I.child h u hu)
      unfold AtMost at this
      simp only [Multiset.map_cons, Multiset.sum_cons, Multiset.card_cons, Map.weigh, hu, Option.map_some,
        Option.getD_some, Nat.mul_add, Nat.mul_one] at this ih ⊢
      omega
  exact key _ fun _ h => h

theorem ChW.sum_le {s : S} {c : C} (I : ChW K s c) {f g : T → Nat} (hf : ∀ u, PT.W u → f u ≤ g u) :
    ((PS.bag s).map ((LC.abs c).weigh f)).sum ≤ ((PS.bag s).map ((LC.abs c).weigh g)).sum := by
  refine Multiset.sum_map_le_sum_map _ _ fun h hh => ?_
  obtain ⟨u, hu⟩ := Map.mem_iff.1 ((I.sum h).1 hh)
  simpa [Map.weigh, hu] using hf u (I.child h u hu)

theorem ChW.sum_mul {s : S} {c : C} (w : Nat) (f : T → Nat) :
    ((PS.bag s).map ((LC.abs c).weigh fun u => w * f u)).sum = w * ((PS.bag s).map ((LC.abs c).weigh f)).sum := by
  induction PS.bag s using Multiset.induction with
  | empty => simp
  | cons h B ih =>
    rw [Multiset.map_cons, Multiset.map_cons, Multiset.sum_cons, Multiset.sum_cons, Nat.mul_add, ih]
    cases e : LC.abs c h <;> simp [Map.weigh, e]

theorem space (hS : SpaceOk PS.W fun t => (PS.ents t).card) (hT : SpaceOk PT.W fun t => (PT.ents t).card)
    (hC : CollCount C Hi T LC.Inv LC.abs) :
    SpaceOk (W (K := K) (V := V) (S := S) (C := C)) fun t => (ents t).card := by
  have sum : ∀ {s : S} {c : C}, ChW K s c → ∀ f : T → Nat, ((SpaceColl.children c).map f).sum =
      ((PS.bag s).map ((LC.abs c).weigh f)).sum := fun I f => hC.sum _ I.cInv _ I.nodup I.sum f
  have pos : ∀ {s : S} {c : C}, ChW K s c → 1 ≤ (PS.ents s).card := fun I => PhysTree.ents_pos I.sW
  constructor
  · rintro ⟨mn, _ | ⟨mx, _ | ⟨s, c⟩⟩⟩ h
    · show AtMost _ 1 1
      simp [AtMost]; omega
    · show AtMost _ 2 1
      simp [AtMost]; omega
    · have I : ChW K s c := h
      have h1 := (hS.nodes s I.sW).mono (pos I) (le_max_left _ (Space.levels T))
      have h2 := I.sum_bound fun u hu => (hT.nodes u hu).mono (PhysTree.ents_pos hu) (le_max_right (Space.levels S) _)
      have h3 := I.card_sum
      rw [← PhysTree.bag_card] at h1
      show AtMost (max (Space.levels S) (Space.levels T) + 1) (mn ::ₘ mx ::ₘ chbag K s c).card
        (1 + Space.nodes s + ((SpaceColl.children c).map Space.nodes).sum)
      rw [sum I]
      generalize max (Space.levels S) (Space.levels T) = l at *
      simp only [Multiset.card_cons, AtMost] at *
      have e : (l + 1) * ((chbag K s c).card + 1 + 1) = l * (chbag K s c).card + (chbag K s c).card + 2 * l + 2 := by ring
      rw [e]
      omega
  · rintro ⟨mn, _ | ⟨mx, _ | ⟨s, c⟩⟩⟩ h
    · show AtMost _ 1 1
      simp [AtMost]; omega
    · show AtMost _ 2 2
      simp [AtMost]; omega
    · have I : ChW K s c := h
      have h1 := (hS.entries s I.sW).mono (pos I) (Nat.succ_le_succ (le_max_left _ (Space.levels T)))
      have h2 := I.sum_bound fun u hu =>
        (hT.entries u hu).mono (PhysTree.ents_pos hu) (Nat.succ_le_succ (le_max_right (Space.levels S) _))
      have h3 := I.card_sum
      rw [← PhysTree.bag_card] at h1
      show AtMost (max (Space.levels S) (Space.levels T) + 1 + 1) (mn ::ₘ mx ::ₘ chbag K s c).card
        (2 + Space.entries s + ((SpaceColl.children c).map Space.entries).sum)
      rw [sum I]
      generalize max (Space.levels S) (Space.levels T) = l at *
      simp only [Multiset.card_cons, AtMost, Nat.succ_eq_add_one] at *
      have e : (l + 1 + 1) * ((chbag K s c).card + 1 + 1) =
        (l + 1) * (chbag K s c).card + (chbag K s c).card + 2 * l + 4 := by ring
      rw [e]
      omega
  · rintro ⟨mn, _ | ⟨mx, _ | ⟨s, c⟩⟩⟩ h
    · exact le_rfl
    · exact le_rfl
    · have I : ChW K s c := h
      have h2 := I.sum_le hT.least
      rw [← I.card_eq] at h2
      show (mn ::ₘ mx ::ₘ chbag K s c).card ≤ 2 + Space.entries s + ((SpaceColl.children c).map Space.entries).sum
      rw [sum I]
      simp only [Multiset.card_cons]
      omega
  · rintro ⟨mn, _ | ⟨mx, _ | ⟨s, c⟩⟩⟩ h
    · exact Nat.zero_le _
    · exact Nat.zero_le _
    · have I : ChW K s c := h
      show SpaceColl.slots c + Space.slots s + ((SpaceColl.children c).map Space.slots).sum ≤
        max (SpaceColl.width C) (max (Space.width S) (Space.width T)) *
        (1 + Space.nodes s + ((SpaceColl.children c).map Space.nodes).sum)
      have h1 : SpaceColl.slots c ≤ max (SpaceColl.width C) (max (Space.width S) (Space.width T)) :=
        (hC.slots c I.cInv).trans (le_max_left _ _)
      have h2 : Space.slots s ≤ max (SpaceColl.width C) (max (Space.width S) (Space.width T)) * Space.nodes s :=
        (hS.slots s I.sW).trans (Nat.mul_le_mul_right _ ((le_max_left _ _).trans (le_max_right _ _)))
      have h3 := I.sum_le fun u hu => (hT.slots u hu).trans (Nat.mul_le_mul_right (Space.nodes u)
        ((le_max_right (Space.width S) _).trans (le_max_right (SpaceColl.width C) _)))
      rw [ChW.sum_mul] at h3
      rw [sum I, sum I, Nat.mul_add, Nat.mul_add, Nat.mul_one]
      omega

end Tree

theorem CountedTree.space [LinearOrder K] [VebTree T K V] [Space T] {l : Prop} (h : CountedTree T K V l) :
    ∃ P : PhysTree T K V, (P.limited → l) ∧ SpaceOk P.W fun t => (P.ents t).card := by
  induction h with
  | byteSet => exact ⟨_, id, .ofLawful (fun _ _ => trivial) (fun t _ => t.entries_card) rfl (fun _ => rfl) fun _ => rfl⟩
  | byteMap => exact ⟨_, id, .ofLawful (fun _ _ => trivial) (fun t I => ByteMap.entries_card I) rfl (fun _ => rfl) fun _ => rfl⟩
  | btreeMap =>
    exact ⟨_, id, .ofLawful (fun _ _ => trivial) (fun t I => (BTreeMap.lists I).card.symm) rfl (fun _ => rfl) fun _ => rfl⟩
  | box _ ih =>
    obtain ⟨P, h, hP⟩ := ih
    exact ⟨inferInstance, h, ⟨fun t => hP.nodes t.val, fun t => hP.entries t.val, fun t => hP.least t.val, fun t => hP.slots t.val⟩⟩
  | sized _ ih =>
    obtain ⟨P, h, hP⟩ := ih
    exact ⟨inferInstance, fun _ => trivial, ⟨fun t h => hP.nodes t.tree h.1, fun t h => hP.entries t.tree h.1,
      fun t h => hP.least t.tree h.1, fun t h => hP.slots t.tree h.1⟩⟩
  | tree hk _ _ hc ihs iht =>
    have := hk.lawful
    obtain ⟨LC, hC⟩ := hc.count
    obtain ⟨PS, hs, hS⟩ := ihs
    obtain ⟨PT, ht, hT⟩ := iht
    exact ⟨inferInstance, fun h => h.imp hs ht, Tree.space hS hT hC⟩

/-- What the ledger says when all answers are those of the ordered map. -/
theorem ledger_entries [LinearOrder K] (ops : List (Op K V)) :
    (ledger 0 ops (SL.run [] ops).2).card = (entries ops).length := by
  obtain ⟨t, h1, h2⟩ := run_ok (T := BTreeMap K V) (t := none) (l := []) rfl ops (by
    have : ∀ l : SL K V, SL.SafeHist (fun _ _ => True) l ops := by
      induction ops with
      | nil => intro; trivial
      | cons op ops ih => intro l; exact ⟨by cases op <;> simp, ih _⟩
    exact this [])
  let P : PhysTree (BTreeMap K V) K V := PhysTree.ofLawful fun _ _ => trivial
  have h3 : obag t = _ := ledger_run (P := P) (n := 0) (t := none) trivial ops (fun h => h.elim) h1
  rw [show obag (none : Option (BTreeMap K V)) = 0 from rfl] at h3
  rw [← h3]
  cases t with
  | none => rw [show entries ops = [] from h2]; rfl
  | some t =>
    obtain ⟨I, hl⟩ := h2
    show (P.bag t).card = _
    rw [PhysTree.bag_card]
    exact (PhysTree.card_mapBag hl.finite).trans hl.card

theorem CountedTree.space_run [LinearOrder K] [VebTree T K V] [Space T] {l : Prop} (h : CountedTree T K V l)
    {ops : List (Op K V)} (hl : l → insertions ops ≤ usizeMax) {t : T} {os : List (Out K V)}
    (hr : Exec.run none ops = .ok (some t, os)) :
    1 ≤ (ledger 0 ops os).card ∧ AtMost (Space.levels T) (ledger 0 ops os).card (Space.nodes t) ∧
    AtMost (Space.levels T + 1) (ledger 0 ops os).card (Space.entries t) ∧
    (ledger 0 ops os).card ≤ Space.entries t ∧ Space.slots t ≤ Space.width T * Space.nodes t := by
  obtain ⟨P, h1, h2⟩ := h.space
  have hW := (phys_reaches (fun x => hl (h1 x)) ⟨os, hr⟩).1
  have h3 : P.bag t = _ := ledger_run (n := 0) (t := none) trivial ops (fun x => by simpa using hl (h1 x)) hr
  change P.bag t = ledger 0 ops os at h3
  rw [← h3, PhysTree.bag_card]
  exact ⟨PhysTree.ents_pos hW, h2.nodes t hW, h2.entries t hW, h2.least t hW, h2.slots t hW⟩

/-- Three keys need children, and children in an array need the whole array. -/
theorem Tree.array_slots [LinearOrder K] [LinearOrder Hi] [LinearOrder Lo] [VebKey K Hi Lo] [VebKeyRef K Hi Lo]
    [VebTree S Hi Unit] [VebTree T Lo V] [Space S] [Space T] [SizedVebKey Hi] {lS lT : Prop} (hk : GoodKey K Hi Lo)
    (hs : CountedTree S Hi Unit lS) (ht : CountedTree T Lo V lT) (hi : GoodIndex Hi)
    {ops : List (Op K V)} (hl : lS ∨ lT → insertions ops ≤ usizeMax) {t : Tree K V S (ArrayColl Hi T)} {os : List (Out K V)}
    (hr : Exec.run none ops = .ok (some t, os)) (hn : 3 ≤ (ledger 0 ops os).card) :
    SizedVebKey.cardinality Hi ≤ Space.slots t := by
  have := hk.lawful
  have := hi.lawful
  obtain ⟨PS, hS, -⟩ := hs.space
  obtain ⟨PT, hT, -⟩ := ht.space
  let P : PhysTree (Tree K V S (ArrayColl Hi T)) K V := inferInstance
  have hl' : P.limited → insertions ops ≤ usizeMax := fun x => hl (x.imp hS hT)
  have hW := (phys_reaches (P := P) hl' ⟨os, hr⟩).1
  have h3 : P.bag t = _ := ledger_run (n := 0) (t := none) trivial ops (fun x => by simpa using hl' x) hr
  change P.bag t = ledger 0 ops os at h3
  rw [← h3, PhysTree.bag_card] at hn
  obtain ⟨mn, _ | ⟨mx, _ | ⟨s, c⟩⟩⟩ := t
  · have : 3 ≤ 1 := hn
    omega
  · have : 3 ≤ 2 := hn
    omega
  · have I : ChW K s c := hW
    have h1 : c.array.len = SizedVebKey.cardinality Hi := I.cInv.1
    show _ ≤ c.array.len + Space.slots s + _
    omega

end Veb
