import Verif.Proof.Wrappers
import Verif.Proof.SLLemmas
import Mathlib.Data.Multiset.Bind
import Mathlib.Data.Set.Finite.Basic
import Mathlib.Algebra.Order.BigOperators.Group.Multiset

/-!
# Physically stored entries

The defect of `Tree::insert` breaks the order of a tree but not its structure.  `PhysTree` describes what survives:
the multiset `ents t` of entries that are physically stored (a key can be stored twice), how each method changes it,
and that no method panics.  `bag t` is the multiset of their keys.  No order among the keys is assumed.
-/

set_option autoImplicit false
set_option linter.unusedSectionVars false

namespace Veb

/-- The keys of a collection of entries. -/
def keysOf {K V : Type} (b : Multiset (K × V)) : Multiset K := b.map Prod.fst

section
variable {K V : Type}
theorem keysOf_cons (e : K × V) (b : Multiset (K × V)) : keysOf (e ::ₘ b) = e.1 ::ₘ keysOf b := Multiset.map_cons _ _ _
theorem keysOf_single (e : K × V) : keysOf {e} = {e.1} := Multiset.map_singleton _ _
theorem keysOf_zero : keysOf (0 : Multiset (K × V)) = 0 := rfl
theorem keysOf_card (b : Multiset (K × V)) : (keysOf b).card = b.card := Multiset.card_map _ _
theorem mem_keysOf {b : Multiset (K × V)} {k : K} : k ∈ keysOf b ↔ ∃ v, (k, v) ∈ b := by
  rw [keysOf, Multiset.mem_map]
  exact ⟨fun ⟨e, h, he⟩ => ⟨e.2, by rw [← he]; exact h⟩, fun ⟨v, h⟩ => ⟨_, h, rfl⟩⟩
theorem mem_keysOf_of {b : Multiset (K × V)} {e : K × V} (h : e ∈ b) : e.1 ∈ keysOf b :=
  Multiset.mem_map_of_mem _ h
end

/-- How an insertion of the entry `e0` that returns `o` changes the stored entries. -/
def InsRelE {K V : Type} (e0 : K × V) (b b' : Multiset (K × V)) : Option (K × V) → Prop
  | none => b' = e0 ::ₘ b
  | some e => ∃ r, b = e ::ₘ r ∧ b' = e0 ::ₘ r

/-- How an insertion of `k` that returns `o` changes the stored keys. -/
def InsRel {K V : Type} (k : K) (b b' : Multiset K) : Option (K × V) → Prop
  | none => b' = k ::ₘ b
  | some e => ∃ r, b = e.1 ::ₘ r ∧ b' = k ::ₘ r

theorem InsRelE.keys {K V : Type} {e0 : K × V} {b b' : Multiset (K × V)} {o : Option (K × V)} (h : InsRelE e0 b b' o) :
    InsRel e0.1 (keysOf b) (keysOf b') o := by
  cases o with
  | none => rw [show b' = _ from h]; exact keysOf_cons _ _
  | some e =>
    obtain ⟨r, rfl, rfl⟩ := h
    exact ⟨keysOf r, keysOf_cons _ _, keysOf_cons _ _⟩

/-- How a removal of `x` that leaves `o` changes what is stored. -/
def RestRel {T X : Type} (W : T → Prop) (bag : T → Multiset X) (b : Multiset X) (x : X) : Option T → Prop
  | none => b = {x}
  | some t => W t ∧ b = x ::ₘ bag t

theorem RestRel.keys {T K V : Type} {W : T → Prop} {ents : T → Multiset (K × V)} {b : Multiset (K × V)} {e : K × V}
    {o : Option T} (h : RestRel W ents b e o) : RestRel W (fun t => keysOf (ents t)) (keysOf b) e.1 o := by
  cases o with
  | none => rw [show b = _ from h]; exact keysOf_single e
  | some t => exact ⟨h.1, by rw [h.2]; exact keysOf_cons _ _⟩

/-- A `…_mut` result that reports a stored entry and whose write-back changes the value of that entry only. -/
def MutPhysE {T K V : Type} (W : T → Prop) (ents : T → Multiset (K × V)) (t : T) : Option (K × V × (V → T)) → Prop
  | none => True
  | some (k, v, put) => ∃ r, ents t = (k, v) ::ₘ r ∧ ∀ w, W (put w) ∧ ents (put w) = (k, w) ::ₘ r

/-- A `…_mut` result that reports a stored key and whose write-back keeps the structure. -/
def MutPhys {T K V : Type} (W : T → Prop) (bag : T → Multiset K) (t : T) : Option (K × V × (V → T)) → Prop
  | none => True
  | some (k, _, put) => k ∈ bag t ∧ ∀ w, W (put w) ∧ bag (put w) = bag t

theorem MutPhysE.keys {T K V : Type} {W : T → Prop} {ents : T → Multiset (K × V)} {t : T}
    {r : Option (K × V × (V → T))} (h : MutPhysE W ents t r) : MutPhys W (fun t => keysOf (ents t)) t r := by
  obtain _ | ⟨k, v, put⟩ := r
  · trivial
  · obtain ⟨r, h1, h2⟩ := h
    refine ⟨?_, fun w => ⟨(h2 w).1, ?_⟩⟩
    · show k ∈ keysOf (ents t)
      rw [h1, keysOf_cons]; exact Multiset.mem_cons_self _ _
    · show keysOf (ents (put w)) = keysOf (ents t)
      rw [h1, (h2 w).2, keysOf_cons, keysOf_cons]

/-- The structural behaviour of a tree type.  `limited` says that it contains a `usize` counter of its keys. -/
class PhysTree (T : Type) (K V : outParam Type) [LinearOrder K] [VebTree T K V] where
  W : T → Prop
  ents : T → Multiset (K × V)
  limited : Prop
  fromMonadE : ∀ k v, W (VebTree.fromMonad k v) ∧ ents (VebTree.fromMonad k v) = {(k, v)}
  isMonadE : ∀ t, W t → ∃ b, VebTree.isMonad t = .ok b ∧ (b = true ↔ (ents t).card = 1)
  lenHintE : ∀ t, W t → ∃ r, VebTree.lenHint t = .ok r ∧ r.1 ≤ (ents t).card ∧ ∀ n, r.2 = some n → n = (ents t).card
  intoMonadE : ∀ t, W t → (∃ k v, VebTree.intoMonad t = .ok (.Ok (k, v)) ∧ ents t = {(k, v)}) ∨
    (VebTree.intoMonad t = .ok (.Err t) ∧ (ents t).card ≠ 1)
  minValE : ∀ t, W t → ∃ k v, VebTree.minVal t = .ok (k, v) ∧ (k, v) ∈ ents t
  minValMutE : ∀ t, W t → ∃ r, VebTree.minValMut t = .ok r ∧ MutPhysE W ents t (some r)
  maxValE : ∀ t, W t → ∃ k v, VebTree.maxVal t = .ok (k, v) ∧ (k, v) ∈ ents t
  maxValMutE : ∀ t, W t → ∃ r, VebTree.maxValMut t = .ok r ∧ MutPhysE W ents t (some r)
  findE : ∀ t k, W t → ∃ r, VebTree.find t k = .ok r ∧ ∀ e, r = some e → e ∈ ents t
  findMutE : ∀ t k, W t → ∃ r, VebTree.findMut t k = .ok r ∧ MutPhysE W ents t r
  predecessorE : ∀ t k, W t → ∃ r, VebTree.predecessor t k = .ok r ∧ ∀ e, r = some e → e ∈ ents t
  predecessorMutE : ∀ t k, W t → ∃ r, VebTree.predecessorMut t k = .ok r ∧ MutPhysE W ents t r
  successorE : ∀ t k, W t → ∃ r, VebTree.successor t k = .ok r ∧ ∀ e, r = some e → e ∈ ents t
  successorMutE : ∀ t k, W t → ∃ r, VebTree.successorMut t k = .ok r ∧ MutPhysE W ents t r
  insertE : ∀ t k v, W t → (limited → (ents t).card < usizeMax) →
    ∃ t' o, VebTree.insert t k v = .ok (t', o) ∧ W t' ∧ InsRelE (k, v) (ents t) (ents t') o ∧
      ((keysOf (ents t)).Nodup → k ∉ keysOf (ents t) → o = none) ∧ ∀ e, o = some e → e.1 ∈ keysOf (ents t')
  removeE : ∀ t k, W t → (VebTree.remove t k = .ok (.Err t) ∧ k ∉ keysOf (ents t)) ∨
    ∃ o v, VebTree.remove t k = .ok (.Ok (o, (k, v))) ∧ RestRel W ents (ents t) (k, v) o
  removeMinE : ∀ t, W t → ∃ o k v, VebTree.minVal t = .ok (k, v) ∧ VebTree.removeMin t = .ok (o, (k, v)) ∧
    RestRel W ents (ents t) (k, v) o
  removeMaxE : ∀ t, W t → ∃ o k v, VebTree.maxVal t = .ok (k, v) ∧ VebTree.removeMax t = .ok (o, (k, v)) ∧
    RestRel W ents (ents t) (k, v) o

namespace PhysTree

/-! ## The same for the stored keys -/

section
variable {T K V : Type} [LinearOrder K] [VebTree T K V] [P : PhysTree T K V]

/-- The stored keys. -/
def bag (t : T) : Multiset K := keysOf (P.ents t)

theorem bag_card (t : T) : (P.bag t).card = (P.ents t).card := keysOf_card _
theorem fromMonad (k : K) (v : V) : P.W (VebTree.fromMonad k v) ∧ P.bag (VebTree.fromMonad k v) = {k} :=
  ⟨(P.fromMonadE k v).1, by rw [bag, (P.fromMonadE k v).2, keysOf_single]⟩
theorem isMonad (t : T) (h : P.W t) : ∃ b, VebTree.isMonad t = .ok b ∧ (b = true ↔ (P.bag t).card = 1) := by
  rw [bag_card]; exact P.isMonadE t h
theorem lenHint (t : T) (h : P.W t) :
    ∃ r, VebTree.lenHint t = .ok r ∧ r.1 ≤ (P.bag t).card ∧ ∀ n, r.2 = some n → n = (P.bag t).card := by
  rw [bag_card]; exact P.lenHintE t h
theorem intoMonad (t : T) (h : P.W t) : (∃ k v, VebTree.intoMonad t = .ok (.Ok (k, v)) ∧ P.bag t = {k}) ∨
    (VebTree.intoMonad t = .ok (.Err t) ∧ (P.bag t).card ≠ 1) := by
  rw [bag_card]
  rcases P.intoMonadE t h with ⟨k, v, h1, h2⟩ | h1
  · exact .inl ⟨k, v, h1, by rw [bag, h2, keysOf_single]⟩
  · exact .inr h1
theorem minVal (t : T) (h : P.W t) : ∃ k v, VebTree.minVal t = .ok (k, v) ∧ k ∈ P.bag t := by
  obtain ⟨k, v, h1, h2⟩ := P.minValE t h
  exact ⟨k, v, h1, mem_keysOf_of h2⟩
theorem maxVal (t : T) (h : P.W t) : ∃ k v, VebTree.maxVal t = .ok (k, v) ∧ k ∈ P.bag t := by
  obtain ⟨k, v, h1, h2⟩ := P.maxValE t h
  exact ⟨k, v, h1, mem_keysOf_of h2⟩
theorem minValMut (t : T) (h : P.W t) : ∃ r, VebTree.minValMut t = .ok r ∧ MutPhys P.W P.bag t (some r) := by
  obtain ⟨r, h1, h2⟩ := P.minValMutE t h
  exact ⟨r, h1, h2.keys⟩
theorem maxValMut (t : T) (h : P.W t) : ∃ r, VebTree.maxValMut t = .ok r ∧ MutPhys P.W P.bag t (some r) := by
  obtain ⟨r, h1, h2⟩ := P.maxValMutE t h
  exact ⟨r, h1, h2.keys⟩
theorem find (t : T) (k : K) (h : P.W t) : ∃ r, VebTree.find t k = .ok r ∧ ∀ e, r = some e → e.1 ∈ P.bag t := by
  obtain ⟨r, h1, h2⟩ := P.findE t k h
  exact ⟨r, h1, fun e he => mem_keysOf_of (h2 e he)⟩
theorem findMut (t : T) (k : K) (h : P.W t) : ∃ r, VebTree.findMut t k = .ok r ∧ MutPhys P.W P.bag t r := by
  obtain ⟨r, h1, h2⟩ := P.findMutE t k h
  exact ⟨r, h1, h2.keys⟩
theorem predecessor (t : T) (k : K) (h : P.W t) :
    ∃ r, VebTree.predecessor t k = .ok r ∧ ∀ e, r = some e → e.1 ∈ P.bag t := by
  obtain ⟨r, h1, h2⟩ := P.predecessorE t k h
  exact ⟨r, h1, fun e he => mem_keysOf_of (h2 e he)⟩
theorem predecessorMut (t : T) (k : K) (h : P.W t) :
    ∃ r, VebTree.predecessorMut t k = .ok r ∧ MutPhys P.W P.bag t r := by
  obtain ⟨r, h1, h2⟩ := P.predecessorMutE t k h
  exact ⟨r, h1, h2.keys⟩
theorem successor (t : T) (k : K) (h : P.W t) :
    ∃ r, VebTree.successor t k = .ok r ∧ ∀ e, r = some e → e.1 ∈ P.bag t := by
  obtain ⟨r, h1, h2⟩ := P.successorE t k h
  exact ⟨r, h1, fun e he => mem_keysOf_of (h2 e he)⟩
theorem successorMut (t : T) (k : K) (h : P.W t) :
    ∃ r, VebTree.successorMut t k = .ok r ∧ MutPhys P.W P.bag t r := by
  obtain ⟨r, h1, h2⟩ := P.successorMutE t k h
  exact ⟨r, h1, h2.keys⟩
theorem insert (t : T) (k : K) (v : V) (h : P.W t) (hl : P.limited → (P.bag t).card < usizeMax) :
    ∃ t' o, VebTree.insert t k v = .ok (t', o) ∧ P.W t' ∧ InsRel k (P.bag t) (P.bag t') o ∧
      ((P.bag t).Nodup → k ∉ P.bag t → o = none) ∧ ∀ e, o = some e → e.1 ∈ P.bag t' := by
  rw [bag_card] at hl
  obtain ⟨t', o, h1, h2, h3, h4⟩ := P.insertE t k v h hl
  exact ⟨t', o, h1, h2, h3.keys, h4⟩
theorem remove (t : T) (k : K) (h : P.W t) : (VebTree.remove t k = .ok (.Err t) ∧ k ∉ P.bag t) ∨
    ∃ o v, VebTree.remove t k = .ok (.Ok (o, (k, v))) ∧ RestRel P.W P.bag (P.bag t) k o := by
  rcases P.removeE t k h with h1 | ⟨o, v, h1, h2⟩
  · exact .inl h1
  · exact .inr ⟨o, v, h1, h2.keys⟩
theorem removeMin (t : T) (h : P.W t) : ∃ o k v, VebTree.minVal t = .ok (k, v) ∧
    VebTree.removeMin t = .ok (o, (k, v)) ∧ RestRel P.W P.bag (P.bag t) k o := by
  obtain ⟨o, k, v, h1, h2, h3⟩ := P.removeMinE t h
  exact ⟨o, k, v, h1, h2, h3.keys⟩
theorem removeMax (t : T) (h : P.W t) : ∃ o k v, VebTree.maxVal t = .ok (k, v) ∧
    VebTree.removeMax t = .ok (o, (k, v)) ∧ RestRel P.W P.bag (P.bag t) k o := by
  obtain ⟨o, k, v, h1, h2, h3⟩ := P.removeMaxE t h
  exact ⟨o, k, v, h1, h2, h3.keys⟩

theorem ents_pos {t : T} (h : P.W t) : 1 ≤ (P.ents t).card := by
  obtain ⟨k, v, -, h2⟩ := P.minValE t h
  exact Multiset.card_pos_iff_exists_mem.2 ⟨_, h2⟩
end

theorem bag_pos {T K V : Type} [LinearOrder K] [VebTree T K V] [P : PhysTree T K V] {t : T} (h : P.W t) :
    1 ≤ (P.bag t).card := by
  obtain ⟨k, v, -, h2⟩ := P.minVal t h
  exact Multiset.card_pos_iff_exists_mem.2 ⟨k, h2⟩

/-! ## Trees that are always correct -/

section
open Classical
variable {T K V : Type} [LinearOrder K] [VebTree T K V]

/-- The entries of a finite map. -/
noncomputable def mapBag (M : Map K V) : Multiset (K × V) :=
  if h : Set.Finite {e : K × V | M e.1 = some e.2} then h.toFinset.val else 0

theorem finite_ents {M : Map K V} (h : Set.Finite {k | M.Mem k}) : Set.Finite {e : K × V | M e.1 = some e.2} := by
  refine Set.Finite.of_finite_image (f := Prod.fst) (h.subset ?_) ?_
  · rintro _ ⟨e, he, rfl⟩
    exact Map.mem_of he
  · rintro ⟨k, v⟩ h1 ⟨k', v'⟩ h2 (rfl : k = k')
    rw [Set.mem_ofPred_eq] at h1 h2
    rw [show v = v' from Option.some.inj (h1.symm.trans h2)]
theorem mem_mapBag {M : Map K V} (h : Set.Finite {k | M.Mem k}) {e : K × V} : e ∈ mapBag M ↔ M e.1 = some e.2 := by
  rw [mapBag, dif_pos (finite_ents h)]
  exact Set.Finite.mem_toFinset (finite_ents h)
theorem mem_mapKeys {M : Map K V} (h : Set.Finite {k | M.Mem k}) {k : K} : k ∈ keysOf (mapBag M) ↔ M.Mem k := by
  rw [mem_keysOf, Map.mem_iff]
  exact exists_congr fun v => mem_mapBag h
theorem nodup_mapBag (M : Map K V) : (mapBag M).Nodup := by
  rw [mapBag]
  split
  · exact Finset.nodup _
  · exact Multiset.nodup_zero
theorem nodup_mapKeys {M : Map K V} (h : Set.Finite {k | M.Mem k}) : (keysOf (mapBag M)).Nodup := by
  refine (Multiset.nodup_map_iff_of_inj_on ?_).2 (nodup_mapBag M)
  rintro ⟨k, v⟩ h1 ⟨k', v'⟩ h2 (rfl : k = k')
  rw [mem_mapBag h] at h1 h2
  rw [show v = v' from Option.some.inj (h1.symm.trans h2)]
theorem card_mapBag {M : Map K V} (h : Set.Finite {k | M.Mem k}) : (mapBag M).card = M.card := by
  have : keysOf (mapBag M) = h.toFinset.val :=
    ((nodup_mapKeys h).ext (Finset.nodup _)).2 fun k => (mem_mapKeys h).trans (Set.Finite.mem_toFinset h).symm
  rw [← keysOf_card, this, Map.card, Set.ncard_eq_toFinset_card _ h]; rfl
theorem mapBag_eq {M : Map K V} (h : Set.Finite {k | M.Mem k}) {b : Multiset (K × V)} (hb : b.Nodup)
    (he : ∀ k v, (k, v) ∈ b ↔ M k = some v) : mapBag M = b :=
  ((nodup_mapBag M).ext hb).2 fun e => (mem_mapBag h).trans (he e.1 e.2).symm
theorem mapBag_single (k : K) (v : V) : mapBag (Map.single k v) = {(k, v)} := by
  refine mapBag_eq ?_ (Multiset.nodup_singleton _) fun j w => ?_
  · simp only [Map.mem_single]
    exact Set.finite_singleton k
  · rw [Multiset.mem_singleton, Map.single_apply, Prod.mk.injEq]
    split
    · next h => simp [h, eq_comm]
    · next h => simp [h]
theorem card_one {M : Map K V} (h : Set.Finite {k | M.Mem k}) : (mapBag M).card = 1 ↔ M.IsSingle := by
  obtain ⟨l, hl⟩ := SL.exists_lists h
  rw [card_mapBag h, hl.card, hl.length_one]

/-- Taking an entry out of a map. -/
theorem mapBag_cons {M N : Map K V} (h : Set.Finite {k | M.Mem k}) (hN : Set.Finite {k | N.Mem k}) {k : K} {v : V}
    (hk : M k = some v) (e : N = M.upd k none) : mapBag M = (k, v) ::ₘ mapBag N := by
  refine mapBag_eq h (Multiset.nodup_cons.2 ⟨?_, nodup_mapBag _⟩) fun j w => ?_
  · rw [mem_mapBag hN, e, Map.upd_self]; exact fun x => by cases x
  · rw [Multiset.mem_cons, mem_mapBag hN, e, Prod.mk.injEq, Map.upd_apply]
    split
    · next h => subst h; simp [hk, eq_comm]
    · next h => simp [h]

theorem mapBag_upd {M : Map K V} (h : Set.Finite {k | M.Mem k}) (k : K) (o : Option V) :
    Set.Finite {j | (M.upd k o).Mem j} := by
  refine ((Set.finite_singleton k).union h).subset fun j hj => ?_
  by_cases e : j = k
  · exact .inl e
  · exact .inr (by rwa [Set.mem_ofPred_eq, Map.Mem, Map.upd_ne _ _ e] at hj)

variable [L : LawfulVebTree T K V]

theorem upd_upd (M : Map K V) (k : K) (o o' : Option V) : (M.upd k o).upd k o' = M.upd k o' := by
  funext j
  simp only [Map.upd_apply]
  split <;> rfl

theorem mapBag_put {t : T} (I : L.Inv t) {k : K} {v : V} (hk : L.abs t k = some v) {put : V → T}
    (h : PutOk L.Inv L.abs t k put) : ∃ r, mapBag (L.abs t) = (k, v) ::ₘ r ∧
      ∀ w, L.Inv (put w) ∧ mapBag (L.abs (put w)) = (k, w) ::ₘ r := by
  have hf := L.finite t I
  have hn := mapBag_upd hf k none
  refine ⟨mapBag ((L.abs t).upd k none), mapBag_cons hf hn hk rfl, fun w => ⟨(h w).1, ?_⟩⟩
  refine mapBag_cons (L.finite _ (h w).1) hn (by rw [(h w).2]; simp) ?_
  rw [(h w).2, upd_upd]

theorem mutPhys {t : T} (I : L.Inv t) {Q : Option (K × V) → Prop} {r : Option (K × V × (V → T))}
    (h : MutOk L.Inv L.abs t Q r) (hQ : ∀ e, Q (some e) → L.abs t e.1 = some e.2) :
    MutPhysE L.Inv (fun t => mapBag (L.abs t)) t r := by
  obtain _ | ⟨k, v, put⟩ := r
  · trivial
  · exact mapBag_put I (hQ _ h.1) (h.2 k v put rfl)

theorem restRel {t : T} (I : L.Inv t) {k : K} {v : V} (hk : L.abs t k = some v) {o : Option T}
    (h : RemOk L.Inv L.abs ((L.abs t).upd k none) o) :
    RestRel L.Inv (fun t => mapBag (L.abs t)) (mapBag (L.abs t)) (k, v) o := by
  have hf := L.finite t I
  cases o with
  | none =>
    have h : (L.abs t).upd k none = Map.empty := h
    have h0 := mapBag_cons hf (mapBag_upd hf k none) hk rfl
    rw [h] at h0
    refine h0.trans (congrArg ((k, v) ::ₘ ·) ?_)
    refine mapBag_eq ?_ Multiset.nodup_zero fun j w => ?_
    · rw [← h]; exact mapBag_upd hf k none
    · exact ⟨fun x => absurd x (Multiset.notMem_zero _), fun x => by cases x⟩
  | some t' => exact ⟨h.1, mapBag_cons hf (L.finite t' h.1) hk h.2⟩

/-- A lawful tree whose insertions are all safe. -/
@[reducible] noncomputable def ofLawful (hsafe : ∀ P k, L.Safe P k) : PhysTree T K V where
  W := L.Inv
  ents t := mapBag (L.abs t)
  limited := False
  fromMonadE k v := ⟨(L.fromMonad k v).1, by rw [(L.fromMonad k v).2, mapBag_single]⟩
  isMonadE t I := by
    obtain ⟨b, h1, h2⟩ := L.isMonad t I
    exact ⟨b, h1, by rw [h2, card_one (L.finite t I)]⟩
  lenHintE t I := by
    obtain ⟨lo, hi, h1, h2, h3⟩ := L.lenHint t I
    rw [card_mapBag (L.finite t I)]
    exact ⟨_, h1, h2, fun n hn => (h3 n hn).symm⟩
  intoMonadE t I := by
    rcases L.intoMonad t I with ⟨k, v, h1, h2⟩ | ⟨h1, h2⟩
    · exact .inl ⟨k, v, h1, by rw [h2, mapBag_single]⟩
    · exact .inr ⟨h1, by rwa [Ne, card_one (L.finite t I)]⟩
  minValE t I := by
    obtain ⟨⟨k, v⟩, h1, h2⟩ := L.minVal t I
    exact ⟨k, v, h1, (mem_mapBag (L.finite t I)).2 h2.1⟩
  minValMutE t I := by
    obtain ⟨⟨k, v, put⟩, h1, h2, h3⟩ := L.minValMut t I
    exact ⟨_, h1, mapBag_put I h2.1 h3⟩
  maxValE t I := by
    obtain ⟨⟨k, v⟩, h1, h2⟩ := L.maxVal t I
    exact ⟨k, v, h1, (mem_mapBag (L.finite t I)).2 h2.1⟩
  maxValMutE t I := by
    obtain ⟨⟨k, v, put⟩, h1, h2, h3⟩ := L.maxValMut t I
    exact ⟨_, h1, mapBag_put I h2.1 h3⟩
  findE t k I := by
    refine ⟨_, L.find t k I, fun e he => ?_⟩
    obtain ⟨w, hw, rfl⟩ := Option.map_eq_some_iff.1 he
    exact (mem_mapBag (L.finite t I)).2 hw
  findMutE t k I := by
    obtain ⟨r, h1, h2⟩ := L.findMut t k I
    refine ⟨r, h1, mutPhys I h2 fun e he => ?_⟩
    obtain ⟨w, hw, rfl⟩ := Option.map_eq_some_iff.1 he.symm
    exact hw
  predecessorE t k I := by
    obtain ⟨r, h1, h2⟩ := L.predecessor t k I
    refine ⟨r, h1, ?_⟩
    rintro e rfl
    exact (mem_mapBag (L.finite t I)).2 h2.1
  predecessorMutE t k I := by
    obtain ⟨r, h1, h2⟩ := L.predecessorMut t k I
    exact ⟨r, h1, mutPhys I h2 fun e he => he.1⟩
  successorE t k I := by
    obtain ⟨r, h1, h2⟩ := L.successor t k I
    refine ⟨r, h1, ?_⟩
    rintro e rfl
    exact (mem_mapBag (L.finite t I)).2 h2.1
  successorMutE t k I := by
    obtain ⟨r, h1, h2⟩ := L.successorMut t k I
    exact ⟨r, h1, mutPhys I h2 fun e he => he.1⟩
  insertE t k v I _ := by
    obtain ⟨t', h1, h2, h3⟩ := L.insert t k v I (hsafe _ _)
    have hf := L.finite t I
    have hn := mapBag_upd hf k none
    have hc : mapBag (L.abs t') = (k, v) ::ₘ mapBag ((L.abs t).upd k none) :=
      mapBag_cons (L.finite t' h2) hn (by rw [h3]; simp) (by rw [h3, upd_upd])
    refine ⟨t', _, h1, h2, ?_, fun _ hk => ?_, fun e he => ?_⟩
    · cases he : L.abs t k with
      | none =>
        refine hc.trans ?_
        congr 2
        funext j
        rw [Map.upd_apply]
        split
        · next h => rw [h, he]
        · rfl
      | some w => exact ⟨_, mapBag_cons hf hn he rfl, hc⟩
    · rw [mem_mapKeys hf] at hk
      rw [Map.not_mem.1 hk]; rfl
    · obtain ⟨w, -, rfl⟩ := Option.map_eq_some_iff.1 he
      rw [mem_mapKeys (L.finite t' h2), h3, Map.mem_upd_some]
      exact .inl rfl
  removeE t k I := by
    cases he : L.abs t k with
    | none => exact .inl ⟨L.remove_none t k I he, by rw [mem_mapKeys (L.finite t I)]; exact fun h => h he⟩
    | some v =>
      obtain ⟨o, h1, h2⟩ := L.remove_some t k v I he
      exact .inr ⟨o, v, h1, restRel I he h2⟩
  removeMinE t I := by
    obtain ⟨o, ⟨k, v⟩, h1, h2, h3⟩ := L.removeMin t I
    obtain ⟨kv, h4, h5⟩ := L.minVal t I
    cases h5.unique h2
    exact ⟨o, k, v, h4, h1, restRel I h2.1 h3⟩
  removeMaxE t I := by
    obtain ⟨o, ⟨k, v⟩, h1, h2, h3⟩ := L.removeMax t I
    obtain ⟨kv, h4, h5⟩ := L.maxVal t I
    cases h5.unique h2
    exact ⟨o, k, v, h4, h1, restRel I h2.1 h3⟩

end

/-! ## Box -/

section
variable {T K V : Type} [LinearOrder K] [VebTree T K V] [P : PhysTree T K V]

theorem box_mut {t : Box T} {r : Option (K × V × (V → T))} (h : MutPhysE P.W P.ents t.val r) :
    MutPhysE (fun t : Box T => P.W t.val) (fun t => P.ents t.val) t (r.map (mapPut Box.mk)) := by
  obtain _ | ⟨k, v, put⟩ := r
  · trivial
  · exact h

theorem box_rest {b : Multiset (K × V)} {k : K × V} {o : Option T} (h : RestRel P.W P.ents b k o) :
    RestRel (fun t : Box T => P.W t.val) (fun t => P.ents t.val) b k (o.map Box.mk) := by
  cases o <;> exact h

instance instBox : PhysTree (Box T) K V where
  W t := P.W t.val
  ents t := P.ents t.val
  limited := P.limited
  fromMonadE k v := P.fromMonadE k v
  isMonadE t := P.isMonadE t.val
  lenHintE t := P.lenHintE t.val
  intoMonadE t h := by
    rcases P.intoMonadE t.val h with ⟨k, v, h1, h2⟩ | ⟨h1, h2⟩
    · exact .inl ⟨k, v, by simp [VebTree.intoMonad, h1], h2⟩
    · exact .inr ⟨by simp [VebTree.intoMonad, h1], h2⟩
  minValE t := P.minValE t.val
  minValMutE t h := by
    obtain ⟨r, h1, h2⟩ := P.minValMutE t.val h
    exact ⟨_, by simp only [VebTree.minValMut, h1]; rfl, box_mut h2⟩
  maxValE t := P.maxValE t.val
  maxValMutE t h := by
    obtain ⟨r, h1, h2⟩ := P.maxValMutE t.val h
    exact ⟨_, by simp only [VebTree.maxValMut, h1]; rfl, box_mut h2⟩
  findE t := P.findE t.val
  findMutE t k h := by
    obtain ⟨r, h1, h2⟩ := P.findMutE t.val k h
    exact ⟨_, by simp only [VebTree.findMut, h1]; rfl, box_mut h2⟩
  predecessorE t := P.predecessorE t.val
  predecessorMutE t k h := by
    obtain ⟨r, h1, h2⟩ := P.predecessorMutE t.val k h
    exact ⟨_, by simp only [VebTree.predecessorMut, h1]; rfl, box_mut h2⟩
  successorE t := P.successorE t.val
  successorMutE t k h := by
    obtain ⟨r, h1, h2⟩ := P.successorMutE t.val k h
    exact ⟨_, by simp only [VebTree.successorMut, h1]; rfl, box_mut h2⟩
  insertE t k v h hl := by
    obtain ⟨t', o, h1, h2⟩ := P.insertE t.val k v h hl
    exact ⟨⟨t'⟩, o, by simp [VebTree.insert, h1], h2⟩
  removeE t k h := by
    rcases P.removeE t.val k h with ⟨h1, h2⟩ | ⟨o, v, h1, h2⟩
    · exact .inl ⟨by simp [VebTree.remove, h1], h2⟩
    · exact .inr ⟨_, v, by simp only [VebTree.remove, h1]; rfl, box_rest h2⟩
  removeMinE t h := by
    obtain ⟨o, k, v, h1, h2, h3⟩ := P.removeMinE t.val h
    exact ⟨_, k, v, h1, by simp only [VebTree.removeMin, h2]; rfl, box_rest h3⟩
  removeMaxE t h := by
    obtain ⟨o, k, v, h1, h2, h3⟩ := P.removeMaxE t.val h
    exact ⟨_, k, v, h1, by simp only [VebTree.removeMax, h2]; rfl, box_rest h3⟩

/-! ## SizedVebTree: the counter is the number of stored keys -/

/-- the structural invariant of a counted tree -/
def SizedW (t : SizedVebTree T) : Prop := P.W t.tree ∧ t.size = (P.ents t.tree).card

theorem sized_mut {t : SizedVebTree T} (I : SizedW t) {r : Option (K × V × (V → T))}
    (h : MutPhysE P.W P.ents t.tree r) :
    MutPhysE (SizedW (T := T)) (fun t => P.ents t.tree) t (r.map (mapPut fun u => ⟨u, t.size⟩)) := by
  obtain _ | ⟨k, v, put⟩ := r
  · trivial
  · obtain ⟨r, h1, h2⟩ := h
    refine ⟨r, h1, fun w => ⟨⟨(h2 w).1, ?_⟩, (h2 w).2⟩⟩
    show t.size = (P.ents (put w)).card
    rw [(h2 w).2, I.2, h1, Multiset.card_cons, Multiset.card_cons]

theorem sized_rest {t : SizedVebTree T} (I : SizedW t) {k : K × V} {t' : T}
    (h : RestRel P.W P.ents (P.ents t.tree) k (some t')) :
    SizedVebTree.nonZero (t.size - 1) = some (t.size - 1) ∧
      RestRel (SizedW (T := T)) (fun t => P.ents t.tree) (P.ents t.tree) k (some ⟨t', t.size - 1⟩) := by
  have h1 := ents_pos h.1
  have h2 := I.2
  rw [h.2, Multiset.card_cons] at h2
  refine ⟨?_, ⟨h.1, ?_⟩, h.2⟩
  · have : t.size - 1 ≠ 0 := by omega
    simp [SizedVebTree.nonZero, this]
  · show t.size - 1 = (P.ents t').card
    omega

theorem sized_pos {t : SizedVebTree T} (I : SizedW t) : 1 ≤ t.size := by rw [I.2]; exact ents_pos I.1

instance instSized : PhysTree (SizedVebTree T) K V where
  W := SizedW
  ents t := P.ents t.tree
  limited := True
  fromMonadE k v := by
    obtain ⟨h1, h2⟩ := P.fromMonadE k v
    refine ⟨⟨h1, ?_⟩, h2⟩
    show 1 = (P.ents (VebTree.fromMonad k v)).card
    rw [h2]; rfl
  isMonadE t I := by
    obtain ⟨b, h1, h2⟩ := P.isMonadE t.tree I.1
    refine ⟨b, ?_, h2⟩
    cases b with
    | false => simp [VebTree.isMonad, h1]
    | true =>
      have : t.size = 1 := I.2.trans (h2.1 rfl)
      simp [VebTree.isMonad, h1, this]
  lenHintE t I := ⟨_, rfl, I.2.le, fun n hn => by cases hn; exact I.2⟩
  intoMonadE t I := by
    rcases P.intoMonadE t.tree I.1 with ⟨k, v, h1, h2⟩ | ⟨h1, h2⟩
    · exact .inl ⟨k, v, by simp [VebTree.intoMonad, h1], h2⟩
    · exact .inr ⟨by simp [VebTree.intoMonad, h1], h2⟩
  minValE t I := P.minValE t.tree I.1
  minValMutE t I := by
    obtain ⟨r, h1, h2⟩ := P.minValMutE t.tree I.1
    exact ⟨_, by simp only [VebTree.minValMut, h1]; rfl, sized_mut I h2⟩
  maxValE t I := P.maxValE t.tree I.1
  maxValMutE t I := by
    obtain ⟨r, h1, h2⟩ := P.maxValMutE t.tree I.1
    exact ⟨_, by simp only [VebTree.maxValMut, h1]; rfl, sized_mut I h2⟩
  findE t k I := P.findE t.tree k I.1
  findMutE t k I := by
    obtain ⟨r, h1, h2⟩ := P.findMutE t.tree k I.1
    exact ⟨_, by simp only [VebTree.findMut, h1]; rfl, sized_mut I h2⟩
  predecessorE t k I := P.predecessorE t.tree k I.1
  predecessorMutE t k I := by
    obtain ⟨r, h1, h2⟩ := P.predecessorMutE t.tree k I.1
    exact ⟨_, by simp only [VebTree.predecessorMut, h1]; rfl, sized_mut I h2⟩
  successorE t k I := P.successorE t.tree k I.1
  successorMutE t k I := by
    obtain ⟨r, h1, h2⟩ := P.successorMutE t.tree k I.1
    exact ⟨_, by simp only [VebTree.successorMut, h1]; rfl, sized_mut I h2⟩
  insertE t k v I hl := by
    obtain ⟨t', o, h1, h2, h3, h4⟩ := P.insertE t.tree k v I.1 fun _ => hl trivial
    cases o with
    | none =>
      have hlt : t.size + 1 ≤ usizeMax := by rw [I.2]; exact hl trivial
      refine ⟨⟨t', t.size + 1⟩, none, ?_, ⟨h2, ?_⟩, h3, h4⟩
      · simp [VebTree.insert, h1, hlt]
      · have h3 : P.ents t' = _ := h3
        show t.size + 1 = (P.ents t').card
        rw [h3, Multiset.card_cons, I.2]
    | some e =>
      refine ⟨⟨t', t.size⟩, some e, ?_, ⟨h2, ?_⟩, h3, h4⟩
      · simp [VebTree.insert, h1]
      · obtain ⟨r, e1, e2⟩ := h3
        show t.size = (P.ents t').card
        rw [I.2, e1, e2, Multiset.card_cons, Multiset.card_cons]
  removeE t k I := by
    rcases P.removeE t.tree k I.1 with ⟨h1, h2⟩ | ⟨o, v, h1, h2⟩
    · exact .inl ⟨by simp [VebTree.remove, h1], h2⟩
    · have hp := sized_pos I
      cases o with
      | none => exact .inr ⟨none, v, by simp [VebTree.remove, h1], h2⟩
      | some t' =>
        obtain ⟨h3, h4⟩ := sized_rest I h2
        exact .inr ⟨some ⟨t', t.size - 1⟩, v, by simp [VebTree.remove, h1, subUsize, hp, h3], h4⟩
  removeMinE t I := by
    obtain ⟨o, k, v, h0, h1, h2⟩ := P.removeMinE t.tree I.1
    have hp := sized_pos I
    cases o with
    | none => exact ⟨none, k, v, h0, by simp [VebTree.removeMin, h1, subUsize, hp], h2⟩
    | some t' =>
      obtain ⟨h3, h4⟩ := sized_rest I h2
      exact ⟨some ⟨t', t.size - 1⟩, k, v, h0, by simp [VebTree.removeMin, h1, subUsize, hp, h3], h4⟩
  removeMaxE t I := by
    obtain ⟨o, k, v, h0, h1, h2⟩ := P.removeMaxE t.tree I.1
    have hp := sized_pos I
    cases o with
    | none => exact ⟨none, k, v, h0, by simp [VebTree.removeMax, h1, subUsize, hp], h2⟩
    | some t' =>
      obtain ⟨h3, h4⟩ := sized_rest I h2
      exact ⟨some ⟨t', t.size - 1⟩, k, v, h0, by simp [VebTree.removeMax, h1, subUsize, hp, h3], h4⟩

end
end PhysTree
end Veb
