import Verif.Props.Cost
import Verif.Proof.Refill
import Verif.Props.Tree

/-!
# C66: what an operation costs, at any prices

`Verif.Model.Tick` logs every call of a tree method, every comparison of keys, every split and join of a key and every call
of a collection method made by `Tree`, and every new collection with the number of array slots it fills with `None`.
-/

set_option autoImplicit false
set_option synthInstance.maxHeartbeats 200000
set_option synthInstance.maxSize 1000

namespace Veb.Props

section
variable {T K V : Type} [VebTree T K V] [TickTree T K V] {b N n r : Nat}

/-- **C66, at any prices.** Take any tree type put together from the crate: `n` levels of `Tree`, `r` wrappers on top, at
most `b` wrappers in a row inside, arrays of at most `N` slots.  Whatever the prices `w`, if no new collection with at most
`N` slots costs more than `m`, then on every tree whatsoever no method costs more than
`(1 + r) * visit + n * (3 * (b + 1) * visit + split + join + 2 * call) + (5 * n - 2) * cmp`, with `m` more for `insert` and
one visit more for `remove`; and the methods that look at the extremes cost `1 + r` visits. -/
theorem C66_prices (h : Nested b N T K V n r) (w : Ev → Nat) {m : Nat} (hm : ∀ k ≤ N, w (.make k) ≤ m) :
    CostsAtMost w T ((1 + r) * w .visit)
      ((1 + r) * w .visit + n * (3 * ((b + 1) * w .visit) + w .split + w .join + 2 * w .call) + (5 * n - 2) * w .cmp) m :=
  (h.cost hm).costs

/-- **C66, one by one.** No operation makes more than `5 * n - 2` comparisons, `n` splits, `n` joins and `2 * n` calls of
collection methods; only `insert` makes new collections, at most one, with at most `N` slots; and the methods that create a
tree or look only at its extremes do none of this. -/
theorem C66_each (h : Nested b N T K V n r) :
    CostsAtMost (priceOf .cmp) T 0 (5 * n - 2) 0 ∧ CostsAtMost (priceOf .split) T 0 n 0 ∧
    CostsAtMost (priceOf .join) T 0 n 0 ∧ CostsAtMost (priceOf .call) T 0 (2 * n) 0 ∧
    CostsAtMost pricePerMake T 0 0 1 ∧ CostsAtMost pricePerSlot T 0 0 N := by
  refine ⟨?_, ?_, ?_, ?_, ?_, ?_⟩
  · simpa [priceOf] using C66_prices h (priceOf .cmp) (m := 0) fun k _ => Nat.le_refl _
  · simpa [priceOf] using C66_prices h (priceOf .split) (m := 0) fun k _ => Nat.le_refl _
  · simpa [priceOf] using C66_prices h (priceOf .join) (m := 0) fun k _ => Nat.le_refl _
  · simpa [priceOf, Nat.mul_comm] using C66_prices h (priceOf .call) (m := 0) fun k _ => Nat.le_refl _
  · simpa [pricePerMake] using C66_prices h pricePerMake (m := 1) fun k _ => Nat.le_refl _
  · simpa [pricePerSlot] using C66_prices h pricePerSlot (m := N) fun k hk => hk

/-- **C66 over histories.** A history costs at most a constant per operation, however many keys are stored. -/
theorem C66_history (h : Nested b N T K V n r) (w : Ev → Nat) {m : Nat} (hm : ∀ k ≤ N, w (.make k) ≤ m)
    (ops : List (Op K V)) :
    totalCost w (none : Option T) ops ≤ ops.length *
      ((1 + r) * w .visit + n * (3 * ((b + 1) * w .visit) + w .split + w .join + 2 * w .call) + (5 * n - 2) * w .cmp +
        w .visit + m) :=
  (C66_prices h w hm).total ((h.cost hm).xs.trans (h.cost hm).le) ops none

/-- An insertion. -/
def isInsert : Op K V → Bool
  | .insert _ _ => true
  | _ => false

/-- **C66, new collections over histories.** At most one new collection per insertion, so at most `N` array slots filled
per insertion. -/
theorem C66_makes (h : Nested b N T K V n r) (ops : List (Op K V)) :
    totalCost pricePerMake (none : Option T) ops ≤ ops.countP isInsert ∧
    totalCost pricePerSlot (none : Option T) ops ≤ ops.countP isInsert * N := by
  have key : ∀ (w : Ev → Nat) (m : Nat), w .visit = 0 → CostsAtMost w T 0 0 m → ∀ (ops : List (Op K V)) (t : Option T),
      totalCost w t ops ≤ ops.countP isInsert * m := by
    intro w m hv H ops
    have h1 : ∀ (t : Option T) (op : Op K V), opCost w t op ≤ if isInsert op then m else 0 := by
      intro t op
      obtain _ | t := t
      · cases op with
        | insert k v => exact (H.fromMonad k v).trans (Nat.zero_le _)
        | _ => exact Nat.zero_le _
      · cases op with
        | insert k v => exact (H.insert t k v).trans (by simp [isInsert])
        | remove k => exact (H.remove t k).trans (by simp [hv])
        | removeMin => exact H.removeMin t
        | removeMax => exact H.removeMax t
        | find k => exact H.find t k
        | predecessor k => exact H.predecessor t k
        | successor k => exact H.successor t k
        | minVal => exact H.minVal t
        | maxVal => exact H.maxVal t
        | isMonad => exact H.isMonad t
        | intoMonad => exact (H.intoMonad t).trans (by simp [hv])
        | findSet k w => exact H.findMut t k
        | predecessorSet k w => exact H.predecessorMut t k
        | successorSet k w => exact H.successorMut t k
        | minSet w => exact H.minValMut t
        | maxSet w => exact H.maxValMut t
    induction ops with
    | nil => exact fun _ => Nat.zero_le _
    | cons op ops ih =>
      intro t
      have h3 := h1 t op
      have h4 : (op :: ops).countP isInsert * m = ops.countP isInsert * m + if isInsert op then m else 0 := by
        rw [List.countP_cons, Nat.add_mul]
        split <;> simp
      rw [h4]
      show opCost w t op + _ ≤ _
      cases Exec.step t op with
      | error e => dsimp only; omega
      | ok r => have := ih r.1; dsimp only; omega
  obtain ⟨-, -, -, -, h5, h6⟩ := C66_each h
  exact ⟨by simpa using key _ 1 rfl h5 ops none, key _ N rfl h6 ops none⟩

end

/-- **C66, predefined types.** With `u`-bit keys no operation makes more than `5 * lg (u / 8) - 2` comparisons,
`lg (u / 8)` splits, as many joins and twice as many calls of collection methods, and only `insert` fills arrays: at most
one, with `2 ^ (u / 2)` slots. -/
theorem C66_predefined (V : Type) :
    (CostsAtMost (priceOf .cmp) (Map16 (U 16) V) 0 (5 * 1 - 2) 0 ∧ CostsAtMost (priceOf .split) (Map16 (U 16) V) 0 1 0 ∧
      CostsAtMost (priceOf .join) (Map16 (U 16) V) 0 1 0 ∧ CostsAtMost (priceOf .call) (Map16 (U 16) V) 0 (2 * 1) 0 ∧
      CostsAtMost pricePerMake (Map16 (U 16) V) 0 0 1 ∧ CostsAtMost pricePerSlot (Map16 (U 16) V) 0 0 (2 ^ 8)) ∧
    (CostsAtMost (priceOf .cmp) (Map32 (U 32) V) 0 (5 * 2 - 2) 0 ∧ CostsAtMost (priceOf .split) (Map32 (U 32) V) 0 2 0 ∧
      CostsAtMost (priceOf .join) (Map32 (U 32) V) 0 2 0 ∧ CostsAtMost (priceOf .call) (Map32 (U 32) V) 0 (2 * 2) 0 ∧
      CostsAtMost pricePerMake (Map32 (U 32) V) 0 0 1 ∧ CostsAtMost pricePerSlot (Map32 (U 32) V) 0 0 (2 ^ 16)) ∧
    (CostsAtMost (priceOf .cmp) (Map64 (U 64) V) 0 (5 * 3 - 2) 0 ∧ CostsAtMost (priceOf .split) (Map64 (U 64) V) 0 3 0 ∧
      CostsAtMost (priceOf .join) (Map64 (U 64) V) 0 3 0 ∧ CostsAtMost (priceOf .call) (Map64 (U 64) V) 0 (2 * 3) 0 ∧
      CostsAtMost pricePerMake (Map64 (U 64) V) 0 0 1 ∧ CostsAtMost pricePerSlot (Map64 (U 64) V) 0 0 (2 ^ 32)) :=
  ⟨C66_each (nested16 _ V (Nat.le_refl _)).2, C66_each (nested32 _ V (Nat.le_refl _)).2,
    C66_each (nested64 _ V (Nat.le_refl _)).2⟩

/-! ## Filling arrays -/

section
variable {K V S Hi Lo T : Type} [LinearOrder K] [LinearOrder Hi] [LinearOrder Lo] [VebKey K Hi Lo] [VebKeyRef K Hi Lo]
  [VebTree S Hi Unit] [VebTree T Lo V] [TickTree S Hi Unit] [TickTree T Lo V] [SizedVebKey Hi]
  {safeS : (Hi → Prop) → Hi → Prop} {safeT : (Lo → Prop) → Lo → Prop} {b N n r b' N' n' r' : Nat}

/-- **C66, an array per insertion.** On a `Tree` with an array collection, with two entries `a < k`, adding a third key
above them and taking it out again fills a new array each time: `2 + 2 * n` calls, never more than three entries stored, and
`n` new arrays, so the work per call is that of filling half an array.  No call panics, and at the end the tree is again the
one with two entries. -/
theorem C66_refill (hk : GoodKey K Hi Lo) (hs : CrateTree S Hi Unit safeS) (ht : CrateTree T Lo V safeT) (hi : GoodIndex Hi)
    (hs' : Nested b N S Hi Unit n r) (ht' : Nested b' N' T Lo V n' r') (w : Ev → Nat) (a k z : K) (v : V)
    (h1 : a < k) (h2 : k < z) (m : Nat) :
    (∃ os, Exec.run (none : Option (Tree K V S (ArrayColl Hi T))) (.insert a v :: .insert k v :: refills z v m) =
      .ok (some ⟨(a, v), some ⟨(k, v), none⟩⟩, os)) ∧
    m * w (.make (SizedVebKey.cardinality Hi)) ≤
      totalCost w (none : Option (Tree K V S (ArrayColl Hi T))) (.insert a v :: .insert k v :: refills z v m) := by
  have := hk.lawful
  obtain ⟨LS, -, -⟩ := hs.lawful
  obtain ⟨LT, -, -⟩ := ht.lawful
  have LI := hi.lawful
  have := hs'.er
  have := ht'.er
  have hm : ∀ (h : Hi) (t : T), w (.make (SizedVebKey.cardinality Hi)) ≤
      (TickColl.create h t : Tk (ArrayColl Hi T)).bill w := by
    intro h t
    show _ ≤ (ArrayColl.createT h t).bill w
    unfold ArrayColl.createT
    rw [Tk.bill_evBind, OptionArray.typenumUsize,
      Nat.mod_eq_of_lt (Nat.lt_succ_of_le (LawfulSizedKey.card_le (K := Hi)))]
    omega
  have hb := Tree.refill_bill (S := S) (C := ArrayColl Hi T) w hm (a, v) (k, v) z v h1 h2
  obtain ⟨t, e1, e2⟩ := Tree.refill (S := S) (C := ArrayColl Hi T) (a, v) (k, v) z v h1 h2
  have s1 : Exec.step (some (Tree.two (a, v) (k, v) : Tree K V S (ArrayColl Hi T))) (.insert z v) =
      .ok (some t, .kv none) := by
    simp only [Exec.step, Exec.stepTree, e1]; rfl
  have s2 : Exec.step (some t) (.removeMax : Op K V) =
      .ok (some (Tree.two (a, v) (k, v)), .kv (some (z, v))) := by
    simp only [Exec.step, Exec.stepTree, e2]; rfl
  have s0 : Exec.step (some (VebTree.fromMonad a v : Tree K V S (ArrayColl Hi T))) (.insert k v) =
      .ok (some (Tree.two (a, v) (k, v)), .kv none) := by
    have : VebTree.insert (VebTree.fromMonad a v : Tree K V S (ArrayColl Hi T)) k v =
        .ok (Tree.two (a, v) (k, v), none) := by
      show Tree.insert ⟨(a, v), none⟩ k v = _
      simp only [Tree.insert, cmp_gt h1]; rfl
    simp only [Exec.step, Exec.stepTree, this]; rfl
  have all : ∀ m, (∃ os, Exec.run (some (Tree.two (a, v) (k, v) : Tree K V S (ArrayColl Hi T))) (refills z v m) =
      .ok (some (Tree.two (a, v) (k, v)), os)) ∧
      m * w (.make (SizedVebKey.cardinality Hi)) ≤
        totalCost w (some (Tree.two (a, v) (k, v) : Tree K V S (ArrayColl Hi T))) (refills z v m) := by
    intro m
    induction m with
    | zero => exact ⟨⟨_, rfl⟩, by simp⟩
    | succ m ih =>
      obtain ⟨⟨os, ih1⟩, ih2⟩ := ih
      refine ⟨⟨_, by simp only [refills, Exec.run, s1, R.ok_bind, s2, ih1]; rfl⟩, ?_⟩
      simp only [refills, totalCost, s1, s2, Nat.succ_mul]
      simp only [opCost]
      exact (Nat.add_le_add ih2 hb).trans (by rw [Nat.add_comm]; exact Nat.add_le_add_left (Nat.le_add_left _ _) _)
  obtain ⟨⟨os, a1⟩, a2⟩ := all m
  refine ⟨⟨.kv none :: .kv none :: os, ?_⟩, ?_⟩
  · have s3 : Exec.step (none : Option (Tree K V S (ArrayColl Hi T))) (.insert a v) =
        .ok (some (VebTree.fromMonad a v), .kv none) := rfl
    simp only [Exec.run, s3, R.ok_bind, s0, a1]; rfl
  · have s3 : Exec.step (none : Option (Tree K V S (ArrayColl Hi T))) (.insert a v) =
        .ok (some (VebTree.fromMonad a v), .kv none) := rfl
    simp only [totalCost, s3, s0]
    exact a2.trans ((Nat.le_add_left _ _).trans (Nat.le_add_left _ _))

end

/-- **C66, predefined types: an array per insertion.** For every `m` a history of `2 + 2 * m` calls on the three keys 0, 1
and 2 that fills `m * 2 ^ (u / 2)` array slots. -/
theorem C66_refill_predefined (V : Type) (v : V) (m : Nat) :
    (∃ ops, ops.length = 2 + 2 * m ∧ m * 2 ^ 8 ≤ totalCost pricePerSlot (none : Option (Map16 (U 16) V)) ops) ∧
    (∃ ops, ops.length = 2 + 2 * m ∧ m * 2 ^ 16 ≤ totalCost pricePerSlot (none : Option (Map32 (U 32) V)) ops) ∧
    (∃ ops, ops.length = 2 + 2 * m ∧ m * 2 ^ 32 ≤ totalCost pricePerSlot (none : Option (Map64 (U 64) V)) ops) := by
  have len : ∀ {K : Type} (a k z : K), (Op.insert a v :: .insert k v :: refills z v m).length = 2 + 2 * m := by
    intro K a k z
    have : (refills z v m).length = 2 * m := by
      induction m with
      | zero => rfl
      | succ m ih => simp only [refills, List.length_cons, ih]; omega
    simp only [List.length_cons, this]; omega
  refine ⟨⟨_, len (U.lit 0) (U.lit 1) (U.lit 2), ?_⟩, ⟨_, len (U.lit 0) (U.lit 1) (U.lit 2), ?_⟩,
    ⟨_, len (U.lit 0) (U.lit 1) (U.lit 2), ?_⟩⟩
  · exact (C66_refill goodKey (crate8 V).1 (crate8 V).2 goodIndex (nested8 V).1 (nested8 V).2 pricePerSlot _ _ _ v
      (by decide) (by decide) m).2
  · exact (C66_refill goodKey (crate16 V).1.1 (crate16 V).1.2 goodIndex (nested16 _ V (Nat.le_refl _)).1
      (nested16 _ V (Nat.le_refl _)).2 pricePerSlot _ _ _ v (by decide) (by decide) m).2
  · exact (C66_refill goodKey (crate32 V).1.1 (crate32 V).1.2 goodIndex (nested32 _ V (Nat.le_refl _)).1
      (nested32 _ V (Nat.le_refl _)).2 pricePerSlot _ _ _ v (by decide) (by decide) m).2

/-- What the expected complexity `O(lg lg K)` (src/lib.rs:142) would mean, with the constant of `C66_history`, if the slots of
new arrays are counted too: at price 1 for everything, a history on a tree with `u`-bit keys costs at most
`12 * lg (u / 8) + 1` per operation. -/
def C66_full : Prop :=
  (∀ ops, totalCost priceAll (none : Option (Set16 (U 16))) ops ≤ ops.length * (12 * 1 + 1)) ∧
  (∀ ops, totalCost priceAll (none : Option (Set32 (U 32))) ops ≤ ops.length * (12 * 2 + 1)) ∧
  (∀ ops, totalCost priceAll (none : Option (Set64 (U 64))) ops ≤ ops.length * (12 * 3 + 1))

/-- **C66 refuted, each part**: four calls already exceed it, with 256, 65536 and 4294967296 slots to fill. -/
theorem C66_refuted :
    (¬ ∀ ops, totalCost priceAll (none : Option (Set16 (U 16))) ops ≤ ops.length * (12 * 1 + 1)) ∧
    (¬ ∀ ops, totalCost priceAll (none : Option (Set32 (U 32))) ops ≤ ops.length * (12 * 2 + 1)) ∧
    (¬ ∀ ops, totalCost priceAll (none : Option (Set64 (U 64))) ops ≤ ops.length * (12 * 3 + 1)) ∧ ¬ C66_full := by
  have a : ¬ ∀ ops, totalCost priceAll (none : Option (Set16 (U 16))) ops ≤ ops.length * (12 * 1 + 1) := fun h => by
    have h1 := h (.insert (U.lit 0) () :: .insert (U.lit 1) () :: refills (U.lit 2) () 1)
    have h2 := (C66_refill (K := U 16) goodKey (crate8 Unit).1 (crate8 Unit).1 goodIndex (nested8 Unit).1 (nested8 Unit).1
      priceAll (U.lit 0) (U.lit 1) (U.lit 2) () (by decide) (by decide) 1).2
    have h3 : 1 * (2 ^ 8 + 1) ≤ 4 * (12 * 1 + 1) := h2.trans h1
    omega
  refine ⟨a, fun h => ?_, fun h => ?_, fun h => a h.1⟩
  · have h1 := h (.insert (U.lit 0) () :: .insert (U.lit 1) () :: refills (U.lit 2) () 1)
    have h2 := (C66_refill (K := U 32) goodKey (crate16 Unit).1.1 (crate16 Unit).1.1 goodIndex
      (nested16 _ Unit (Nat.le_refl _)).1 (nested16 _ Unit (Nat.le_refl _)).1
      priceAll (U.lit 0) (U.lit 1) (U.lit 2) () (by decide) (by decide) 1).2
    have h3 : 1 * (2 ^ 16 + 1) ≤ 4 * (12 * 2 + 1) := h2.trans h1
    omega
  · have h1 := h (.insert (U.lit 0) () :: .insert (U.lit 1) () :: refills (U.lit 2) () 1)
    have h2 := (C66_refill (K := U 64) goodKey (crate32 Unit).1.1 (crate32 Unit).1.1 goodIndex
      (nested32 _ Unit (Nat.le_refl _)).1 (nested32 _ Unit (Nat.le_refl _)).1
      priceAll (U.lit 0) (U.lit 1) (U.lit 2) () (by decide) (by decide) 1).2
    have h3 : 1 * (2 ^ 32 + 1) ≤ 4 * (12 * 3 + 1) := h2.trans h1
    omega

/-- **C66 without arrays.** For every tree type without wrappers whose collections are hash tables, byte maps or boxes of
these, the bound holds: `12 * n + 1` per operation on types with `n` levels.  Missing: arrays (`C66_refuted`), for which the
bound is `12 * n + 1 + N` (`C66_history`). -/
theorem C66_full_partial {T K V : Type} [VebTree T K V] [TickTree T K V] {n : Nat} (h : Nested 0 0 T K V (n + 1) 0)
    (ops : List (Op K V)) : totalCost priceAll (none : Option T) ops ≤ ops.length * (12 * (n + 1) + 1) := by
  have := C66_history h priceAll (m := 1) (fun k hk => by cases Nat.le_zero.1 hk; exact Nat.le_refl _) ops
  refine this.trans (Nat.mul_le_mul_left _ ?_)
  show (1 + 0) * 1 + (n + 1) * (3 * ((0 + 1) * 1) + 1 + 1 + 2 * 1) + (5 * (n + 1) - 2) * 1 + 1 + 1 ≤ _
  omega

/-! ## The bounds are reached -/

/-- Keys such that looking for a successor misses both in the child and in the child of the summary. -/
def missing : List (Op (U 32) Unit) :=
  [0, 0x00010005, 0x01050001, 0x01050002, 0x02010001, 0x03010001, 0x04000001].map fun n => .insert (U.lit n) ()

/-- All bounds of `C66_each` for two levels, except those on new collections, are reached by one call: `successor` with eight
comparisons, two splits, two joins and four calls of collection methods. -/
theorem C66_reached : ∃ t : HSet32, Exec.run none missing = .ok (some t, missing.map fun _ => .kv none) ∧
    (TickTree.successor t (U.lit 0x01050003)).bill (priceOf .cmp) = 5 * 2 - 2 ∧
    (TickTree.successor t (U.lit 0x01050003)).bill (priceOf .split) = 2 ∧
    (TickTree.successor t (U.lit 0x01050003)).bill (priceOf .join) = 2 ∧
    (TickTree.successor t (U.lit 0x01050003)).bill (priceOf .call) = 2 * 2 :=
  ⟨_, rfl, rfl, rfl, rfl, rfl⟩

/-! Non-vacuity: a 32-bit set with hash tables satisfies the hypotheses of `C66_prices` and `C66_full_partial`; a history of
six insertions makes two collections, for the tree and for its summary. -/

example : CostsAtMost (priceOf .cmp) HSet32 0 8 0 := (C66_each (nestedH 0 0).2).1
example : totalCost priceAll (none : Option HSet32) spread ≤ 6 * 25 := C66_full_partial (nestedH 0 0).2 spread
example : totalCost pricePerMake (none : Option HSet32) spread = 2 := by decide +kernel
example : totalCost priceAll (none : Option HSet32) spread = 46 := by decide +kernel
example : 1000 * 2 ^ 8 ≤ totalCost pricePerSlot (none : Option (Set16 (U 16)))
    (.insert (U.lit 0) () :: .insert (U.lit 1) () :: refills (U.lit 2) () 1000) :=
  (C66_refill goodKey (crate8 Unit).1 (crate8 Unit).1 goodIndex (nested8 Unit).1 (nested8 Unit).1 pricePerSlot _ _ _ ()
    (by decide) (by decide) 1000).2

end Veb.Props
