import Verif.SpecCostFixed
import Verif.Proof.Cost

/-!
The repaired tree costs what the tree costs.
-/

set_option autoImplicit false
set_option linter.unusedSectionVars false

namespace Veb

namespace FTree
section
variable {K V S C Hi Lo T : Type} [LinearOrder K] [VebKey K Hi Lo] [VebKeyRef K Hi Lo] [VebTree S Hi Unit]
  [TickTree S Hi Unit] [VebTree T Lo V] [TickTree T Lo V] [TreeCollection C Hi T Lo V] [TickColl C Hi T Lo V]
  [ErTree S] [ErTree T] [ErColl C]

theorem er_insert (t : Tree K V S C) (k : K) (v : V) : Er (t.insertFixedT k v) (t.insertFixed k v) := by
  unfold Tree.insertFixedT Tree.insertFixed Tree.insert
  evs
  cases cmp k t.min.1 <;> rcases t.data with _ | d
  · repeat er1
  · dsimp only
    cases cmp t.min.1 d.max.1
    · evs; exact Tree.er_insertBelow _ _ _ _
    · repeat er1
    · evs; exact Tree.er_insertBelow _ _ _ _
  · repeat er1
  · repeat er1
  · repeat er1
  · dsimp only
    cases cmp k d.max.1
    · evs; exact Tree.er_insertBelow _ _ _ _
    · repeat er1
    · evs; exact Tree.er_insertBelow _ _ _ _

instance : ErTree (FTree K V S C) where
  fromMonad _ _ := rfl
  isMonad t := ErTree.isMonad t.val
  lenHint t := ErTree.lenHint t.val
  intoMonad t := Er.bind (ErTree.intoMonad t.val) (by rintro (_ | _) <;> exact Er.pure _)
  minVal t := ErTree.minVal t.val
  minValMut t := Er.bind (ErTree.minValMut t.val) fun _ => Er.pure _
  maxVal t := ErTree.maxVal t.val
  maxValMut t := Er.bind (ErTree.maxValMut t.val) fun _ => Er.pure _
  find t k := ErTree.find t.val k
  findMut t k := Er.bind (ErTree.findMut t.val k) fun _ => Er.pure _
  predecessor t k := ErTree.predecessor t.val k
  predecessorMut t k := Er.bind (ErTree.predecessorMut t.val k) fun _ => Er.pure _
  successor t k := ErTree.successor t.val k
  successorMut t k := Er.bind (ErTree.successorMut t.val k) fun _ => Er.pure _
  insert t k v := Er.bind (er_insert t.val k v) fun _ => Er.pure _
  remove t k := Er.bind (ErTree.remove t.val k) (by rintro (_ | _) <;> exact Er.pure _)
  removeMin t := Er.bind (ErTree.removeMin t.val) fun _ => Er.pure _
  removeMax t := Er.bind (ErTree.removeMax t.val) fun _ => Er.pure _
end

section
variable {w : Ev → Nat} {m : Nat} {K V S C Hi Lo T : Type} [LinearOrder K] [VebKey K Hi Lo] [VebKeyRef K Hi Lo]
  [TickTree S Hi Unit] [TickTree T Lo V] [TreeCollection C Hi T Lo V] [TickColl C Hi T Lo V] {x s d : Nat}

theorem le_insert (hS : CostTree w m S x s d) (hT : CostTree w m T x s d) (hC : CostColl w m C) (t : Tree K V S C)
    (k : K) (v : V) :
    Le w 0 (t.insertFixedT k v) (Tree.deep w x s d + m) (fun _ => Tree.deep w x s d + m) := by
  have hb : ∀ (min : K × V) (data : TreeData K V S C) (k : K) (v : V),
      Le w (0 + w .visit + w .cmp + w .cmp) (Tree.insertBelowT min data k v) (Tree.deep w x s d + m)
        (fun _ => Tree.deep w x s d + m) :=
    fun min data k v => (Tree.le_insertBelow hS hT hC min data k v).shift (by omega) fun _ => by omega
  have hd : w .visit + 3 * w .cmp ≤ Tree.deep w x s d := by unfold Tree.deep; omega
  unfold Tree.insertFixedT
  repeat (first | refine Le.tickBind ?_ | refine Le.evBind ?_)
  cases cmp k t.min.1 <;> rcases t.data with _ | dt
  · exact Le.pure (by omega) (by omega)
  · dsimp only
    repeat (first | refine Le.tickBind ?_ | refine Le.evBind ?_)
    cases cmp t.min.1 dt.max.1
    · exact hb _ _ _ _
    · exact Le.pure (by omega) (by omega)
    · exact hb _ _ _ _
  · exact Le.pure (by omega) (by omega)
  · exact Le.pure (by omega) (by omega)
  · exact Le.pure (by omega) (by omega)
  · dsimp only
    repeat (first | refine Le.tickBind ?_ | refine Le.evBind ?_)
    cases cmp k dt.max.1
    · exact hb _ _ _ _
    · exact Le.pure (by omega) (by omega)
    · exact hb _ _ _ _

/-- A computation followed by one that logs nothing. -/
theorem bill_map {α β : Type} {n : Nat} {y : Tk α} {f : α → Tk β} (h : y.bill w ≤ n)
    (hf : ∀ a, ∃ b, f a = pure b) : (y >>= f).bill w ≤ n :=
  (Le.bind (Le.of_bill h) (by omega) fun a => by
    obtain ⟨b, e⟩ := hf a
    rw [e]
    exact Le.pure (q := fun _ => n) (by omega) (by omega)).bill

theorem cost (hS : CostTree w m S x s d) (hT : CostTree w m T x s d) (hC : CostColl w m C) :
    CostTree w m (FTree K V S C) (w .visit) (w .visit + 2 * w .cmp) (Tree.deep w x s d) := by
  have H : CostTree w m (Tree K V S C) (w .visit) (w .visit + 2 * w .cmp) (Tree.deep w x s d) := Tree.cost hS hT hC
  exact {
  pos := H.pos
  xs := H.xs
  le := H.le
  fromMonad k v := bill_map (H.fromMonad k v) fun a => ⟨_, rfl⟩
  isMonad t := H.isMonad t.val
  lenHint t := H.lenHint t.val
  intoMonad t := bill_map (H.intoMonad t.val) fun a => by cases a <;> exact ⟨_, rfl⟩
  minVal t := H.minVal t.val
  minValMut t := bill_map (H.minValMut t.val) fun a => ⟨_, rfl⟩
  maxVal t := H.maxVal t.val
  maxValMut t := bill_map (H.maxValMut t.val) fun a => ⟨_, rfl⟩
  find t k := H.find t.val k
  findMut t k := bill_map (H.findMut t.val k) fun a => ⟨_, rfl⟩
  predecessor t k := H.predecessor t.val k
  predecessorMut t k := by
    refine Le.bind (H.predecessorMut t.val k) (by omega) ?_
    rintro (_ | a) <;> refine Le.pure ?_ ?_ <;> simp [onNone] <;> exact H.le
  successor t k := H.successor t.val k
  successorMut t k := by
    refine Le.bind (H.successorMut t.val k) (by omega) ?_
    rintro (_ | a) <;> refine Le.pure ?_ ?_ <;> simp [onNone] <;> exact H.le
  insert t k v := bill_map (le_insert hS hT hC t.val k v).bill fun a => ⟨_, rfl⟩
  remove t k := by
    refine Le.bind (H.remove t.val k) (by omega) ?_
    rintro (⟨_ | a, b⟩ | a) <;> refine Le.pure ?_ ?_ <;> simp [onGone'] <;> exact H.le
  removeMin t := by
    refine Le.bind (H.removeMin t.val) (by omega) ?_
    rintro ⟨_ | a, b⟩ <;> refine Le.pure ?_ ?_ <;> simp [onGone] <;> exact H.le
  removeMax t := by
    refine Le.bind (H.removeMax t.val) (by omega) ?_
    rintro ⟨_ | a, b⟩ <;> refine Le.pure ?_ ?_ <;> simp [onGone] <;> exact H.le }
end
end FTree

theorem FNested.cost {w : Ev → Nat} {m N : Nat} (hm : ∀ k ≤ N, w (.make k) ≤ m) {b : Nat} {T K V : Type} [VebTree T K V]
    [TickTree T K V] {n r : Nat} (h : FNested b N T K V n r) :
    CostTree w m T ((1 + r) * w .visit) ((1 + r) * w .visit + min n 1 * (2 * w .cmp))
      ((1 + r) * w .visit + n * (3 * ((b + 1) * w .visit) + w .split + w .join + 2 * w .call) +
        (5 * n - 2) * w .cmp) := by
  induction h with
  | byteSet =>
    rw [show min 0 1 = 0 from rfl]
    exact (CostTree.ofLeaf w m ByteSet).mono (by omega) (by omega) (by omega) (by omega) (by omega)
  | byteMap =>
    rw [show min 0 1 = 0 from rfl]
    exact (CostTree.ofLeaf w m (ByteMap _)).mono (by omega) (by omega) (by omega) (by omega) (by omega)
  | btreeMap =>
    rw [show min 0 1 = 0 from rfl]
    exact (CostTree.ofLeaf w m (BTreeMap _ _)).mono (by omega) (by omega) (by omega) (by omega) (by omega)
  | @box _ _ _ _ _ _ r _ ih =>
    have e : (1 + (r + 1)) * w .visit = (1 + r) * w .visit + w .visit := Nat.succ_mul (1 + r) _
    have := ih.xs
    have := ih.le
    rw [e]
    exact ih.box.mono (by omega) (by omega) (by omega) (by omega) (by omega)
  | @sized _ _ _ _ _ _ r _ ih =>
    have e : (1 + (r + 1)) * w .visit = (1 + r) * w .visit + w .visit := Nat.succ_mul (1 + r) _
    have := ih.xs
    have := ih.le
    rw [e]
    exact ih.sized.mono (by omega) (by omega) (by omega) (by omega) (by omega)
  | @tree _ _ S _ _ _ T _ _ _ _ _ _ _ _ _ n nS nT rS rT hs ht hc hnS hnT hrS hrT ihS ihT =>
    generalize hL : 3 * ((b + 1) * w .visit) + w .split + w .join + 2 * w .call = L at ihS ihT ⊢
    have up : ∀ {k r : Nat}, k ≤ n → r ≤ b →
        (1 + r) * w .visit ≤ (b + 1) * w .visit ∧ min k 1 * (2 * w .cmp) ≤ min n 1 * (2 * w .cmp) ∧
        k * L ≤ n * L ∧ (5 * k - 2) * w .cmp ≤ (5 * n - 2) * w .cmp := fun h h' =>
      ⟨Nat.mul_le_mul_right _ (by omega), Nat.mul_le_mul_right _ (by omega), Nat.mul_le_mul_right _ h,
        Nat.mul_le_mul_right _ (by omega)⟩
    obtain ⟨a1, a2, a3, a4⟩ := up hnS hrS
    obtain ⟨b1, b2, b3, b4⟩ := up hnT hrT
    have z : min n 1 * (2 * w .cmp) ≤ (5 * n - 2) * w .cmp := by
      rw [← Nat.mul_assoc]; exact Nat.mul_le_mul_right _ (by omega)
    have hS : CostTree w m S ((b + 1) * w .visit) ((b + 1) * w .visit + min n 1 * (2 * w .cmp))
        ((b + 1) * w .visit + n * L + (5 * n - 2) * w .cmp) :=
      ihS.mono a1 (by omega) (by omega) (by omega) (by omega)
    have hT : CostTree w m T ((b + 1) * w .visit) ((b + 1) * w .visit + min n 1 * (2 * w .cmp))
        ((b + 1) * w .visit + n * L + (5 * n - 2) * w .cmp) :=
      ihT.mono b1 (by omega) (by omega) (by omega) (by omega)
    have c1 : min (n + 1) 1 * (2 * w .cmp) = 2 * w .cmp := by
      rw [Nat.min_eq_right (by omega), Nat.one_mul]
    have c2 : (n + 1) * L = n * L + L := Nat.succ_mul _ _
    have c3 : (5 * (n + 1) - 2) * w .cmp = (5 * n - 2) * w .cmp + min n 1 * (2 * w .cmp) + 3 * w .cmp := by
      rw [← Nat.mul_assoc, ← Nat.add_mul, ← Nat.add_mul]
      congr 1
      omega
    have c4 : (1 + 0) * w .visit = w .visit := Nat.one_mul _
    have := hS.pos
    rw [c1, c2, c3, c4]
    exact (FTree.cost hS hT (hc.cost hm)).mono (by omega) (by omega) (by unfold Tree.deep; omega) (by omega) (by omega)

theorem FNested.er {b N : Nat} {T K V : Type} [VebTree T K V] [TickTree T K V] {n r : Nat} (h : FNested b N T K V n r) :
    ErTree T := by
  induction h with
  | byteSet => infer_instance
  | byteMap => infer_instance
  | btreeMap => infer_instance
  | box _ ih => infer_instance
  | sized _ ih => infer_instance
  | tree _ _ hc _ _ _ _ ihS ihT => have := hc.er ihT; infer_instance

end Veb
