import Verif.Proof.KeyObjTree
import Verif.SpecTree
import Mathlib.Data.Prod.Lex
import Mathlib.Order.Antisymmetrization

/-!
# C35: keys that are equal but distinguishable
-/

set_option autoImplicit false

namespace Veb.Props

/-! ## What holds -/

/-- C35, up to equality of keys: on every tree type over keys with equal but distinguishable values, every history
whose insertions are safe runs without panic, and every call returns the value of the ordered map together with a key
equal to the right one.

Missing from the full statement: the key returned need not be the stored one, see `C35_refuted`. -/
theorem C35_upToEq_partial {T K V T' K' : Type} [LinearOrder K'] [VebTree T K V] [VebTree T' K' V] {π : K → K'}
    {safe : (K' → Prop) → K' → Prop} (h : ForgetsTree T K V T' K' π) (hT : CrateTree T' K' V safe)
    (ops : List (Op K V)) (hs : SL.SafeHist safe [] (ops.map (Op.forget π))) :
    ∃ (t : Option T) (os : List (Out K V)), Exec.run none ops = .ok (t, os) ∧
      os.map (Out.forget π) = (SL.run [] (ops.map (Op.forget π))).2 := by
  obtain ⟨S, hS⟩ := h.sim
  obtain ⟨L, rfl, M⟩ := hT.lawful
  obtain ⟨t', ht', -⟩ := runsLikeMap_of L hs
  have := hS.run ops (t := none) (t' := none) .none
  rw [ht'] at this
  generalize Exec.run (none : Option T) ops = x at this
  cases this with
  | ok h => exact ⟨_, _, rfl, h.2.symm⟩

/-- Every history, safe or not: the outcome over distinguishable keys is the outcome over linearly ordered keys, with
the same panic if there is one. -/
theorem C35_forget {T K V T' K' : Type} [VebTree T K V] [VebTree T' K' V] {π : K → K'}
    (h : ForgetsTree T K V T' K' π) (ops : List (Op K V)) :
    (Exec.run (none : Option T') (ops.map (Op.forget π))).map Prod.snd =
      (Exec.run (none : Option T) ops).map (fun r => r.2.map (Out.forget π)) := by
  obtain ⟨S, hS⟩ := h.sim
  have := hS.run ops (t := none) (t' := none) .none
  generalize Exec.run (none : Option T) ops = x at this
  generalize Exec.run (none : Option T') (ops.map (Op.forget π)) = y at this
  cases this with
  | ok h => exact congrArg Except.ok h.2
  | err e => rfl

/-- The two copies of the model agree on linearly ordered keys: same outputs, same panics. -/
theorem C35_copies {T K V T' : Type} [VebTree T K V] [VebTree T' K V] (h : ForgetsTree T K V T' K id)
    (ops : List (Op K V)) :
    (Exec.run (none : Option T') ops).map Prod.snd = (Exec.run (none : Option T) ops).map Prod.snd := by
  have h1 : ops.map (Op.forget id) = ops :=
    List.map_id'' (fun op => by cases op <;> rfl) ops
  have h2 : ∀ os : List (Out K V), os.map (Out.forget id) = os :=
    List.map_id'' (fun o => by cases o with | bool b => rfl | kv e => cases e <;> rfl)
  have := C35_forget h ops
  rw [h1] at this
  rw [this]
  congr 1
  funext r
  exact h2 r.2

/-- At the minimum `Tree::insert` keeps the contract: the stored pair is returned and replaced. -/
theorem C35_min {K V S C Hi Lo T : Type} [AnyOrd K] [VebKey K Hi Lo] [VebKeyRef K Hi Lo] [VebTree S Hi Unit]
    [VebTree T Lo V] [TreeCollection C Hi T Lo V] (t : OTree K V S C) (k : K) (v : V) (p : K × V)
    (hp : VebTree.minVal t = .ok p) (hk : AnyOrd.cmp k p.1 = .eq) :
    ∃ t' : OTree K V S C, VebTree.insert t k v = .ok (t', some p) ∧ VebTree.minVal t' = .ok (k, v) := by
  cases hp
  refine ⟨{ t with min := (k, v) }, ?_, rfl⟩
  show OTree.insert t k v = _
  unfold OTree.insert
  rw [hk]
  rfl

/-- And at the maximum. -/
theorem C35_max {K V S C Hi Lo T : Type} [AnyOrd K] [VebKey K Hi Lo] [VebKeyRef K Hi Lo] [VebTree S Hi Unit]
    [VebTree T Lo V] [TreeCollection C Hi T Lo V] (t : OTree K V S C) (k : K) (v : V) (p q : K × V)
    (hq : VebTree.minVal t = .ok q) (hp : VebTree.maxVal t = .ok p) (hqk : AnyOrd.cmp k q.1 = .gt)
    (hk : AnyOrd.cmp k p.1 = .eq) :
    ∃ t' : OTree K V S C, VebTree.insert t k v = .ok (t', some p) ∧ VebTree.maxVal t' = .ok (k, v) := by
  cases hq
  obtain ⟨mn, _ | d⟩ := t
  · cases hp
    rw [hk] at hqk; cases hqk
  · cases hp
    refine ⟨⟨mn, some { d with max := (k, v) }⟩, ?_, rfl⟩
    show OTree.insert _ k v = _
    unfold OTree.insert
    dsimp only at hqk hk ⊢
    rw [hqk]
    dsimp only
    rw [hk]
    rfl

/-- Every total preorder is the order of linearly ordered keys seen through some `π`, so `Forgets` can always be met. -/
theorem C35_quotient {K : Type} [OrdKey K] (h : TotalPreorder K) :
    ∃ (K' : Type) (_ : LinearOrder K') (π : K → K'), Forgets π ∧ Function.Surjective π := by
  classical
  let P : Preorder K :=
    { le := fun a b => OrdKey.cmp a b ≠ .gt
      le_refl := fun a => by rw [h.refl]; decide
      le_trans := fun a b c => h.trans a b c }
  have tot : ∀ a b : K, a ≤ b ∨ b ≤ a := by
    intro a b
    show OrdKey.cmp a b ≠ .gt ∨ OrdKey.cmp b a ≠ .gt
    rw [h.swap a b]
    cases OrdKey.cmp a b <;> decide
  have : Std.Total (α := K) (· ≤ ·) := ⟨tot⟩
  refine ⟨Antisymmetrization K (· ≤ ·), inferInstance, toAntisymmetrization (· ≤ ·), ?_, Quotient.mk_surjective⟩
  intro a b
  unfold cmp
  have hlt : toAntisymmetrization (· ≤ ·) a < toAntisymmetrization (· ≤ ·) b ↔ OrdKey.cmp a b = .lt := by
    rw [toAntisymmetrization_lt_toAntisymmetrization_iff, lt_iff_le_not_ge]
    show OrdKey.cmp a b ≠ .gt ∧ ¬ OrdKey.cmp b a ≠ .gt ↔ _
    rw [h.swap a b]
    cases OrdKey.cmp a b <;> decide
  have heq : toAntisymmetrization (· ≤ ·) a = toAntisymmetrization (· ≤ ·) b ↔ OrdKey.cmp a b = .eq := by
    rw [le_antisymm_iff, toAntisymmetrization_le_toAntisymmetrization_iff,
      toAntisymmetrization_le_toAntisymmetrization_iff]
    show OrdKey.cmp a b ≠ .gt ∧ OrdKey.cmp b a ≠ .gt ↔ _
    rw [h.swap a b]
    cases OrdKey.cmp a b <;> decide
  simp only [hlt, heq]
  cases OrdKey.cmp a b <;> rfl

/-! ## What does not hold -/

/-- A byte with a tag the order does not see. -/
structure Tg where
  val : U 8
  tag : Bool
  deriving DecidableEq

instance : OrdKey Tg := ⟨fun a b => cmp a.val b.val⟩
instance : VebKey Tg Tg Unit := ⟨fun k => (k, ()), fun h _ => h⟩
instance : VebKeyRef Tg Tg Unit := ⟨fun k => (k, ())⟩

/-- Two of them. -/
structure Tg2 where
  hi : Tg
  lo : Tg
  deriving DecidableEq

instance : OrdKey Tg2 := ⟨fun a b => match cmp a.hi.val b.hi.val with | .eq => cmp a.lo.val b.lo.val | o => o⟩
instance : VebKey Tg2 Tg Tg := ⟨fun k => (k.hi, k.lo), Tg2.mk⟩
instance : VebKeyRef Tg2 Tg Tg := ⟨fun k => (k.hi, k.lo)⟩

/-- a `Tree` with keys `Tg` -/
abbrev LoTree := OTree Tg Nat (OBTreeMap Tg Unit) (OHashMap Tg (OBTreeMap Unit Nat))
/-- a `Tree` with keys `Tg2` -/
abbrev HiTree := OTree Tg2 Nat (OBTreeMap Tg Unit) (OHashMap Tg LoTree)

/-- a tagged byte -/
def tg (n : Nat) (b : Bool) : Tg := ⟨U.lit n, b⟩
/-- two tagged bytes with the same value -/
def tg2 (n : Nat) (b b' : Bool) : Tg2 := ⟨tg n b, tg n b'⟩

/-- 5 without tag, then 5 with tag. -/
def twice : List (Tg × Nat) := [(tg 5 false, 0), (tg 5 true, 1)]
/-- 1, 9, then 5 without tags, then 5 with both tags: the third goes below the extremes. -/
def inside : List (Tg2 × Nat) :=
  [(tg2 1 false false, 0), (tg2 9 false false, 0), (tg2 5 false false, 0), (tg2 5 true true, 1)]

/-- **C35 refuted** for `BTreeMap` (src/lib.rs:541-550): `insert` returns the key it was given, not the one stored. -/
theorem C35_refuted : ¬ ReturnsStored (OBTreeMap Tg Nat) twice := by
  rintro ⟨t, h⟩
  have := congrArg (Except.map Prod.snd) h
  revert this
  show ¬ outputs (OBTreeMap Tg Nat) _ = .ok ((objRun [] twice).map Out.kv)
  decide +kernel

/-- … and keeps the old key: the pair found afterwards is neither the one inserted nor the one replaced. -/
theorem C35_refuted_mixed :
    outputs (OBTreeMap Tg Nat) (twice.map (fun p => Op.insert p.1 p.2) ++ [.find (tg 5 true)]) =
      .ok [.kv none, .kv (some (tg 5 true, 0)), .kv (some (tg 5 false, 1))] := by
  decide +kernel

/-- **C35 refuted** for `Tree` (src/tree.rs:544-561), without the defect of :524-533 being involved: below the extremes
the key returned is put together from the high half of the argument and the low half of the stored key. -/
theorem C35_refuted_tree : ¬ ReturnsStored HiTree inside := by
  rintro ⟨t, h⟩
  have := congrArg (Except.map Prod.snd) h
  revert this
  show ¬ outputs HiTree _ = .ok ((objRun [] inside).map Out.kv)
  decide +kernel

/-- The key returned was never inserted. -/
theorem C35_refuted_chimera :
    outputs HiTree (inside.map (fun p => Op.insert p.1 p.2)) =
      .ok [.kv none, .kv none, .kv none, .kv (some (tg2 5 true false, 0))] ∧
    tg2 5 true false ∉ inside.map Prod.fst := by
  decide +kernel

/-! ## Not vacuous -/

/-- forgetting the tag -/
def unTg (k : Tg) : U 8 := k.val
theorem unTg_forgets : Forgets unTg := fun _ _ => rfl

/-- `C35_upToEq_partial` applies to a map with tagged keys and to a tree with tagged keys. -/
example : ForgetsTree (OBTreeMap Tg Nat) Tg Nat (BTreeMap (U 8) Nat) (U 8) unTg := .btreeMap unTg_forgets
example : SL.SafeHist always [] ((twice.map fun p => Op.insert p.1 p.2).map (Op.forget unTg)) := safeHist_always _ _

/-- bytes split as `Tg` is -/
instance : VebKey (U 8 ×ₗ U 8) (U 8) (U 8) := ⟨fun k => ofLex k, fun h l => toLex (h, l)⟩
instance : VebKeyRef (U 8 ×ₗ U 8) (U 8) (U 8) := ⟨fun k => ofLex k⟩

/-- a `Tree` whose high halves carry tags, and the same without tags -/
example : ForgetsTree (OTree Tg2 Nat (OBTreeMap Tg Unit) (OHashMap Tg (OBTreeMap Tg Nat))) Tg2 Nat
    (Tree (U 8 ×ₗ U 8) Nat (BTreeMap (U 8) Unit) (HashMap (U 8) (BTreeMap (U 8) Nat))) (U 8 ×ₗ U 8)
    (fun k => toLex (k.hi.val, k.lo.val)) :=
  .tree (πh := unTg) (πl := unTg) (by
      intro a b
      show (match cmp a.hi.val b.hi.val with | .eq => cmp a.lo.val b.lo.val | o => o) = _
      unfold cmp
      rcases lt_trichotomy a.hi.val b.hi.val with h | h | h
      · simp [h, Prod.Lex.toLex_lt_toLex]
      · simp [h, Prod.Lex.toLex_lt_toLex]
      · simp [h.not_gt, h.ne', Prod.Lex.toLex_lt_toLex])
    ⟨fun _ => rfl, fun _ => rfl, fun _ _ => rfl⟩ (.btreeMap unTg_forgets) (.btreeMap unTg_forgets) (.hash unTg_forgets)

/-- the preorder of `Tg` -/
example : TotalPreorder Tg := by
  refine ⟨?_, ?_, ?_⟩
  · intro a; show cmp _ _ = _; simp [cmp]
  · intro a b
    show cmp _ _ = (cmp _ _).swap
    unfold cmp
    rcases lt_trichotomy a.val b.val with h | h | h
    · simp [h, h.not_gt, h.ne']
    · simp [h]
    · simp [h, h.not_gt, h.ne']
  · intro a b c
    show cmp _ _ ≠ _ → cmp _ _ ≠ _ → cmp _ _ ≠ _
    have e : ∀ x y : U 8, cmp x y ≠ .gt ↔ x ≤ y := by
      intro x y; unfold cmp
      rcases lt_trichotomy x y with h | h | h
      · simp [h, h.le]
      · simp [h]
      · simp [h.not_gt, h.ne', h]
    rw [e, e, e]
    exact le_trans

/-- the two copies of the model, both with linearly ordered keys -/
example : ForgetsTree (OBTreeMap (U 8) Nat) (U 8) Nat (BTreeMap (U 8) Nat) (U 8) id := .btreeMap fun _ _ => rfl

/-- the minimum and the maximum of a tree are such that `C35_min` and `C35_max` apply -/
example : ∃ t : LoTree, VebTree.minVal t = .ok (tg 5 false, 0) ∧ VebTree.maxVal t = .ok (tg 7 false, 0) ∧
    OrdKey.cmp (tg 5 true) (tg 5 false) = .eq ∧ OrdKey.cmp (tg 7 true) (tg 5 false) = .gt ∧
    OrdKey.cmp (tg 7 true) (tg 7 false) = .eq :=
  ⟨⟨(tg 5 false, 0), some ⟨(tg 7 false, 0), none⟩⟩, rfl, rfl, by decide +kernel, by decide +kernel, by decide +kernel⟩

end Veb.Props
