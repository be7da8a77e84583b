import Verif.Proof.Repaired
import Verif.Props.KeyPtr
import Verif.Props.KeyObj
import Verif.Props.TreeFixed

/-!
# C57: the other defects, corrected

`Verif/Model/Repaired.lean` changes one expression for each of the defects C06, C07, C14, C35 and C45 describe; with it
the claims hold in full.  C42 does the same for the defect of `Tree::insert`.
-/

set_option autoImplicit false

namespace Veb.Props

open Ptr

/-- **C57, keys**: with the corrected `index`, `CARDINALITY` and `cfg` conditions the claim of C45 (and with it those of
C06 and C07) holds on every target for every integer. -/
theorem C57_keys (P : Ptr) (w : Nat) (h : P.hasFixed w) :
    (@IndexOk (U w) (P.seen (P.fixedU w)) (fun _ => True) ∧ @IndexOk (S w) (P.seen (P.fixedS w)) (fun _ => True)) ∧
    (P.typenumUsize (2 ^ w) = (P.fixedU w).cardinalityConst ∧ P.typenumUsize (2 ^ w) = (P.fixedS w).cardinalityConst) ∧
    (P.typenumUsize (2 ^ w) = Nat.card (U w) ∧ P.typenumUsize (2 ^ w) = Nat.card (S w)) := by
  have e : P.typenumUsize (2 ^ w) = 2 ^ w := Nat.mod_eq_of_lt (Nat.pow_lt_pow_right (by decide) h.2)
  exact ⟨⟨fixedU_ok h, fixedS_ok h⟩, ⟨rfl, rfl⟩, e.trans (card_U w).symm, e.trans (card_S w).symm⟩

/-- … and for `U4` and `U2`. -/
theorem C57_small (P : Ptr) :
    (@IndexOk U4 (P.seen P.fixedU4) U4Ok ∧ @IndexOk U2 (P.seen P.fixedU2) U2Ok) ∧
    (P.typenumUsize (2 ^ 4) = P.fixedU4.cardinalityConst ∧ P.typenumUsize (2 ^ 2) = P.fixedU2.cardinalityConst) ∧
    (P.typenumUsize (2 ^ 4) = Nat.card { x : U4 // U4Ok x } ∧ P.typenumUsize (2 ^ 2) = Nat.card { x : U2 // U2Ok x }) := by
  have e4 : P.typenumUsize (2 ^ 4) = 2 ^ 4 := by cases P <;> rfl
  have e2 : P.typenumUsize (2 ^ 2) = 2 ^ 2 := by cases P <;> rfl
  have i : ∀ x : U 8, P.asUsize x = x.bits.toNat := asUsize_eq (by cases P <;> decide)
  refine ⟨⟨⟨fun k hk => ?_, fun a b _ _ hab => ?_⟩, ⟨fun k hk => ?_, fun a b _ _ hab => ?_⟩⟩, ⟨rfl, rfl⟩,
    e4.trans card_U4.symm, e2.trans card_U2.symm⟩
  · show P.asUsize k.val < P.typenumUsize (2 ^ 4)
    rw [e4, i]; exact Nat.lt_succ_of_le hk
  · exact U4.val_inj (U.ext' ((i _).symm.trans (Eq.trans hab (i _))))
  · show P.asUsize k.val < P.typenumUsize (2 ^ 2)
    rw [e2, i]; exact Nat.lt_succ_of_le hk
  · exact U2.val_inj (U.ext' ((i _).symm.trans (Eq.trans hab (i _))))

/-- The correction of `index` changes nothing for integers as wide as `usize`, nor for the negative keys of the others. -/
theorem C57_same (P : Ptr) (w : Nat) (h : P.has w) :
    (∀ x : U w, (P.fixedU w).index x = (P.sizedU w).index x) ∧
    (∀ x : S w, x.bits.toInt < 0 ∨ w = P.bits → (P.fixedS w).index x = (P.sizedS w).index x) := by
  have hw := has_pos h
  refine ⟨fun _ => rfl, fun x hx => ?_⟩
  have e : (P.fixedS w).index x = (x.absDiff S.MIN).bits.toNat := asUsize_eq (has_le h) _
  rw [e]
  rcases hx with hx | rfl
  · have h1 := indexS_neg (P := P) hw (has_le h) x hx
    have h2 := S.absDiff_toNat hw x
    have h3 : (P.sizedS w).index x = P.asUsizeS (wrappingSub x S.MIN) := rfl
    omega
  · exact (indexS_full x hw).symm

/-- **C57, arrays**: on a target of up to 64 bits every corrected index type makes an array a partial map. -/
theorem C57_arrays (P : Ptr) (hP : P.bits ≤ 64) (w : Nat) (h : P.hasFixed w) :
    (@GoodIndex (U w) (P.seen (P.fixedU w)) ∧ @GoodIndex (S w) (P.seen (P.fixedS w))) ∧
    ∀ (T Lo V : Type) [VebTree T Lo V],
      letI : SizedVebKey (U w) := P.seen (P.fixedU w)
      letI : SizedVebKey (S w) := P.seen (P.fixedS w)
      (∀ ops : List (COp (U w) T Lo V),
        RunsLikeCollection (ArrayColl (U w) T) (.expect "array should contain tree at key index") ops) ∧
      (∀ ops : List (COp (S w) T Lo V),
        RunsLikeCollection (ArrayColl (S w) T) (.expect "array should contain tree at key index") ops) := by
  let iu : SizedVebKey (U w) := P.seen (P.fixedU w)
  let is : SizedVebKey (S w) := P.seen (P.fixedS w)
  have e : P.typenumUsize (2 ^ w) ≤ usizeMax := by
    refine (Nat.mod_eq_of_lt (Nat.pow_lt_pow_right (by decide) h.2)).le.trans ?_
    have : 2 ^ w < 2 ^ 64 := Nat.pow_lt_pow_right (by decide) (lt_of_lt_of_le h.2 hP)
    exact Nat.le_of_lt_succ this
  have gu : GoodIndex (U w) := ⟨fun k => (fixedU_ok h).1 k trivial, fun a b => (fixedU_ok h).2 a b trivial trivial, e⟩
  have gs : GoodIndex (S w) := ⟨fun k => (fixedS_ok h).1 k trivial, fun a b => (fixedS_ok h).2 a b trivial trivial, e⟩
  exact ⟨⟨gu, gs⟩, fun T Lo V _ => ⟨fun ops => C14_array_collection_partial gu ops,
    fun ops => C14_array_collection_partial gs ops⟩⟩

/-- **C57, trees**: with all corrections together (also the one of C42), every history over a tree whose children are in
an array indexed by any corrected integer runs like the ordered map; there is no side condition left. -/
theorem C57_trees (P : Ptr) (hP : P.bits ≤ 64) (w : Nat) (h : P.hasFixed w)
    {K V S' T Lo : Type} [LinearOrder K] [LinearOrder Lo] [VebTree T Lo V] (ht : FixedTree T Lo V) :
    (∀ [VebKey K (U w) Lo] [VebKeyRef K (U w) Lo] [VebTree S' (U w) Unit], GoodKey K (U w) Lo →
      FixedTree S' (U w) Unit →
      letI : SizedVebKey (U w) := P.seen (P.fixedU w)
      ∀ ops : List (Op K V), RunsLikeMap (FTree K V S' (ArrayColl (U w) T)) ops) ∧
    (∀ [VebKey K (S w) Lo] [VebKeyRef K (S w) Lo] [VebTree S' (S w) Unit], GoodKey K (S w) Lo →
      FixedTree S' (S w) Unit →
      letI : SizedVebKey (S w) := P.seen (P.fixedS w)
      ∀ ops : List (Op K V), RunsLikeMap (FTree K V S' (ArrayColl (S w) T)) ops) := by
  obtain ⟨⟨gu, gs⟩, -⟩ := C57_arrays P hP w h
  constructor
  · intro _ _ _ hk hs
    let iu : SizedVebKey (U w) := P.seen (P.fixedU w)
    exact C42_fixed (.tree hk hs ht (.array gu))
  · intro _ _ _ hk hs
    let is : SizedVebKey (S w) := P.seen (P.fixedS w)
    exact C42_fixed (.tree hk hs ht (.array gs))

/-- **C57, `BTreeMap`**: with the corrected `insert` the claim of C35 holds for every sequence of insertions and every key
type whose order is a total preorder. -/
theorem C57_btreeMap {K V : Type} [OrdKey K] (h : TotalPreorder K) (ins : List (K × V)) :
    ReturnsStored (RBTreeMap K V) ins := by
  cases ins with
  | nil => exact ⟨none, rfl⟩
  | cons p ins =>
    obtain ⟨e, h1, -⟩ := RBTreeMap.run_ok h ins (e := [p]) (l := [p]) (.refl _) (List.pairwise_singleton _ _)
    refine ⟨some ⟨⟨e⟩⟩, ?_⟩
    show (do
      let (t, os) ← Exec.run (some (⟨⟨[p]⟩⟩ : RBTreeMap K V)) (ins.map fun (p : K × V) => Op.insert p.1 p.2)
      pure (t, Out.kv none :: os)) = _
    rw [h1]; rfl

/-- … and afterwards `find` returns the pair inserted last, key object included. -/
theorem C57_btreeMap_find {K V : Type} [OrdKey K] (h : TotalPreorder K) (ins : List (K × V)) (t : RBTreeMap K V)
    (os : List (Out K V)) (ht : Exec.run none (ins.map fun p => Op.insert p.1 p.2) = .ok (some t, os)) (k : K) :
    VebTree.find t k = .ok ((objAfter [] ins).find? (fun p => OrdKey.cmp p.1 k == .eq)) := by
  cases ins with
  | nil => cases ht
  | cons p ins =>
    obtain ⟨e, h1, h2, h3⟩ := RBTreeMap.run_ok h ins (e := [p]) (l := [p]) (.refl _) (List.pairwise_singleton _ _)
    have ht : (do
      let (t, os) ← Exec.run (some (⟨⟨[p]⟩⟩ : RBTreeMap K V)) (ins.map fun (p : K × V) => Op.insert p.1 p.2)
      pure (t, Out.kv none :: os)) = (Except.ok (some t, os) : R _) := ht
    rw [h1] at ht
    cases ht
    exact congrArg Except.ok (h3.find h h2 k)

/-- **C57, `BTreeMap`, the rest**: everything but `insert` works as in the code. -/
theorem C57_btreeMap_rest {K V : Type} [OrdKey K] (t : OBTreeMap K V) (op : Op K V) (h : ∀ k v, op ≠ .insert k v) :
    Exec.stepTree (⟨t⟩ : RBTreeMap K V) op =
      (Exec.stepTree t op).map fun p => (p.1.map RBTreeMap.mk, p.2) := by
  cases op with
  | insert k v => exact absurd rfl (h k v)
  | remove k =>
    simp only [Exec.stepTree, VebTree.remove]
    rcases OBTreeMap.remove t k with e | r
    · rfl
    · cases r <;> rfl
  | removeMin =>
    simp only [Exec.stepTree, VebTree.removeMin]
    cases OBTreeMap.removeMin t <;> rfl
  | removeMax =>
    simp only [Exec.stepTree, VebTree.removeMax]
    cases OBTreeMap.removeMax t <;> rfl
  | intoMonad =>
    simp only [Exec.stepTree, VebTree.intoMonad]
    rcases OBTreeMap.intoMonad t with e | r
    · rfl
    · cases r <;> rfl
  | find k => simp only [Exec.stepTree, VebTree.find]; cases OBTreeMap.find t k <;> rfl
  | predecessor k => simp only [Exec.stepTree, VebTree.predecessor]; cases OBTreeMap.predecessor t k <;> rfl
  | successor k => simp only [Exec.stepTree, VebTree.successor]; cases OBTreeMap.successor t k <;> rfl
  | minVal => simp only [Exec.stepTree, VebTree.minVal]; cases OBTreeMap.minVal t <;> rfl
  | maxVal => simp only [Exec.stepTree, VebTree.maxVal]; cases OBTreeMap.maxVal t <;> rfl
  | isMonad => simp only [Exec.stepTree, VebTree.isMonad]; cases OBTreeMap.isMonad t <;> rfl
  | findSet k w =>
    simp only [Exec.stepTree, VebTree.findMut]
    rcases OBTreeMap.findMut t k with e | _ | ⟨_, _, _⟩ <;> rfl
  | predecessorSet k w =>
    simp only [Exec.stepTree, VebTree.predecessorMut]
    rcases OBTreeMap.predecessorMut t k with e | _ | ⟨_, _, _⟩ <;> rfl
  | successorSet k w =>
    simp only [Exec.stepTree, VebTree.successorMut]
    rcases OBTreeMap.successorMut t k with e | _ | ⟨_, _, _⟩ <;> rfl
  | minSet w =>
    simp only [Exec.stepTree, VebTree.minValMut]
    rcases OBTreeMap.minValMut t with e | ⟨_, _, _⟩ <;> rfl
  | maxSet w =>
    simp only [Exec.stepTree, VebTree.maxValMut]
    rcases OBTreeMap.maxValMut t with e | ⟨_, _, _⟩ <;> rfl

/-! Non-vacuity. -/

example : p64.hasFixed 8 ∧ p64.hasFixed 16 ∧ p64.hasFixed 32 ∧ ¬ p64.hasFixed 64 ∧ p32.hasFixed 16 ∧ ¬ p32.hasFixed 32 := by
  simp [hasFixed, has, bits]
/-- the keys whose index is out of bounds in the code -/
example : (p64.fixedS 8).index ⟨0⟩ = 128 ∧ (p64.fixedS 8).index ⟨127⟩ = 255 ∧ (p64.fixedS 8).index ⟨-128⟩ = 0 := by decide
example : (p64.fixedS 16).cardinalityConst = 65536 ∧ (p64.fixedU 8).cardinalityConst = 256 := by decide

/-- `[i8; 2]` keys over an array, the type that panics at the third insertion in the code (C25). -/
example : letI : SizedVebKey (S 8) := p64.seen (p64.fixedS 8)
    outputs (FTree (Arr (S 8) 2) Unit (BTreeMap (S 8) Unit) (ArrayColl (S 8) (BTreeMap (S 8) Unit)))
      [.insert ⟨[S.lit 1, S.lit 1], rfl⟩ (), .insert ⟨[S.lit 2, S.lit 2], rfl⟩ (), .insert ⟨[S.lit (-3), S.lit 3], rfl⟩ (),
       .insert ⟨[S.lit 1, S.lit 5], rfl⟩ (), .successor ⟨[S.lit 1, S.lit 1], rfl⟩] =
    .ok [.kv none, .kv none, .kv none, .kv none, .kv (some (⟨[S.lit 1, S.lit 5], rfl⟩, ()))] := by
  decide +kernel

/-- the sequence that refutes C35 for the code -/
example : outputs (RBTreeMap Tg Nat) (twice.map fun p => Op.insert p.1 p.2) =
    .ok [.kv none, .kv (some (tg 5 false, 0))] := by decide +kernel

end Veb.Props
