import Verif.Model.Exec
import Verif.Model.Markers

/-!
# Vocabulary for the properties of trees

Histories, reachable trees, the tree types of the crate, and the insertions that `Tree::insert` handles
correctly.
-/

set_option autoImplicit false

namespace Veb
open VebKey (splitVal join)

/-! ## Histories -/

section
variable {K V : Type} [LinearOrder K]

/-- The entries, in ascending order, that should be stored after the history `ops`. -/
def entries (ops : List (Op K V)) : SL K V := (SL.run [] ops).1
/-- The same as a partial map. -/
def contents (ops : List (Op K V)) : Map K V := SL.toMap (entries ops)

/-- Running `ops` on an initially absent tree of type `T` panics nowhere, gives exactly the outputs of the
ordered map, and leaves no tree exactly when no entry is left. -/
def RunsLikeMap (T : Type) [VebTree T K V] (ops : List (Op K V)) : Prop :=
  ∃ t : Option T, Exec.run none ops = .ok (t, (SL.run [] ops).2) ∧ (t = none ↔ entries ops = [])

/-- Every prefix of the history keeps at most `usize::MAX` entries. -/
def FitsUsize (ops : List (Op K V)) : Prop := ∀ pre, pre <+: ops → (entries pre).length ≤ usizeMax

/-- `t` is the tree left by the history `ops`. -/
def Reaches {T : Type} [VebTree T K V] (ops : List (Op K V)) (t : T) : Prop :=
  ∃ os, Exec.run none ops = .ok (some t, os)

/-- Every tree `t` left by a history with safe insertions satisfies `P`, given the map it should contain. -/
def AllReachable (T : Type) [VebTree T K V] (Safe : (K → Prop) → K → Prop) (P : Map K V → T → Prop) : Prop :=
  ∀ (ops : List (Op K V)) (t : T), SL.SafeHist Safe [] ops → Reaches ops t → P (contents ops) t

end

/-! ## Which insertions are handled correctly -/

/-- Every insertion. -/
def always {K : Type} : (K → Prop) → K → Prop := fun _ _ => True

/-- Inserting `k` into a `Tree` holding the keys `P` does not run into the defective arm of `insert`
(src/tree.rs:524-533), neither here nor in the child or the summary that the insertion continues in.

If at least two keys are stored, with least key `mn` and greatest key `mx`: `k` is not below `mn`; and unless
`k` is `mn` or `mx`, the key `x` that moves down (`k`, or `mx` when `k` becomes the new maximum) is a safe
insertion into the child it goes to (whose keys are the low halves of the other keys with the same high half)
and, if that child is new, its high half is a safe insertion into the summary. -/
def Tree.Safe {K Hi Lo : Type} [LinearOrder K] [VebKey K Hi Lo]
    (SafeS : (Hi → Prop) → Hi → Prop) (SafeT : (Lo → Prop) → Lo → Prop) (P : K → Prop) (k : K) :
    Prop :=
  ∀ mn mx, P mn → P mx → mn ≠ mx → (∀ j, P j → mn ≤ j ∧ j ≤ mx) →
    mn ≤ k ∧ (k = mn ∨ k = mx ∨ ∀ x, x = (if mx < k then mx else k) →
      (∀ child : Lo → Prop,
        (∀ l, child l ↔ ∃ j, P j ∧ j ≠ mn ∧ j ≠ mx ∧ splitVal j = ((splitVal x).1, l)) →
        (∃ l, child l) → SafeT child (splitVal x).2) ∧
      (∀ sum : Hi → Prop,
        (∀ h, sum h ↔ ∃ j, P j ∧ j ≠ mn ∧ j ≠ mx ∧ (splitVal j).1 = h) →
        ¬ sum (splitVal x).1 → (∃ h, sum h) → SafeS sum (splitVal x).1))

/-- `SizedVebTree` counts: the number of keys must not exceed `usize::MAX`. -/
def sizedSafe {K : Type} (Safe : (K → Prop) → K → Prop) (P : K → Prop) (k : K) : Prop :=
  Safe P k ∧ (P k ∨ Set.ncard {j | P j} < usizeMax)

/-! ## The tree types of the crate -/

/-- A key type as `VebKey` and `VebKeyRef` document it: keys are rebuilt from their halves, both ways of
splitting agree, and keys are ordered as their halves.  C01 – C05 show it for the crate's key types. -/
structure GoodKey (K Hi Lo : Type) [LinearOrder K] [LinearOrder Hi] [LinearOrder Lo]
    [VebKey K Hi Lo] [VebKeyRef K Hi Lo] : Prop where
  rejoin : ∀ k : K, join (splitVal k).1 (splitVal k).2 = k
  ref : ∀ k : K, VebKeyRef.splitRef k = splitVal k
  order : ∀ a b : K, a < b ↔ (splitVal a).1 < (splitVal b).1 ∨
    (splitVal a).1 = (splitVal b).1 ∧ (splitVal a).2 < (splitVal b).2

/-- An index type as `SizedVebKey` intends it.  C06 shows it for `()`, `u8`, `u16` and `u32`. -/
structure GoodIndex (K : Type) [SizedVebKey K] : Prop where
  lt : ∀ k : K, SizedVebKey.index k < SizedVebKey.cardinality K
  inj : ∀ a b : K, SizedVebKey.index a = SizedVebKey.index b → a = b
  fits : SizedVebKey.cardinality K ≤ usizeMax

/-- The collections of the crate: arrays, hash maps, byte maps, boxed collections. -/
inductive CrateColl : (C Hi T Lo V : Type) → [LinearOrder Hi] → [VebTree T Lo V] →
    [TreeCollection C Hi T Lo V] → Prop
  | array {Hi T Lo V : Type} [LinearOrder Hi] [SizedVebKey Hi] [VebTree T Lo V] (h : GoodIndex Hi) :
      CrateColl (ArrayColl Hi T) Hi T Lo V
  | hash {Hi T Lo V : Type} [LinearOrder Hi] [VebTree T Lo V] : CrateColl (HashMap Hi T) Hi T Lo V
  | byte {T Lo V : Type} [VebTree T Lo V] : CrateColl (ByteMap T) (U 8) T Lo V
  | box {C Hi T Lo V : Type} [LinearOrder Hi] [VebTree T Lo V] [TreeCollection C Hi T Lo V]
      (h : CrateColl C Hi T Lo V) : CrateColl (Box C) Hi T Lo V

/-- `CrateTree T K V safe`: `T` is a tree type that can be put together from the crate, of any nesting depth,
and `safe` the insertions it handles correctly. -/
inductive CrateTree : (T K V : Type) → [LinearOrder K] → [VebTree T K V] →
    ((K → Prop) → K → Prop) → Prop
  | byteSet : CrateTree ByteSet (U 8) Unit always
  | byteMap {V : Type} : CrateTree (ByteMap V) (U 8) V always
  | btreeMap {K V : Type} [LinearOrder K] : CrateTree (BTreeMap K V) K V always
  | box {T K V : Type} [LinearOrder K] [VebTree T K V] {safe : (K → Prop) → K → Prop}
      (h : CrateTree T K V safe) : CrateTree (Box T) K V safe
  | sized {T K V : Type} [LinearOrder K] [VebTree T K V] {safe : (K → Prop) → K → Prop}
      (h : CrateTree T K V safe) : CrateTree (SizedVebTree T) K V (sizedSafe safe)
  | tree {K V S C Hi Lo T : Type} [LinearOrder K] [LinearOrder Hi] [LinearOrder Lo]
      [VebKey K Hi Lo] [VebKeyRef K Hi Lo] [VebTree S Hi Unit] [VebTree T Lo V]
      [TreeCollection C Hi T Lo V] {safeS : (Hi → Prop) → Hi → Prop} {safeT : (Lo → Prop) → Lo → Prop}
      (hk : GoodKey K Hi Lo) (hs : CrateTree S Hi Unit safeS) (ht : CrateTree T Lo V safeT)
      (hc : CrateColl C Hi T Lo V) : CrateTree (Tree K V S C) K V (Tree.Safe safeS safeT)

/-- No insertion of the history goes below the least key while at least two keys are stored. -/
def notBelowMin {K V : Type} [LinearOrder K] (l : SL K V) : List (Op K V) → Bool
  | [] => true
  | op :: ops =>
    (match op with
      | .insert k _ => decide (l.length ≤ 1) || l.head?.all (fun e => decide (e.1 ≤ k))
      | _ => true) && notBelowMin (SL.step l op).1 ops

/-- Safe insertions of the 16-bit types `Set16`, `Map16`. -/
def safe16 {K : Type} [LinearOrder K] [VebKey K (U 8) (U 8)] : (K → Prop) → K → Prop :=
  Tree.Safe always always
/-- Safe insertions of the 32-bit types. -/
def safe32 {K : Type} [LinearOrder K] [VebKey K (U 16) (U 16)] : (K → Prop) → K → Prop :=
  Tree.Safe safe16 safe16
/-- Safe insertions of the 64-bit types. -/
def safe64 {K : Type} [LinearOrder K] [VebKey K (U 32) (U 32)] : (K → Prop) → K → Prop :=
  Tree.Safe safe32 safe32

end Veb
