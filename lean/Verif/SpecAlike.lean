import Verif.SpecHist
import Verif.SpecFixed

/-!
# Trees that are equal up to the order of entries in hash tables
-/

set_option autoImplicit false

namespace Veb

/-- Two hash tables hold the same keys, with values related by `r`; in which order does not matter. -/
def HashMap.Alike {Hi T : Type} (r : T → T → Prop) (c c' : HashMap Hi T) : Prop :=
  ∃ l, c.entries.Perm l ∧ List.Forall₂ (fun p q => p.1 = q.1 ∧ r p.2 q.2) l c'.entries
/-- Two arrays have the same length and the same occupied slots, with values related by `r`, and the same counter. -/
def ArrayColl.Alike {Hi T : Type} (r : T → T → Prop) (c c' : ArrayColl Hi T) : Prop :=
  c.array.len = c'.array.len ∧ c.count = c'.count ∧ ∀ i, Option.Rel r (c.array.slot i) (c'.array.slot i)
/-- Two byte maps have the same key set, with values related by `r` position by position. -/
def ByteMap.Alike {T : Type} (r : T → T → Prop) (c c' : ByteMap T) : Prop := c.set = c'.set ∧ List.Forall₂ r c.list c'.list
/-- Boxes around related things. -/
def Box.Alike {T : Type} (r : T → T → Prop) (c c' : Box T) : Prop := r c.val c'.val
/-- Equal counters, related trees. -/
def SizedVebTree.Alike {T : Type} (r : T → T → Prop) (t t' : SizedVebTree T) : Prop := r t.tree t'.tree ∧ t.size = t'.size
/-- Equal minimum and maximum, related summaries and related collections, or neither. -/
def Tree.Alike {K V S C : Type} (rs : S → S → Prop) (rc : C → C → Prop) (t t' : Tree K V S C) : Prop :=
  t.min = t'.min ∧ Option.Rel (fun d d' => d.max = d'.max ∧
    Option.Rel (fun p p' => rs p.1 p'.1 ∧ rc p.2 p'.2) d.children d'.children) t.data t'.data

/-- The collections of the crate, and when two of them are alike up to the order of hash tables, given when two trees
are. -/
inductive AlikeColl : (C Hi T Lo V : Type) → [LinearOrder Hi] → [VebTree T Lo V] → [TreeCollection C Hi T Lo V] →
    ((T → T → Prop) → C → C → Prop) → Prop
  | array {Hi T Lo V : Type} [LinearOrder Hi] [SizedVebKey Hi] [VebTree T Lo V] (h : GoodIndex Hi) :
      AlikeColl (ArrayColl Hi T) Hi T Lo V ArrayColl.Alike
  | hash {Hi T Lo V : Type} [LinearOrder Hi] [VebTree T Lo V] : AlikeColl (HashMap Hi T) Hi T Lo V HashMap.Alike
  | byte {T Lo V : Type} [VebTree T Lo V] : AlikeColl (ByteMap T) (U 8) T Lo V ByteMap.Alike
  | box {C Hi T Lo V : Type} [LinearOrder Hi] [VebTree T Lo V] [TreeCollection C Hi T Lo V]
      {rc : (T → T → Prop) → C → C → Prop} (h : AlikeColl C Hi T Lo V rc) :
      AlikeColl (Box C) Hi T Lo V fun r => Box.Alike (rc r)

/-- The tree types of the crate, the insertions they handle correctly, and when two trees are alike up to the order of
hash tables at every level. -/
inductive AlikeTree : (T K V : Type) → [LinearOrder K] → [VebTree T K V] → ((K → Prop) → K → Prop) → (T → T → Prop) → Prop
  | byteSet : AlikeTree ByteSet (U 8) Unit always Eq
  | byteMap {V : Type} : AlikeTree (ByteMap V) (U 8) V always Eq
  | btreeMap {K V : Type} [LinearOrder K] : AlikeTree (BTreeMap K V) K V always Eq
  | box {T K V : Type} [LinearOrder K] [VebTree T K V] {safe : (K → Prop) → K → Prop} {r : T → T → Prop}
      (h : AlikeTree T K V safe r) : AlikeTree (Box T) K V safe (Box.Alike r)
  | sized {T K V : Type} [LinearOrder K] [VebTree T K V] {safe : (K → Prop) → K → Prop} {r : T → T → Prop}
      (h : AlikeTree T K V safe r) : AlikeTree (SizedVebTree T) K V (sizedSafe safe) (SizedVebTree.Alike r)
  | tree {K V S C Hi Lo T : Type} [LinearOrder K] [LinearOrder Hi] [LinearOrder Lo]
      [VebKey K Hi Lo] [VebKeyRef K Hi Lo] [VebTree S Hi Unit] [VebTree T Lo V]
      [TreeCollection C Hi T Lo V] {safeS : (Hi → Prop) → Hi → Prop} {safeT : (Lo → Prop) → Lo → Prop}
      {rs : S → S → Prop} {rt : T → T → Prop} {rc : (T → T → Prop) → C → C → Prop}
      (hk : GoodKey K Hi Lo) (hs : AlikeTree S Hi Unit safeS rs) (ht : AlikeTree T Lo V safeT rt)
      (hc : AlikeColl C Hi T Lo V rc) :
      AlikeTree (Tree K V S C) K V (Tree.Safe safeS safeT) (Tree.Alike rs (rc rt))

/-- The same with the corrected tree (C42), without counters. -/
inductive AlikeFixed : (T K V : Type) → [LinearOrder K] → [VebTree T K V] → (T → T → Prop) → Prop
  | byteSet : AlikeFixed ByteSet (U 8) Unit Eq
  | byteMap {V : Type} : AlikeFixed (ByteMap V) (U 8) V Eq
  | btreeMap {K V : Type} [LinearOrder K] : AlikeFixed (BTreeMap K V) K V Eq
  | box {T K V : Type} [LinearOrder K] [VebTree T K V] {r : T → T → Prop} (h : AlikeFixed T K V r) :
      AlikeFixed (Box T) K V (Box.Alike r)
  | tree {K V S C Hi Lo T : Type} [LinearOrder K] [LinearOrder Hi] [LinearOrder Lo]
      [VebKey K Hi Lo] [VebKeyRef K Hi Lo] [VebTree S Hi Unit] [VebTree T Lo V]
      [TreeCollection C Hi T Lo V] {rs : S → S → Prop} {rt : T → T → Prop} {rc : (T → T → Prop) → C → C → Prop}
      (hk : GoodKey K Hi Lo) (hs : AlikeFixed S Hi Unit rs) (ht : AlikeFixed T Lo V rt)
      (hc : AlikeColl C Hi T Lo V rc) :
      AlikeFixed (FTree K V S C) K V fun t t' => Tree.Alike rs (rc rt) t.val t'.val

/-- All histories with the same contents at the end leave trees related by `r`, or no tree. -/
def CanonicalUpTo {T K V : Type} [LinearOrder K] [VebTree T K V] (safe : (K → Prop) → K → Prop) (r : T → T → Prop) :
    Prop :=
  ∀ ops ops' : List (Op K V), SL.SafeHist safe [] ops → SL.SafeHist safe [] ops' → entries ops = entries ops' →
    ∃ (t t' : Option T) (os os' : List (Out K V)), Exec.run none ops = .ok (t, os) ∧ Exec.run none ops' = .ok (t', os') ∧
      Option.Rel r t t'

end Veb
