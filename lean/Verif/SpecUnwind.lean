import Verif.SpecHist
import Verif.SpecLedger
import Verif.Model.Unwind

/-!
# Vocabulary for panics that are caught
-/

set_option autoImplicit false

namespace Veb
variable {K V : Type} [LinearOrder K]

/-- The calls that take `self`, not a reference to it. -/
def takesSelf : Op K V → Bool
  | .remove _ => true
  | .removeMin => true
  | .removeMax => true
  | .intoMonad => true
  | .insert _ _ => false
  | .find _ => false
  | .predecessor _ => false
  | .successor _ => false
  | .minVal => false
  | .maxVal => false
  | .isMonad => false
  | .findSet _ _ => false
  | .predecessorSet _ _ => false
  | .successorSet _ _ => false
  | .minSet _ => false
  | .maxSet _ => false

/-- What may be stored, instead of `l`, after a call that panicked. -/
inductive Caught (l : SL K V) : Op K V → SL K V → Prop
  /-- what was stored before -/
  | kept {op : Op K V} (h : takesSelf op = false) : Caught l op l
  /-- nothing, the tree was consumed -/
  | gone {op : Op K V} (h : takesSelf op = true) : Caught l op []
  /-- the new entry instead of the greatest one -/
  | newMax {k : K} {v : V} {a z : K × V} (ha : SL.minE l = some a) (hz : SL.maxE l = some z) (h1 : a.1 < z.1)
      (h2 : z.1 < k) : Caught l (.insert k v) (SL.insert l.dropLast k v)
  /-- only the least and the greatest entry -/
  | ends {k : K} {v : V} {a z : K × V} (ha : SL.minE l = some a) (hz : SL.maxE l = some z) (h1 : a.1 < k) (h2 : k < z.1) :
      Caught l (.insert k v) [a, z]
  /-- only the least entry and the new one -/
  | endsNewMax {k : K} {v : V} {a z : K × V} (ha : SL.minE l = some a) (hz : SL.maxE l = some z) (h1 : a.1 < z.1)
      (h2 : z.1 < k) : Caught l (.insert k v) [a, (k, v)]

/-- A history of calls with faults runs like an ordered map that loses entries when a call panics: from the contents
`l` it gives the answers `os` and ends with the contents `l'`.  A call panics only if it has a fault, and only on a tree
that is there. -/
inductive RunsWith : SL K V → List (Faults × Op K V) → List (R (Out K V)) → SL K V → Prop
  | nil (l : SL K V) : RunsWith l [] [] l
  | returns {l : SL K V} {φ : Faults} {op : Op K V} {es : List (Faults × Op K V)} {os : List (R (Out K V))} {l' : SL K V}
      (h : RunsWith (SL.step l op).1 es os l') : RunsWith l ((φ, op) :: es) (.ok (SL.step l op).2 :: os) l'
  | panics {l l₁ : SL K V} {φ : Faults} {op : Op K V} {es : List (Faults × Op K V)} {os : List (R (Out K V))} {l' : SL K V}
      {s : Site} {e : Panic} (hl : l ≠ []) (hf : φ s = some e) (hc : Caught l op l₁) (h : RunsWith l₁ es os l') :
      RunsWith l ((φ, op) :: es) (.error e :: os) l'

/-- Every insertion is safe, whatever was lost before. -/
def SafeWith (safe : (K → Prop) → K → Prop) (l : SL K V) (es : List (Faults × Op K V)) : Prop :=
  ∀ pre φ k v post os l', es = pre ++ (φ, .insert k v) :: post → RunsWith l pre os l' → l' = [] ∨ safe (SL.keys l') k

/-- The tree types of the crate with a modelled unwinding: `Tree`, boxed or not. -/
inductive CatchTree : (T K V : Type) → [LinearOrder K] → [VebTree T K V] → [Unwinds T K V] →
    ((K → Prop) → K → Prop) → Prop
  | tree {K V S C Hi Lo T : Type} [LinearOrder K] [LinearOrder Hi] [LinearOrder Lo] [VebKey K Hi Lo]
      [VebKeyRef K Hi Lo] [VebTree S Hi Unit] [VebTree T Lo V] [TreeCollection C Hi T Lo V]
      {safeS : (Hi → Prop) → Hi → Prop} {safeT : (Lo → Prop) → Lo → Prop} (hk : GoodKey K Hi Lo)
      (hs : CrateTree S Hi Unit safeS) (ht : CrateTree T Lo V safeT) (hc : CrateColl C Hi T Lo V) :
      CatchTree (Tree K V S C) K V (Tree.Safe safeS safeT)
  | box {T K V : Type} [LinearOrder K] [VebTree T K V] [Unwinds T K V] {safe : (K → Prop) → K → Prop}
      (h : CatchTree T K V safe) : CatchTree (Box T) K V safe

/-- Every panic of a history is that of a fault of its call. -/
def OnlyFaults (es : List (Faults × Op K V)) (os : List (R (Out K V))) : Prop :=
  List.Forall₂ (fun e o => ∀ p, o = .error p → ∃ s, e.1 s = some p) es os

/-- All entries handed over in a history with faults: also those of insertions that panicked. -/
def givenU : List (Faults × Op K V) → List (R (Out K V)) → Multiset (K × V)
  | (_, op) :: es, .ok o :: os => givenStep op o + givenU es os
  | (_, .insert k v) :: es, .error _ :: os => {(k, v)} + givenU es os
  | _ :: es, .error _ :: os => givenU es os
  | _, _ => 0

/-- All entries given back in the answers of a history with faults. -/
def takenU : List (Faults × Op K V) → List (R (Out K V)) → Multiset (K × V)
  | (_, op) :: es, .ok o :: os => takenStep op o + takenU es os
  | _ :: es, .error _ :: os => takenU es os
  | _, _ => 0

/-- A history of calls that panic because of faults only loses entries: what is stored afterwards and what was given
back was handed over, and nothing twice. -/
def NothingTwice (T : Type) [VebTree T K V] [Unwinds T K V] (es : List (Faults × Op K V)) : Prop :=
  ∃ xs : List (K × V),
    Exec.run (Exec.runU (none : Option T) es).1 (List.replicate xs.length .removeMin) =
      .ok (none, xs.map fun e => .kv (some e)) ∧
    (xs : Multiset (K × V)) + takenU es (Exec.runU (none : Option T) es).2 ≤ givenU es (Exec.runU (none : Option T) es).2

/-- The tree types with a modelled unwinding, and a history that cannot overflow a `usize` counter in them. -/
inductive CatchCovered : (T K V : Type) → [LinearOrder K] → [VebTree T K V] → [Unwinds T K V] → Nat → Prop
  | tree {K V S C Hi Lo T : Type} [LinearOrder K] [LinearOrder Hi] [LinearOrder Lo] [VebKey K Hi Lo]
      [VebKeyRef K Hi Lo] [VebTree S Hi Unit] [VebTree T Lo V] [TreeCollection C Hi T Lo V]
      {safeS : (Hi → Prop) → Hi → Prop} {safeT : (Lo → Prop) → Lo → Prop} (hk : GoodKey K Hi Lo)
      (hs : CrateTree S Hi Unit safeS) (ht : CrateTree T Lo V safeT) (hc : CrateColl C Hi T Lo V) {n : Nat}
      (hn : n ≤ usizeMax) : CatchCovered (Tree K V S C) K V n
  | uncounted {K V S C Hi Lo T : Type} [LinearOrder K] [LinearOrder Hi] [LinearOrder Lo] [VebKey K Hi Lo]
      [VebKeyRef K Hi Lo] [VebTree S Hi Unit] [VebTree T Lo V] [TreeCollection C Hi T Lo V] (hk : GoodKey K Hi Lo)
      (hs : UncountedTree S Hi Unit) (ht : UncountedTree T Lo V) (hc : CrateColl C Hi T Lo V) {n : Nat} :
      CatchCovered (Tree K V S C) K V n
  | box {T K V : Type} [LinearOrder K] [VebTree T K V] [Unwinds T K V] {n : Nat} (h : CatchCovered T K V n) :
      CatchCovered (Box T) K V n

end Veb
