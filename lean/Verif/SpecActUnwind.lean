import Verif.SpecAudit
import Verif.Model.ActUnwind

/-!
# What to expect of caught panics whatever the code of the user does
-/

set_option autoImplicit false

namespace Veb

section
variable {K V : Type}

/-- The values handed over in one call.  An insertion that panics has been given its value. -/
def givenR (op : Op K V) : R (Out K V) → Multiset V
  | .ok o => (givenStep op o).map Prod.snd
  | .error _ =>
    match op with
    | .insert _ v => {v}
    | _ => 0
/-- The values given back by one call. -/
def takenR (op : Op K V) : R (Out K V) → Multiset V
  | .ok o => (takenStep op o).map Prod.snd
  | .error _ => 0
/-- The values handed over in a history of calls with the ends `os`. -/
def givenAll (ops : List (Op K V)) (os : List (R (Out K V))) : Multiset V := (List.zipWith givenR ops os).sum
/-- The values given back in it. -/
def takenAll (ops : List (Op K V)) (os : List (R (Out K V))) : Multiset V := (List.zipWith takenR ops os).sum

end

/-- `insertUA` tells how an insertion ends, and with which tree if it returns. -/
def ActFaithful (σ T : Type) {K V : Type} [ActTree σ T K V] [ActUnwinds σ T K V] : Prop :=
  ∀ (t : T) (k : K) (v : V) (s : σ),
    (∃ t' o s', ActTree.insert t k v s = .ok ((t', o), s') ∧ ActUnwinds.insertUA t k v s = (t', .ok (o, s'))) ∨
    ∃ e, ActTree.insert t k v s = .error e ∧ (ActUnwinds.insertUA t k v s).2 = .error e

/-- The answer of an action, if it does not panic, and the state afterwards. -/
def answer? {σ α : Type} (x : Act σ α) (s : σ) : Option (α × σ) :=
  match x s with
  | .ok p => some p
  | .error _ => none

section
variable {σ K V S C Hi Lo : Type} [ActKey σ K Hi Lo]

/-- The first comparison of an insertion in a `Tree`: with the least key. -/
def firstCmp (t : Tree K V S C) (k : K) (s : σ) : Option (Ordering × σ) := answer? (ActKey.cmp (σ := σ) k t.min.1) s
/-- The second one: what is not the least entry is compared with the greatest key. -/
def secondCmp (t : Tree K V S C) (d : TreeData K V S C) (k : K) (s : σ) : Option (Ordering × σ) :=
  match firstCmp t k s with
  | some (.lt, s) => answer? (ActKey.cmp (σ := σ) d.max.1 t.min.1) s
  | some (.gt, s) => answer? (ActKey.cmp (σ := σ) k d.max.1) s
  | _ => none
/-- Whether the key of the entry that goes below is split without a panic. -/
def splits (t : Tree K V S C) (d : TreeData K V S C) (k : K) (s : σ) : Prop :=
  match (firstCmp t k s).map Prod.fst, secondCmp t d k s with
  | some .lt, some (.lt, s) => (answer? (ActKey.splitVal (σ := σ) t.min.1) s).isSome
  | some .gt, some (.lt, s) => (answer? (ActKey.splitVal (σ := σ) k) s).isSome
  | _, some (.gt, s) => (answer? (ActKey.splitVal (σ := σ) d.max.1) s).isSome
  | _, _ => False
end

/-- The tree types with a modelled unwinding, over code of the user with state `σ`.  `held`: the values in a tree. -/
inductive CaughtTree (σ : Type) : (T K V : Type) → [ActTree σ T K V] → [ActUnwinds σ T K V] → (held : T → Multiset V) → Prop
  /-- a tree type whose keys do not depend on the state, without a counter (one can be put around it) -/
  | plain {T K V : Type} [VebTree T K V] {a e : Prop} (h : AnyTree T K V False a e) :
      @CaughtTree σ T K V (ActTree.plain σ) (ActUnwinds.plain σ) popped
  | btree {K V : Type} [ActOrd σ K] : CaughtTree σ (BTreeMap K V) K V fun t => (t.entries.map Prod.snd : List V)
  | box {T K V : Type} [ActTree σ T K V] [ActUnwinds σ T K V] {held : T → Multiset V} (h : CaughtTree σ T K V held) :
      CaughtTree σ (Box T) K V fun t => held t.val
  | sized {T K V : Type} [ActTree σ T K V] [ActUnwinds σ T K V] {held : T → Multiset V} (h : CaughtTree σ T K V held) :
      CaughtTree σ (SizedVebTree T) K V fun t => held t.tree
  | tree {K V S C Hi Lo T : Type} [ActKey σ K Hi Lo] [ActTree σ S Hi Unit] [ActTree σ T Lo V] [ActColl σ C Hi T Lo V]
      {f g : Prop} {ht : T → Multiset V} {hc : (T → Multiset V) → C → Multiset V} (h : UserTree σ T Lo V f ht)
      (hC : UserColl σ C Hi T Lo V g hc) : CaughtTree σ (Tree K V S C) K V (treeHeld (hc ht))

/-- The same types, with their panics, over code of the user that panics only in `Us`.  `E`: what else can happen.  `O`: what
else can happen if they are given too much to count. -/
inductive CaughtAudit (σ : Type) (Us : Panic → Prop) : (T K V : Type) → [ActTree σ T K V] → [ActUnwinds σ T K V] →
    (E O : Panic → Prop) → Prop
  | plain {T K V : Type} [VebTree T K V] {a e : Prop} (h : AnyTree T K V False a e) :
      @CaughtAudit σ Us T K V (ActTree.plain σ) (ActUnwinds.plain σ) (fun p => p = .debugAssert ∧ ¬ a) NoPanics
  | btree {K V : Type} [ActOrd σ K] (h : OrdPanics σ K Us) : CaughtAudit σ Us (BTreeMap K V) K V RangePanics NoPanics
  | box {T K V : Type} [ActTree σ T K V] [ActUnwinds σ T K V] {E O : Panic → Prop} (h : CaughtAudit σ Us T K V E O) :
      CaughtAudit σ Us (Box T) K V E O
  /-- the counter can be too large after a caught panic, so the `debug_assert` of `is_monad` can fail (src/lib.rs:196) -/
  | sized {T K V : Type} [ActTree σ T K V] [ActUnwinds σ T K V] {E O : Panic → Prop} (h : CaughtAudit σ Us T K V E O) :
      CaughtAudit σ Us (SizedVebTree T) K V (fun p => E p ∨ p = .debugAssert) fun p =>
        O p ∨ p = .expect "size overflowed" ∨ p = .expect "last item didn't remove tree"
  | tree {K V S C Hi Lo T : Type} [ActKey σ K Hi Lo] [ActTree σ S Hi Unit] [ActTree σ T Lo V] [ActColl σ C Hi T Lo V]
      {E E' E'' O O' O'' : Panic → Prop} (hk : KeyPanics σ K Us) (hs : AuditedTree σ Us S Hi Unit E O)
      (ht : AuditedTree σ Us T Lo V E' O') (hc : AuditedColl σ Us C Hi T Lo V E'' O'') :
      CaughtAudit σ Us (Tree K V S C) K V (fun p => E p ∨ E' p ∨ E'' p ∨ TreePanics p) fun p => O p ∨ O' p ∨ O'' p
  | synced {K V S C Hi Lo T : Type} [ActKey σ K Hi Lo] [LinearOrder Hi] [ActTree σ S Hi Unit] [VebTree S Hi Unit]
      [ActTree σ T Lo V] [ActColl σ C Hi T Lo V] {E O : Panic → Prop} (hk : KeyPanics σ K Us)
      (hs : SoundTree σ Us S Hi Unit) (hu : UncountedTree S Hi Unit) (ht : AuditedTree σ Us T Lo V E O)
      (hc : SyncedColl σ Us C Hi T Lo V) :
      CaughtAudit σ Us (Tree K V S C) K V (fun p => E p ∨ p = .debugAssert ∧ ¬ LeGt σ K) O

/-- The tree types with a modelled unwinding over code that answers properly or panics, next to the same types without a
state. -/
inductive SoundCatch (σ : Type) (Us : Panic → Prop) : (T K V : Type) → [ActTree σ T K V] → [ActUnwinds σ T K V] →
    [VebTree T K V] → [Unwinds T K V] → Prop
  | tree {K V S C Hi Lo T : Type} [LinearOrder K] [VebKey K Hi Lo] [VebKeyRef K Hi Lo] [ActKey σ K Hi Lo]
      [ActTree σ S Hi Unit] [VebTree S Hi Unit] [ActTree σ T Lo V] [VebTree T Lo V] [ActColl σ C Hi T Lo V]
      [TreeCollection C Hi T Lo V] (hk : SoundKey σ Us K Hi Lo) (hs : SoundTree σ Us S Hi Unit) (ht : SoundTree σ Us T Lo V)
      (hc : SoundColl σ Us C Hi T Lo V) : SoundCatch σ Us (Tree K V S C) K V
  | box {T K V : Type} [ActTree σ T K V] [ActUnwinds σ T K V] [VebTree T K V] [Unwinds T K V] (h : SoundCatch σ Us T K V) :
      SoundCatch σ Us (Box T) K V
  | sized {T K V : Type} [ActTree σ T K V] [ActUnwinds σ T K V] [VebTree T K V] [Unwinds T K V] (h : SoundCatch σ Us T K V) :
      SoundCatch σ Us (SizedVebTree T) K V

end Veb
