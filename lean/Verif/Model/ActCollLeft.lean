import Verif.Model.ActUnwind
import Verif.SpecColl

/-!
# What a caught panic leaves of a collection

`TreeCollection` is public, so a program can hold a collection itself and catch the panics of calls on it.  `get`, `get_mut`
and `create` change nothing before code of the user runs for the last time, and `remove_key` and `maybe_remove_key` consume
the collection.  `insert_key(&mut self, ..)` is different: this file says for each collection what `*self` is after it, and
how it ended.  Code of the user is spelled out as in `Verif.Model.Act`.

Panics while dropping a key or a tree are not modelled.  The list of a `ByteMap` is a `VecDeque` here; for lists of the user's
see `Verif.Model.ByteListLeft`.
-/

set_option autoImplicit false

namespace Veb

/-- What `*self` is after `insert_key`, and how the call ended. -/
class CollUnwinds (σ C : Type) (Hi Lo V : outParam Type) where
  insertKeyU : C → Hi → Lo × V → σ → C × R (Result Hi (Hi × Option (Lo × V)) × σ)

/-- An insertion makes a hash table rehash from time to time.  If `Hash` panics then, hashbrown keeps the entries that it has
placed again and drops the others (`RawTableInner::rehash_in_place`).  `kept` tells which those are, given the keys in the
table, the one inserted and the state; any answer is possible. -/
class ActRehash (σ Hi : Type) where
  kept : List Hi → Hi → σ → Hi → Bool

/-- The trees in a slot, a table or a list after an insertion in one of them, and how `insert_key` ends. -/
def endInsert {σ Hi Lo V : Type} (h : Hi) (r : R (Option (Lo × V) × σ)) : R (Result Hi (Hi × Option (Lo × V)) × σ) :=
  r.map fun p => (.Err (h, p.1), p.2)

section
variable {σ Hi T Lo V : Type} [ActTree σ T Lo V] [ActUnwinds σ T Lo V]

/-- src/collection/array.rs:120-132: the tree is made before the slot is written, and the slot before the counter.  The
tree in a slot is changed in place. -/
instance ArrayColl.collUnwinds [ActIndex σ Hi] : CollUnwinds σ (ArrayColl Hi T) Hi Lo V where
  insertKeyU c h lv :=
    orLeaveA c (ActIndex.index (σ := σ) h) fun i s =>
    match c.array.get i with
    | .error e => (c, .error e)
    | .ok none =>
      orLeaveA c (ActIndex.index (σ := σ) h) (fun j s =>
        match c.array.put j (some (ActTree.fromMonad σ lv.1 lv.2)) with
        | .error e => (c, .error e)
        | .ok array =>
          match addUsize c.count 1 with
          | .error e => (⟨array, c.count⟩, .error e)
          | .ok n => (⟨array, n⟩, .ok (.Ok h, s))) s
    | .ok (some t) =>
      match ActUnwinds.insertUA t lv.1 lv.2 s with
      | (t, r) => (⟨{ c.array with slot := fun j => if j = i then some t else c.array.slot j }, c.count⟩, endInsert h r)

/-- src/collection/hash.rs:57-67: the key is cloned after the entry is in the table. -/
instance HashMap.collUnwinds [ActHash σ Hi] [ActRehash σ Hi] : CollUnwinds σ (HashMap Hi T) Hi Lo V where
  insertKeyU c h lv :=
    orLeaveA c (c.probeA (σ := σ) h) fun e s =>
    match e with
    | none =>
      let kept := ActRehash.kept (c.entries.map Prod.fst) h s
      orLeaveA ⟨c.entries.filter fun e => kept e.1⟩ (ActHash.hashing (σ := σ) h) (fun _ =>
        let c' : HashMap Hi T := ⟨(h, ActTree.fromMonad σ lv.1 lv.2) :: c.entries⟩
        orLeaveA c' (ActHash.clone (σ := σ) h) fun h s => (c', .ok (.Ok h, s))) s
    | some (i, h', t) =>
      match ActUnwinds.insertUA t lv.1 lv.2 s with
      | (t, r) => (c.assignAt i h' t, endInsert h r)

/-- src/bitset/map/mod.rs:60-69: the bit is set before the list changes, but a `VecDeque` does not panic. -/
instance ByteMap.collUnwinds : CollUnwinds σ (ByteMap T) (U 8) Lo V where
  insertKeyU c h lv s :=
    match c.set.insert h () with
    | .error e => (c, .error e)
    | .ok (set, r) =>
      if r.isSome then
        match VecDeque.getMut c.list (c.set.countBelow h) with
        | .error e => (⟨set, c.list⟩, .error e)
        | .ok (t, put) =>
          match ActUnwinds.insertUA t lv.1 lv.2 s with
          | (t, r) => (⟨set, put t⟩, endInsert h r)
      else
        match VecDeque.insertAt c.list (c.set.countBelow h) (ActTree.fromMonad σ lv.1 lv.2) with
        | .error e => (⟨set, c.list⟩, .error e)
        | .ok list => (⟨set, list⟩, .ok (.Ok h, s))

end

/-- src/collection/mod.rs:124-126 -/
instance {σ C Hi Lo V : Type} [CollUnwinds σ C Hi Lo V] : CollUnwinds σ (Box C) Hi Lo V where
  insertKeyU c h lv s := match CollUnwinds.insertKeyU c.val h lv s with
    | (c, r) => (⟨c⟩, r)

/-- Calls of the `TreeCollection` API, with closures that have a state.  `set h u` is `get_mut(h)` followed by writing `u`
through the reference. -/
inductive ACOp (σ Hi T Lo V : Type) where
  | create (h : Hi) (t : T)
  | get (h : Hi)
  | set (h : Hi) (u : T)
  | insert (h : Hi) (l : Lo) (v : V)
  | remove (h : Hi) (r : T → Act σ (Option T × (Lo × V)))
  | maybeRemove (h : Hi) (r : T → Act σ (Result (Option T × (Lo × V)) T))

namespace ActCollExec
variable {σ C Hi T Lo V : Type}

/-- What a successful removal leaves, and what the caller learns. -/
def removed : Option (C × Bool) × (Lo × V) → Option C × COut Hi T Lo V
  | (none, val) => (none, .removed val none)
  | (some (c, b), val) => (some c, .removed val (some b))

/-- The collection left by a call, when `c` is what it leaves if it panics, and how the call ended. -/
def leave {α : Type} (c : Option C) (f : α → Option C × COut Hi T Lo V) : R (α × σ) → Option C × R (COut Hi T Lo V)
  | .ok (a, _) => ((f a).1, .ok (f a).2)
  | .error e => (c, .error e)

variable [ActColl σ C Hi T Lo V] [CollUnwinds σ C Hi Lo V]

/-- One call on a collection, from a state, whose panic is caught if it panics.  `create` is `c = C::create(..)`, which
keeps the old collection if it panics. -/
def stepCollU (c : C) (s : σ) : ACOp σ Hi T Lo V → Option C × R (COut Hi T Lo V)
  | .create h t => leave (some c) (fun c => (some c, .done)) (ActColl.create h t s)
  | .get h => leave (some c) (fun t => (some c, .tree t)) (ActColl.get c h s)
  | .set h u => leave (some c) (fun o : Option (T × (T → C)) => match o with
    | none => (some c, .tree none)
    | some (t, put) => (some (put u), .tree (some t))) (ActColl.getMut c h s)
  | .insert h l v => match CollUnwinds.insertKeyU c h (l, v) s with
    | (c, r) => (some c, r.map fun p => .inserted p.1)
  | .remove h r => leave none removed (ActColl.removeKey c h r s)
  | .maybeRemove h r => leave none (fun r => match r with
    | .Ok r => removed r
    | .Err c => (some c, .kept)) (ActColl.maybeRemoveKey c h r s)

/-- One call on an optional collection. -/
def stepU (c : Option C) (s : σ) (op : ACOp σ Hi T Lo V) : Option C × R (COut Hi T Lo V) :=
  match c, op with
  | some c, op => stepCollU c s op
  | none, .create h t => leave none (fun c => (some c, .done)) (ActColl.create h t s)
  | none, _ => (none, .ok .gone)

/-- A history of such calls, each from a state of its own. -/
def runU (c : Option C) : List (σ × ACOp σ Hi T Lo V) → Option C × List (R (COut Hi T Lo V))
  | [] => (c, [])
  | (s, op) :: es =>
    let (c, o) := stepU c s op
    let (c, os) := runU c es
    (c, o :: os)

end ActCollExec
end Veb
