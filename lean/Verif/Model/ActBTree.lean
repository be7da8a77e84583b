import Verif.Model.Act

/-!
# `BTreeMap` over code of the user that has a state

`impl VebTree for BTreeMap` (src/lib.rs:433-580) once more, as in `Verif.Model.Act`.  The code of the user here is `Ord` of
keys, and `BTreeMap` of `alloc` calls it.
-/

set_option autoImplicit false

namespace Veb

/-- What `alloc`'s search for a key in a B-tree answers: `SearchResult::Found` with the position of an entry, or
`SearchResult::GoDown` with the position of a gap. -/
inductive Search where
  | found (i : Nat)
  | gap (i : Nat)
  deriving DecidableEq, Repr

/-- the entry found, with its position -/
def Search.entry {α : Type} (l : List α) : Search → Option (Nat × α)
  | .found i => l[i]?.map fun a => (i, a)
  | .gap _ => none
/-- the gap -/
def Search.place : Search → Nat
  | .found i => i
  | .gap i => i

/-- What a B-tree does with the code of its user.  `Ord` of keys decides where a search ends; here it can decide for any
place.  Which keys are compared with the key searched for depends on the nodes of the tree, and is not modelled.  The tree
itself is trusted: whatever it is told, its entries change by insertions at the gap and removals at the position it found.

The lists are the present keys.  `below` and `above` are the edges of `..k` and of what is behind `k`, counted in keys
before the edge; `around` are the two edges of `k..=k`, which `range_mut` compares with each other, panicking if they are
in the wrong order. -/
class ActOrd (σ K : Type) where
  search : List K → K → Act σ Search
  below : List K → K → Act σ Nat
  above : List K → K → Act σ Nat
  around : List K → K → Act σ (Nat × Nat)

/-! ## Maps of one node

Up to 11 entries are in one node, and there it is known which keys are compared.  This is code of `alloc`, not of the crate:
`find_key_index`, `find_lower_bound_index` and `find_upper_bound_index` (alloc/src/collections/btree/search.rs). -/

section
variable {σ K : Type}

/-- keys are compared one after the other until one is not smaller -/
def scanA (cmp : K → K → Act σ Ordering) (k : K) : List K → Nat → Act σ Search
  | [], i => pure (.gap i)
  | x :: xs, i => do
    match (← cmp k x) with
    | .gt => scanA cmp k xs (i + 1)
    | .eq => pure (.found i)
    | .lt => pure (.gap i)

/-- the edge behind the position -/
def Search.after : Search → Nat
  | .found i => i + 1
  | .gap i => i

/-- The searches of a map of one node, for given `Ord::cmp` and `PartialOrd::gt`.  For `k..=k`, the ends are compared first;
the search for the upper edge starts at the lower edge. -/
@[reducible] def ActOrd.leaf (cmp : K → K → Act σ Ordering) (gt : K → K → Act σ Bool) : ActOrd σ K where
  search ks k := scanA cmp k ks 0
  below ks k := do pure (← scanA cmp k ks 0).place
  above ks k := do pure (← scanA cmp k ks 0).after
  around ks k := do
    if (← gt k k) then throw (.expect "range start is greater than range end in BTreeMap")
    else
      let lower := (← scanA cmp k ks 0).place
      let upper := (← scanA cmp k (ks.drop lower) lower).after
      if lower > upper then throw (.expect "Ord is ill-defined in BTreeMap range")
      else pure (lower, upper)

end

namespace BTreeMap
variable {σ K V : Type}

/-- the present keys -/
def keys (t : BTreeMap K V) : List K := t.entries.map Prod.fst
/-- the entry at a position, with a reference through which its value is written -/
def mutIdx (t : BTreeMap K V) (i : Nat) : Option (K × V × (V → BTreeMap K V)) :=
  t.entries[i]?.map fun e => (e.1, e.2, fun w => ⟨t.entries.set i (e.1, w)⟩)
/-- the last entry before an edge -/
def lastBefore {α : Type} (f : Nat → Option α) : Nat → Option α
  | 0 => none
  | i + 1 => f i
/-- the first entry between two edges -/
def firstIn {α : Type} (f : Nat → Option α) (e : Nat × Nat) : Option α := if e.1 < e.2 then f e.1 else none

/-- src/lib.rs:437-441: `insert` into an empty map compares nothing -/
def fromMonadA (k : K) (v : V) : BTreeMap K V := ⟨[(k, v)]⟩
/-- src/lib.rs:442-444 -/
def isMonadA (t : BTreeMap K V) : Act σ Bool := pure (decide (t.entries.length = 1))
/-- src/lib.rs:445-447 -/
def lenHintA (t : BTreeMap K V) : Act σ (Nat × Option Nat) := pure (t.entries.length, some t.entries.length)
/-- src/lib.rs:448-458 -/
def intoMonadA (t : BTreeMap K V) : Act σ (Result (K × V) (BTreeMap K V)) := do
  if (← t.isMonadA) then pure (.Ok (← expect "monad BTreeMap should have one element" t.entries.head?))
  else pure (.Err t)
/-- src/lib.rs:459-463 -/
def minValA (t : BTreeMap K V) : Act σ (K × V) := expect "tree should not be empty" t.entries.head?
/-- src/lib.rs:464-468 -/
def minValMutA (t : BTreeMap K V) : Act σ (K × V × (V → BTreeMap K V)) := expect "tree should not be empty" (t.mutIdx 0)
/-- src/lib.rs:469-473 -/
def maxValA (t : BTreeMap K V) : Act σ (K × V) := expect "tree should not be empty" t.entries.getLast?
/-- src/lib.rs:474-481 -/
def maxValMutA (t : BTreeMap K V) : Act σ (K × V × (V → BTreeMap K V)) :=
  expect "tree should not be empty" (t.mutIdx (t.entries.length - 1))
/-- src/lib.rs:565-571 -/
def removeMinA (t : BTreeMap K V) : Act σ (Option (BTreeMap K V) × (K × V)) := do
  let v ← expect "tree should not be empty" t.entries.head?
  let t' : BTreeMap K V := ⟨t.entries.tail⟩
  pure (if t'.entries.isEmpty then none else some t', v)
/-- src/lib.rs:573-579 -/
def removeMaxA (t : BTreeMap K V) : Act σ (Option (BTreeMap K V) × (K × V)) := do
  let v ← expect "tree should not be empty" t.entries.getLast?
  let t' : BTreeMap K V := ⟨t.entries.dropLast⟩
  pure (if t'.entries.isEmpty then none else some t', v)

variable [ActOrd σ K]

/-- src/lib.rs:482-488: `get_key_value` -/
def findA (t : BTreeMap K V) (k : K) : Act σ (Option (K × V)) := do
  pure (((← ActOrd.search t.keys k).entry t.entries).map Prod.snd)
/-- src/lib.rs:489-498: first entry of the range `k..=k` -/
def findMutA (t : BTreeMap K V) (k : K) : Act σ (Option (K × V × (V → BTreeMap K V))) := do
  pure (firstIn t.mutIdx (← ActOrd.around t.keys k))
/-- src/lib.rs:499-507: last entry of the range `..k` -/
def predecessorA (t : BTreeMap K V) (k : K) : Act σ (Option (K × V)) := do
  pure (lastBefore (fun i => t.entries[i]?) (← ActOrd.below t.keys k))
/-- src/lib.rs:511-522 -/
def predecessorMutA (t : BTreeMap K V) (k : K) : Act σ (Option (K × V × (V → BTreeMap K V))) := do
  pure (lastBefore t.mutIdx (← ActOrd.below t.keys k))
/-- src/lib.rs:523-531: first entry of the range above `k`, `k` excluded -/
def successorA (t : BTreeMap K V) (k : K) : Act σ (Option (K × V)) := do
  pure (t.entries[← ActOrd.above t.keys k]?)
/-- src/lib.rs:532-540 -/
def successorMutA (t : BTreeMap K V) (k : K) : Act σ (Option (K × V × (V → BTreeMap K V))) := do
  pure (t.mutIdx (← ActOrd.above t.keys k))
/-- src/lib.rs:541-550: `get_mut` searches, and when it has found nothing, `insert` searches once more; if it finds an entry
after all, it replaces the value, and the old value, which it returns, is dropped (:545) -/
def insertA (t : BTreeMap K V) (k : K) (v : V) : Act σ (BTreeMap K V × Option (K × V)) := do
  match (← ActOrd.search t.keys k).entry t.entries with
  | some (i, k', old) => pure (⟨t.entries.set i (k', v)⟩, some (k, old))
  | none =>
    let r ← ActOrd.search t.keys k
    match r.entry t.entries with
    | some (i, k', _) => pure (⟨t.entries.set i (k', v)⟩, none)
    | none => pure (⟨t.entries.take r.place ++ (k, v) :: t.entries.drop r.place⟩, none)
/-- src/lib.rs:551-564: `is_monad`, then `remove_entry` -/
def removeA (t : BTreeMap K V) (k : K) : Act σ (Result (Option (BTreeMap K V) × (K × V)) (BTreeMap K V)) := do
  let monad ← t.isMonadA
  match monad, (← ActOrd.search t.keys k).entry t.entries with
  | _, none => pure (.Err t)
  | true, some (_, e) => pure (.Ok (none, e))
  | false, some (i, e) => pure (.Ok (some ⟨t.entries.eraseIdx i⟩, e))

/-- `impl VebTree for BTreeMap<K, V>`, src/lib.rs:433-580 -/
instance : ActTree σ (BTreeMap K V) K V where
  fromMonad := fromMonadA
  isMonad := isMonadA
  lenHint := lenHintA
  intoMonad := intoMonadA
  minVal := minValA
  minValMut := minValMutA
  maxVal := maxValA
  maxValMut := maxValMutA
  find := findA
  findMut := findMutA
  predecessor := predecessorA
  predecessorMut := predecessorMutA
  successor := successorA
  successorMut := successorMutA
  insert := insertA
  remove := removeA
  removeMin := removeMinA
  removeMax := removeMaxA

end BTreeMap
end Veb
