import Verif.Model.Tree
import Verif.Model.Exec

/-!
What is left of a tree when a call on it panics and the caller catches the panic (`catch_unwind`, a thread that is
joined, a `Drop` during unwinding).  A method that takes `self` has consumed the tree; one that takes `&self` has not
changed it; `insert` takes `&mut self` and leaves what it has done so far, src/tree.rs:502-562.

`Tree::insert` calls code of others: comparing, splitting and joining keys, the collection, the summary, and through
them everything below.  `Faults` says which of these calls panics; it may be any of them, for whatever reason.  Panics
while dropping a key or a value are not modelled, nor is a panicking comparison inside `BTreeMap`.
-/

set_option autoImplicit false

namespace Veb

/-- The calls during which a panic can occur. -/
inductive Site where
  /-- `k.cmp(&self.min.0)`, src/tree.rs:504 -/
  | cmpMin
  /-- `data.max.0.cmp(&k)`, `k.borrow().cmp(&data.max.0)`, src/tree.rs:526, 534 -/
  | cmpMax
  /-- `k.split_val()`, src/tree.rs:544 -/
  | split
  /-- `children.insert_key(..)` and everything it calls, src/tree.rs:546 -/
  | insertKey
  /-- `summary.insert(..)`, src/tree.rs:548 -/
  | insertSummary
  /-- `K::join(..)`, src/tree.rs:552 -/
  | join
  /-- `create(..)`, src/tree.rs:557 -/
  | create
  /-- the `from_monad` of the summary, src/tree.rs:558 -/
  | newSummary
  /-- anything, in the methods other than `insert` -/
  | other
  deriving DecidableEq, Repr

/-- Which calls panic. -/
abbrev Faults := Site → Option Panic

/-- No call panics, unless by itself. -/
def noFaults : Faults := fun _ => none

/-- A call at `s`. -/
def Faults.call {α : Type} (φ : Faults) (s : Site) (x : R α) : R α :=
  match φ s with
  | some e => .error e
  | none => x

/-- Go on with `f`, or unwind and leave `t` behind. -/
def orLeave {T α β : Type} (t : T) (x : R α) (f : α → T × R β) : T × R β :=
  match x with
  | .error e => (t, .error e)
  | .ok a => f a

/-- Tree types for which it is modelled what an insertion that panics leaves behind: what `*self` is after the call,
and how the call ended. -/
class Unwinds (T : Type) (K V : outParam Type) where
  insertU : Faults → T → K → V → T × R (Option (K × V))

namespace Tree
variable {K V S C Hi Lo T : Type} [LinearOrder K] [VebKey K Hi Lo] [VebTree S Hi Unit] [VebTree T Lo V]
  [TreeCollection C Hi T Lo V]

/-- src/tree.rs:544-561, when `*self` is `min` and `data`.  `data.children.take()` leaves the tree without children
until `data.children = Some(..)`. -/
def insertBelowU (φ : Faults) (min : K × V) (data : TreeData K V S C) (k : K) (v : V) :
    Tree K V S C × R (Option (K × V)) :=
  orLeave ⟨min, some data⟩ (φ.call .split (pure (VebKey.splitVal k))) fun (hi, lo) =>
  match data.children with
  | some (summary, children) =>
    let taken : Tree K V S C := ⟨min, some { data with children := none }⟩
    let back := fun summary children => (⟨min, some { data with children := some (summary, children) }⟩ : Tree K V S C)
    orLeave taken (φ.call .insertKey (TreeCollection.insertKey children hi (lo, v))) fun (children, r) =>
    match r with
    | .Ok hi =>
      orLeave taken (φ.call .insertSummary (VebTree.insert summary hi ())) fun (summary, _) =>
      (back summary children, .ok none)
    | .Err (_, none) => (back summary children, .ok none)
    | .Err (hi, some (lo, v)) =>
      orLeave taken (φ.call .join (pure (VebKey.join hi lo))) fun k =>
      (back summary children, .ok (some (k, v)))
  | none =>
    orLeave ⟨min, some data⟩ (φ.call .create (TreeCollection.create hi (VebTree.fromMonad lo v))) fun children =>
    orLeave ⟨min, some data⟩ (φ.call .newSummary (pure (VebTree.fromMonad hi ()))) fun summary =>
    (⟨min, some { data with children := some (summary, children) }⟩, .ok none)

/-- src/tree.rs:502-562; `replace(&mut self.min, ..)` and `replace(&mut data.max, ..)` take effect at once, and the entry
taken out is lost if a later call panics. -/
def insertU (φ : Faults) (t : Tree K V S C) (k : K) (v : V) : Tree K V S C × R (Option (K × V)) :=
  orLeave t (φ.call .cmpMin (pure (cmp k t.min.1))) fun c =>
  match c, t.data with
  | .eq, _ => ({ t with min := (k, v) }, .ok (some t.min))
  | .lt, none => (⟨(k, v), some ⟨t.min, none⟩⟩, .ok none)
  | .gt, none => (⟨t.min, some ⟨(k, v), none⟩⟩, .ok none)
  | .lt, some data =>
    let old := t.min
    orLeave ⟨(k, v), some data⟩ (φ.call .cmpMax (pure (cmp data.max.1 old.1))) fun c =>
    match c with
    | .eq => (⟨(k, v), some { data with max := old }⟩, .ok (some data.max))
    | .gt => insertBelowU φ (k, v) { data with max := old } data.max.1 data.max.2
    | .lt => insertBelowU φ (k, v) data old.1 old.2
  | .gt, some data =>
    orLeave t (φ.call .cmpMax (pure (cmp k data.max.1))) fun c =>
    match c with
    | .eq => (⟨t.min, some { data with max := (k, v) }⟩, .ok (some data.max))
    | .gt => insertBelowU φ t.min { data with max := (k, v) } data.max.1 data.max.2
    | .lt => insertBelowU φ t.min data k v

instance : Unwinds (Tree K V S C) K V := ⟨insertU⟩

end Tree

section
variable {T K V : Type} [Unwinds T K V]

/-- `Box<V>`: `(**self).insert(k, v)`, src/lib.rs:408-410 -/
instance : Unwinds (Box T) K V where
  insertU φ t k v := match Unwinds.insertU φ t.val k v with
    | (t, r) => (⟨t⟩, r)

/-- `SizedVebTree<V>`, src/lib.rs:275-281: the size is adjusted after the insertion. -/
instance : Unwinds (SizedVebTree T) K V where
  insertU φ t k v := match Unwinds.insertU φ t.tree k v with
    | (tree, .error e) => (⟨tree, t.size⟩, .error e)
    | (tree, .ok o) =>
      if o.isNone then
        if t.size + 1 ≤ usizeMax then (⟨tree, t.size + 1⟩, .ok o)
        else (⟨tree, t.size⟩, .error (.expect "size overflowed"))
      else (⟨tree, t.size⟩, .ok o)

end

namespace Exec
variable {T K V : Type} [VebTree T K V] [Unwinds T K V]

/-- The methods that take `self`: if they panic, the tree is gone. -/
def consumes : Op K V → Bool
  | .remove _ | .removeMin | .removeMax | .intoMonad => true
  | _ => false

/-- One call on a tree that may panic and whose panic is caught: the tree left, and how the call ended. -/
def stepU (t : Option T) (φ : Faults) (op : Op K V) : Option T × R (Out K V) :=
  match t, op with
  | some t, .insert k v =>
    match Unwinds.insertU φ t k v with
    | (t, r) => (some t, r.map .kv)
  | some t, op =>
    match φ.call .other (stepTree t op) with
    | .ok (t, o) => (t, .ok o)
    | .error e => (if consumes op then none else some t, .error e)
  | none, .insert k v => (some (VebTree.fromMonad k v), .ok (.kv none))
  | none, .isMonad => (none, .ok (.bool false))
  | none, _ => (none, .ok (.kv none))

/-- A history of such calls. -/
def runU (t : Option T) : List (Faults × Op K V) → Option T × List (R (Out K V))
  | [] => (t, [])
  | (φ, op) :: es =>
    let (t, o) := stepU t φ op
    let (t, os) := runU t es
    (t, o :: os)

end Exec
end Veb
