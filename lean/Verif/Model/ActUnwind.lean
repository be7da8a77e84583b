import Verif.Model.ActBTree
import Verif.Model.Unwind

/-!
# What a caught panic leaves, over code of the user that has a state

As in `Verif.Model.Unwind`, what is left of a tree when a call on it panics and the panic is caught; but the code of the
user is spelled out as in `Verif.Model.Act`, and which of its calls panics depends on the state.  A call that panics leaves
the state of the user's program in a condition about which nothing is known, so every call of a history has its own state
to start from.

Panics while dropping a key or a value are not modelled.
-/

set_option autoImplicit false

namespace Veb

/-- Go on with `f`, or unwind and leave `t` behind. -/
def orLeaveA {σ T α β : Type} (t : T) (x : Act σ α) (f : α → σ → T × R (β × σ)) (s : σ) : T × R (β × σ) :=
  match x s with
  | .error e => (t, .error e)
  | .ok (a, s) => f a s

/-- Tree types for which it is modelled what an insertion that panics leaves behind: what `*self` is after the call,
and how the call ended. -/
class ActUnwinds (σ T : Type) (K V : outParam Type) where
  insertUA : T → K → V → σ → T × R (Option (K × V) × σ)

/-- Tree types that call no code with a state.  This is used for types whose insertions do not panic, so it does not matter
what would be left. -/
@[reducible] def ActUnwinds.plain (σ : Type) {T K V : Type} [VebTree T K V] : ActUnwinds σ T K V where
  insertUA t k v s := match VebTree.insert t k v with
    | .error e => (t, .error e)
    | .ok (t, o) => (t, .ok (o, s))

namespace Tree
variable {σ K V S C Hi Lo T : Type} [ActKey σ K Hi Lo] [ActTree σ S Hi Unit] [ActTree σ T Lo V] [ActColl σ C Hi T Lo V]

/-- src/tree.rs:544-561, when `*self` is `min` and `data`.  `data.children.take()` leaves the tree without children
until `data.children = Some(..)`. -/
def insertBelowUA (min : K × V) (data : TreeData K V S C) (k : K) (v : V) :
    σ → Tree K V S C × R (Option (K × V) × σ) :=
  orLeaveA ⟨min, some data⟩ (ActKey.splitVal (σ := σ) k) fun (hi, lo) =>
  match data.children with
  | some (summary, children) =>
    let taken : Tree K V S C := ⟨min, some { data with children := none }⟩
    let back := fun summary children => (⟨min, some { data with children := some (summary, children) }⟩ : Tree K V S C)
    orLeaveA taken (ActColl.insertKey children hi (lo, v)) fun (children, r) =>
    match r with
    | .Ok hi =>
      orLeaveA taken (ActTree.insert summary hi ()) fun (summary, _) s => (back summary children, .ok (none, s))
    | .Err (_, none) => fun s => (back summary children, .ok (none, s))
    | .Err (hi, some (lo, v)) =>
      orLeaveA taken (ActKey.join (σ := σ) hi lo) fun k s => (back summary children, .ok (some (k, v), s))
  | none =>
    orLeaveA ⟨min, some data⟩ (ActColl.create hi (ActTree.fromMonad σ lo v)) fun children s =>
    (⟨min, some { data with children := some (ActTree.fromMonad σ hi (), children) }⟩, .ok (none, s))

/-- src/tree.rs:502-562; `replace(&mut self.min, ..)` and `replace(&mut data.max, ..)` take effect at once, and the entry
taken out is lost if a later call panics. -/
def insertUA (t : Tree K V S C) (k : K) (v : V) : σ → Tree K V S C × R (Option (K × V) × σ) :=
  orLeaveA t (ActKey.cmp (σ := σ) k t.min.1) fun c =>
  match c, t.data with
  | .eq, _ => fun s => ({ t with min := (k, v) }, .ok (some t.min, s))
  | .lt, none => fun s => (⟨(k, v), some ⟨t.min, none⟩⟩, .ok (none, s))
  | .gt, none => fun s => (⟨t.min, some ⟨(k, v), none⟩⟩, .ok (none, s))
  | .lt, some data =>
    let old := t.min
    orLeaveA ⟨(k, v), some data⟩ (ActKey.cmp (σ := σ) data.max.1 old.1) fun c =>
    match c with
    | .eq => fun s => (⟨(k, v), some { data with max := old }⟩, .ok (some data.max, s))
    | .gt => insertBelowUA (k, v) { data with max := old } data.max.1 data.max.2
    | .lt => insertBelowUA (k, v) data old.1 old.2
  | .gt, some data =>
    orLeaveA t (ActKey.cmp (σ := σ) k data.max.1) fun c =>
    match c with
    | .eq => fun s => (⟨t.min, some { data with max := (k, v) }⟩, .ok (some data.max, s))
    | .gt => insertBelowUA t.min { data with max := (k, v) } data.max.1 data.max.2
    | .lt => insertBelowUA t.min data k v

instance : ActUnwinds σ (Tree K V S C) K V := ⟨insertUA⟩

end Tree

/-- `BTreeMap`, src/lib.rs:541-550: both searches are over before anything is changed. -/
instance {σ K V : Type} [ActOrd σ K] : ActUnwinds σ (BTreeMap K V) K V where
  insertUA t k v :=
    orLeaveA t (ActOrd.search t.keys k) fun r =>
    match r.entry t.entries with
    | some (i, k', old) => fun s => (⟨t.entries.set i (k', v)⟩, .ok (some (k, old), s))
    | none =>
      orLeaveA t (ActOrd.search t.keys k) fun r s =>
      match r.entry t.entries with
      | some (i, k', _) => (⟨t.entries.set i (k', v)⟩, .ok (none, s))
      | none => (⟨t.entries.take r.place ++ (k, v) :: t.entries.drop r.place⟩, .ok (none, s))

section
variable {σ T K V : Type} [ActUnwinds σ T K V]

/-- `Box<V>`: `(**self).insert(k, v)`, src/lib.rs:408-410 -/
instance : ActUnwinds σ (Box T) K V where
  insertUA t k v s := match ActUnwinds.insertUA t.val k v s with
    | (t, r) => (⟨t⟩, r)

/-- `SizedVebTree<V>`, src/lib.rs:275-281: the size is adjusted after the insertion. -/
instance : ActUnwinds σ (SizedVebTree T) K V where
  insertUA t k v s := match ActUnwinds.insertUA t.tree k v s with
    | (tree, .error e) => (⟨tree, t.size⟩, .error e)
    | (tree, .ok (o, s)) =>
      if o.isNone then
        if t.size + 1 ≤ usizeMax then (⟨tree, t.size + 1⟩, .ok (o, s))
        else (⟨tree, t.size⟩, .error (.expect "size overflowed"))
      else (⟨tree, t.size⟩, .ok (o, s))

end

namespace ActExec
variable {σ T K V : Type}

/-- The tree left by a call, when `t` is what it leaves if it panics, and how the call ended. -/
def leave (t : Option T) : R ((Option T × Out K V) × σ) → Option T × R (Out K V)
  | .ok ((t, o), _) => (t, .ok o)
  | .error e => (t, .error e)

variable [ActTree σ T K V] [ActUnwinds σ T K V]

/-- One call on a tree, from a state, whose panic is caught if it panics: the tree left, and how the call ended. -/
def stepUA (t : Option T) (s : σ) (op : Op K V) : Option T × R (Out K V) :=
  match t, op with
  | some t, .insert k v =>
    match ActUnwinds.insertUA t k v s with
    | (t, r) => (some t, r.map fun p => .kv p.1)
  | some t, op => leave (if Exec.consumes op then none else some t) (stepTree t op s)
  | none, .insert k v => (some (ActTree.fromMonad σ k v), .ok (.kv none))
  | none, .isMonad => (none, .ok (.bool false))
  | none, _ => (none, .ok (.kv none))

/-- A history of such calls, each from a state of its own. -/
def runUA (t : Option T) : List (σ × Op K V) → Option T × List (R (Out K V))
  | [] => (t, [])
  | (s, op) :: es =>
    let (t, o) := stepUA t s op
    let (t, os) := runUA t es
    (t, o :: os)

end ActExec
end Veb
