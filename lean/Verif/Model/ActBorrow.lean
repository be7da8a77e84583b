import Verif.Model.Exec
import Verif.Model.Tree
import Verif.Model.Wrappers
import Verif.Model.ByteSet
import Verif.Model.ByteMap
import Verif.Model.ByteList
import Verif.Model.Collection

/-!
The methods that take a key as `k: Q` with `Q: Borrow<Self::Key>` (src/lib.rs:91-150), with the user's `Borrow::borrow` and
`Drop::drop` of `Q` as code that runs: it may look at and change a state of the user and it may panic.  The key handed to a
method is an `Arg`, two calls that have not been made yet.  The method owns `k`, so it is dropped when the method that
borrowed it ends or is unwound.  What happens between the two calls is the method modelled before.

Simplification: Rust aborts the process when a destructor panics during unwinding; here such a panic is ignored.
-/

set_option autoImplicit false

namespace Veb

/-- Code that may change the state `σ` of the user and may panic; the state survives the panic. -/
def Ask (σ α : Type) := σ → R α × σ

namespace Ask
variable {σ α β : Type}

/-- Run code of the user, then code of the crate that does not call the user. -/
def andThen (m : Ask σ α) (f : α → R β) : Ask σ β := fun s =>
  match m s with
  | (.ok a, s) => (f a, s)
  | (.error e, s) => (.error e, s)

end Ask

/-- A value of a type `Q: Borrow<K>` that is handed to a method: its `borrow` and its destructor. -/
structure Arg (σ K : Type) where
  borrow : Ask σ K
  drop : Ask σ Unit

/-- A method that begins with `k.borrow()`, goes on with code of the crate, and drops `k` in the end. -/
def Arg.use {σ K α : Type} (q : Arg σ K) (f : K → R α) : Ask σ α := fun s =>
  match q.borrow s with
  | (.error e, s) => (.error e, (q.drop s).2)
  | (.ok k, s) =>
    match f k with
    | .error e => (.error e, (q.drop s).2)
    | .ok a =>
      match q.drop s with
      | (.ok (), s) => (.ok a, s)
      | (.error e, s) => (.error e, s)

/-- The methods of `trait VebTree` that take `k: Q`, src/lib.rs:91-150. -/
class AskTree (σ : Type) (T : Type) (K V : outParam Type) where
  find : T → Arg σ K → Ask σ (Option (K × V))
  findMut : T → Arg σ K → Ask σ (Option (K × V × (V → T)))
  predecessor : T → Arg σ K → Ask σ (Option (K × V))
  predecessorMut : T → Arg σ K → Ask σ (Option (K × V × (V → T)))
  successor : T → Arg σ K → Ask σ (Option (K × V))
  successorMut : T → Arg σ K → Ask σ (Option (K × V × (V → T)))
  remove : T → Arg σ K → Ask σ (Result (Option T × (K × V)) T)

/-- The implementations that begin with `k.borrow()`, go on with the borrowed key, and own `k`. -/
@[reducible] def AskTree.first (σ T : Type) {K V : Type} [VebTree T K V] : AskTree σ T K V where
  find t q := q.use (VebTree.find t)
  findMut t q := q.use (VebTree.findMut t)
  predecessor t q := q.use (VebTree.predecessor t)
  predecessorMut t q := q.use (VebTree.predecessorMut t)
  successor t q := q.use (VebTree.successor t)
  successorMut t q := q.use (VebTree.successorMut t)
  remove t q := q.use (VebTree.remove t)

section
variable {σ : Type}

/-- `ByteSet`, src/bitset/set.rs:145-217: `*k.borrow()` at :150, :161, :173, :184, :192, :200, :217. -/
instance : AskTree σ ByteSet (U 8) Unit := .first σ ByteSet
/-- `ByteMap`, src/bitset/map/mod.rs:174-258: `*k.borrow()` at :180, :190, :200, :213, :223, :233, :258; the later
`borrow`s of these methods are on the `u8` that the set answered. -/
instance {V : Type} : AskTree σ (ByteMap V) (U 8) V := .first σ (ByteMap V)
/-- The same with any list type. -/
instance {L V : Type} [ListT L V] : AskTree σ (ByteMapOf L) (U 8) V := .first σ (ByteMapOf L)
/-- `BTreeMap`, src/lib.rs:482-566: `k.borrow()` is the first line of each method. -/
instance {K V : Type} [LinearOrder K] : AskTree σ (BTreeMap K V) K V := .first σ (BTreeMap K V)
/-- `Tree`, src/tree.rs:147, :177, :206, :262, :356, :407, :569: `k.borrow()` is the first line of each method.  The
`*k.borrow()` at :183 and later are on the `&K`, whose `borrow` is the one of the standard library. -/
instance {K V S C Hi Lo T : Type} [LinearOrder K] [LinearOrder Hi] [VebKey K Hi Lo] [VebKeyRef K Hi Lo]
    [VebTree S Hi Unit] [VebTree T Lo V] [TreeCollection C Hi T Lo V] : AskTree σ (Tree K V S C) K V :=
  .first σ (Tree K V S C)

variable {T K V : Type} [AskTree σ T K V]

/-- `Box<V>`, src/lib.rs:363-420: `k` is handed on. -/
instance : AskTree σ (Box T) K V where
  /- :363-368 -/
  find t q := AskTree.find t.val q
  /- :370-375 -/
  findMut t q := (AskTree.findMut t.val q).andThen fun r => pure (r.map (mapPut Box.mk))
  /- :377-382 -/
  predecessor t q := AskTree.predecessor t.val q
  /- :384-392 -/
  predecessorMut t q := (AskTree.predecessorMut t.val q).andThen fun r => pure (r.map (mapPut Box.mk))
  /- :394-399 -/
  successor t q := AskTree.successor t.val q
  /- :401-406 -/
  successorMut t q := (AskTree.successorMut t.val q).andThen fun r => pure (r.map (mapPut Box.mk))
  /- :412-420 -/
  remove t q := (AskTree.remove t.val q).andThen fun
    | .Ok (tree, r) => pure (.Ok (tree.map Box.mk, r))
    | .Err tree => pure (.Err ⟨tree⟩)

/-- `SizedVebTree<V>`, src/lib.rs:230-300: `k` is handed on. -/
instance : AskTree σ (SizedVebTree T) K V where
  /- :230-235 -/
  find t q := AskTree.find t.tree q
  /- :237-242 -/
  findMut t q := (AskTree.findMut t.tree q).andThen fun r => pure (r.map (mapPut fun u => ⟨u, t.size⟩))
  /- :244-249 -/
  predecessor t q := AskTree.predecessor t.tree q
  /- :251-259 -/
  predecessorMut t q := (AskTree.predecessorMut t.tree q).andThen fun r => pure (r.map (mapPut fun u => ⟨u, t.size⟩))
  /- :261-266 -/
  successor t q := AskTree.successor t.tree q
  /- :268-273 -/
  successorMut t q := (AskTree.successorMut t.tree q).andThen fun r => pure (r.map (mapPut fun u => ⟨u, t.size⟩))
  /- :283-300 -/
  remove t q := (AskTree.remove t.tree q).andThen fun
    | .Ok (some tree, r) => do
      let size ← expect "last item didn't remove tree" (SizedVebTree.nonZero (← subUsize t.size 1))
      pure (.Ok (some ⟨tree, size⟩, r))
    | .Ok (none, v) => pure (.Ok (none, v))
    | .Err tree => pure (.Err ⟨tree, t.size⟩)

end

/-- The methods of `trait TreeCollection` that take `h: Q`, src/collection/mod.rs:92-105. -/
class AskColl (σ : Type) (C : Type) (Hi T Lo V : outParam Type) where
  removeKey : C → Arg σ Hi → (T → R (Option T × (Lo × V))) → Ask σ (Option (C × Bool) × (Lo × V))
  maybeRemoveKey : C → Arg σ Hi → (T → R (Result (Option T × (Lo × V)) T)) →
    Ask σ (Result (Option (C × Bool) × (Lo × V)) C)

/-- The implementations that begin with `h.borrow()`. -/
@[reducible] def AskColl.first (σ C : Type) {Hi T Lo V : Type} [TreeCollection C Hi T Lo V] : AskColl σ C Hi T Lo V where
  removeKey c q r := q.use fun h => TreeCollection.removeKey c h r
  maybeRemoveKey c q r := q.use fun h => TreeCollection.maybeRemoveKey c h r

section
variable {σ Hi T Lo V : Type}

/-- `ByteMap` as a collection, src/bitset/map/mod.rs:75, :97. -/
instance [VebTree T Lo V] : AskColl σ (ByteMap T) (U 8) T Lo V := .first σ (ByteMap T)
/-- `ArrayCollection`, src/collection/array.rs:144, :174. -/
instance [SizedVebKey Hi] [VebTree T Lo V] : AskColl σ (ArrayColl Hi T) Hi T Lo V := .first σ (ArrayColl Hi T)
/-- `HashMap`, src/collection/hash.rs:75, :103; `raw_entry_mut` before it only makes a builder. -/
instance [LinearOrder Hi] [VebTree T Lo V] : AskColl σ (HashMap Hi T) Hi T Lo V := .first σ (HashMap Hi T)

/-- `Box<T>`, src/collection/mod.rs:133-154: `h` is handed on. -/
instance {C : Type} [AskColl σ C Hi T Lo V] : AskColl σ (Box C) Hi T Lo V where
  /- :133-140 -/
  removeKey c q r := (AskColl.removeKey c.val q r).andThen fun (t, v) => pure (t.map (fun (t, b) => (⟨t⟩, b)), v)
  /- :147-154 -/
  maybeRemoveKey c q r := (AskColl.maybeRemoveKey c.val q r).andThen fun
    | .Err c => pure (.Err ⟨c⟩)
    | .Ok (t, v) => pure (.Ok (t.map (fun (t, b) => (⟨t⟩, b)), v))

end

/-- A call of a method with an unborrowed key, or a call that takes no `Q`. -/
inductive AskOp (σ K V : Type) where
  | plain (op : Op K V)
  | remove (q : Arg σ K)
  | find (q : Arg σ K)
  | predecessor (q : Arg σ K)
  | successor (q : Arg σ K)
  | findSet (q : Arg σ K) (v : V)
  | predecessorSet (q : Arg σ K) (v : V)
  | successorSet (q : Arg σ K) (v : V)

namespace AskExec
variable {σ T K V : Type}

/-- A call through a reference: the tree is still there when it panics, and the method has not changed it. -/
def byRef {α : Type} (t : T) (f : α → Option T × Out K V) : R α × σ → (Option T × R (Out K V)) × σ
  | (.ok a, s) => (((f a).1, .ok (f a).2), s)
  | (.error e, s) => ((some t, .error e), s)

/-- A call that takes the tree: it is dropped when the call panics. -/
def byValue : R (Result (Option T × (K × V)) T) × σ → (Option T × R (Out K V)) × σ
  | (.ok (.Ok r), s) => (((Exec.removed r).1, .ok (Exec.removed r).2), s)
  | (.ok (.Err t), s) => ((some t, .ok (.kv none)), s)
  | (.error e, s) => ((none, .error e), s)

variable [VebTree T K V] [AskTree σ T K V]

/-- One call by a program that catches panics and goes on: what is left of the tree, what the call answered, and the state
of the user.  Without a tree nothing is asked.  A call that takes no `Q` is the one of `Exec.step`; should it panic, the
program gives the tree up. -/
def step (t : Option T) (op : AskOp σ K V) (s : σ) : (Option T × R (Out K V)) × σ :=
  match op, t with
  | .plain op, t =>
    match Exec.step t op with
    | .ok (t, o) => ((t, .ok o), s)
    | .error e => ((none, .error e), s)
  | .remove q, some t => byValue (AskTree.remove t q s)
  | .find q, some t => byRef t (fun r => (some t, .kv r)) (AskTree.find t q s)
  | .predecessor q, some t => byRef t (fun r => (some t, .kv r)) (AskTree.predecessor t q s)
  | .successor q, some t => byRef t (fun r => (some t, .kv r)) (AskTree.successor t q s)
  | .findSet q w, some t => byRef t (Exec.writeOpt t w) (AskTree.findMut t q s)
  | .predecessorSet q w, some t => byRef t (Exec.writeOpt t w) (AskTree.predecessorMut t q s)
  | .successorSet q w, some t => byRef t (Exec.writeOpt t w) (AskTree.successorMut t q s)
  | _, none => ((none, .ok (.kv none)), s)

/-- A whole history. -/
def run (t : Option T) (s : σ) : List (AskOp σ K V) → (Option T × List (R (Out K V))) × σ
  | [] => ((t, []), s)
  | op :: ops =>
    let r := step t op s
    let r' := run r.1.1 r.2 ops
    ((r'.1.1, r.1.2 :: r'.1.2), r'.2)

end AskExec
end Veb
