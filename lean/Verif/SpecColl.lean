import Verif.Spec
import Verif.Model.Trait

/-!
# Specification of a tree collection

A non-empty collection of trees indexed by `Hi` is a partial map from `Hi` to trees.  The specification says for
every call how the map changes and what the caller learns.  It never looks into the trees: it only calls
`from_monad` and `insert` of the tree type (as `insert_key` is documented to) and the closures it is given, and if
one of these panics the call panics.
-/

set_option autoImplicit false

namespace Veb

/-- Calls of the `TreeCollection` API.  `set h u` is `get_mut(h)` followed by writing `u` through the reference. -/
inductive COp (Hi T Lo V : Type) where
  | create (h : Hi) (t : T)
  | get (h : Hi)
  | set (h : Hi) (u : T)
  | insert (h : Hi) (l : Lo) (v : V)
  | remove (h : Hi) (r : T → R (Option T × (Lo × V)))
  | maybeRemove (h : Hi) (r : T → R (Result (Option T × (Lo × V)) T))

/-- What the caller learns. -/
inductive COut (Hi T Lo V : Type) where
  | done
  /-- the tree at the key, before a write -/
  | tree (t : Option T)
  /-- `Ok(h)`: a new tree was made; `Err((h, o))`: inserted into the tree there, which returned `o` -/
  | inserted (r : Result Hi (Hi × Option (Lo × V)))
  /-- a removal: `left = none` if the collection is gone, otherwise whether the subtree was -/
  | removed (val : Lo × V) (left : Option Bool)
  /-- nothing was removed -/
  | kept
  /-- there is no collection to call -/
  | gone
  deriving DecidableEq

namespace CollSpec
open Classical
variable {Hi T Lo V : Type} [VebTree T Lo V]

/-- `M` with the tree at `h` replaced by `o` (`none`: taken out). -/
noncomputable def put (M : Map Hi T) (h : Hi) (o : Option T) : Map Hi T := fun j => if j = h then o else M j

/-- What is reported after the tree at some key became `o` and the map `M`. -/
noncomputable def left (M : Map Hi T) (o : Option T) : Option Bool :=
  if M = Map.empty then none else some o.isNone

/-- One specified call on a map that is not empty.  `absent` is the panic of `remove_key` for a missing key. -/
noncomputable def stepMap (absent : Panic) (M : Map Hi T) :
    COp Hi T Lo V → R (Map Hi T × COut Hi T Lo V)
  | .create h t => .ok (put Map.empty h (some t), .done)
  | .get h => .ok (M, .tree (M h))
  | .set h u =>
    match M h with
    | none => .ok (M, .tree none)
    | some t => .ok (put M h (some u), .tree (some t))
  | .insert h l v =>
    match M h with
    | none => .ok (put M h (some (VebTree.fromMonad l v)), .inserted (.Ok h))
    | some t =>
      match VebTree.insert t l v with
      | .error e => .error e
      | .ok (t', o) => .ok (put M h (some t'), .inserted (.Err (h, o)))
  | .remove h r =>
    match M h with
    | none => .error absent
    | some t =>
      match r t with
      | .error e => .error e
      | .ok (o, val) => .ok (put M h o, .removed val (left (put M h o) o))
  | .maybeRemove h r =>
    match M h with
    | none => .ok (M, .kept)
    | some t =>
      match r t with
      | .error e => .error e
      | .ok (.Err t') => .ok (put M h (some t'), .kept)
      | .ok (.Ok (o, val)) => .ok (put M h o, .removed val (left (put M h o) o))

/-- One specified call; with an empty map there is no collection. -/
noncomputable def step (absent : Panic) (M : Map Hi T) (op : COp Hi T Lo V) : R (Map Hi T × COut Hi T Lo V) :=
  if M = Map.empty then
    match op with
    | .create h t => .ok (put Map.empty h (some t), .done)
    | _ => .ok (M, .gone)
  else stepMap absent M op

/-- The specified map and outputs of a history. -/
noncomputable def run (absent : Panic) (M : Map Hi T) :
    List (COp Hi T Lo V) → R (Map Hi T × List (COut Hi T Lo V))
  | [] => .ok (M, [])
  | op :: ops =>
    match step absent M op with
    | .error e => .error e
    | .ok (M, o) =>
      match run absent M ops with
      | .error e => .error e
      | .ok (M, os) => .ok (M, o :: os)

end CollSpec
end Veb
