import Verif.Model.Trait
import Verif.Spec

/-!
Running a history of API calls on an optional tree.  A `VebTree` is never empty, so users keep an
`Option` of a tree; this is the wrapper of benches/random/main.rs (`impl VEBOperations for Option<U32Tree>`)
extended to every method of the trait.
-/

namespace Veb.Exec
variable {T K V : Type} [VebTree T K V]

/-- A `…_mut` call followed by a write of `w` through the returned reference. -/
def writeOpt (t : T) (w : V) : Option (K × V × (V → T)) → Option T × Out K V
  | none => (some t, .kv none)
  | some (k, v, put) => (some (put w), .kv (some (k, v)))

/-- The part of a removal the caller keeps. -/
def removed : Option T × (K × V) → Option T × Out K V
  | (t, kv) => (t, .kv (some kv))

/-- One call on a tree. -/
def stepTree (t : T) : Op K V → R (Option T × Out K V)
  | .insert k v => do
    let (t, o) ← VebTree.insert t k v
    pure (some t, .kv o)
  | .remove k => do
    match (← VebTree.remove t k) with
    | .Ok r => pure (removed r)
    | .Err t => pure (some t, .kv none)
  | .removeMin => do pure (removed (← VebTree.removeMin t))
  | .removeMax => do pure (removed (← VebTree.removeMax t))
  | .find k => do pure (some t, .kv (← VebTree.find t k))
  | .predecessor k => do pure (some t, .kv (← VebTree.predecessor t k))
  | .successor k => do pure (some t, .kv (← VebTree.successor t k))
  | .minVal => do pure (some t, .kv (some (← VebTree.minVal t)))
  | .maxVal => do pure (some t, .kv (some (← VebTree.maxVal t)))
  | .isMonad => do pure (some t, .bool (← VebTree.isMonad t))
  | .intoMonad => do
    match (← VebTree.intoMonad t) with
    | .Ok kv => pure (none, .kv (some kv))
    | .Err t => pure (some t, .kv none)
  | .findSet k w => do pure (writeOpt t w (← VebTree.findMut t k))
  | .predecessorSet k w => do pure (writeOpt t w (← VebTree.predecessorMut t k))
  | .successorSet k w => do pure (writeOpt t w (← VebTree.successorMut t k))
  | .minSet w => do pure (writeOpt t w (some (← VebTree.minValMut t)))
  | .maxSet w => do pure (writeOpt t w (some (← VebTree.maxValMut t)))

/-- One call on an optional tree: inserting into `None` is `from_monad`, everything else finds nothing. -/
def step (t : Option T) (op : Op K V) : R (Option T × Out K V) :=
  match t with
  | some t => stepTree t op
  | none =>
    match op with
    | .insert k v => pure (some (VebTree.fromMonad k v), .kv none)
    | .isMonad => pure (none, .bool false)
    | _ => pure (none, .kv none)

/-- A whole history: final tree and the outputs, or the panic. -/
def run (t : Option T) : List (Op K V) → R (Option T × List (Out K V))
  | [] => pure (t, [])
  | op :: ops => do
    let (t, o) ← step t op
    let (t, os) ← run t ops
    pure (t, o :: os)

end Veb.Exec
