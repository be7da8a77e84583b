import Verif.Model.Trait
import Verif.SpecColl

/-!
Running a history of `TreeCollection` calls.  A collection is never empty, so the history runs on an `Option`:
`create` makes a new collection, removals may leave none.
-/

set_option autoImplicit false

namespace Veb.CollExec
variable {C Hi T Lo V : Type} [TreeCollection C Hi T Lo V]

/-- What a successful removal leaves, and what the caller learns. -/
def removed : Option (C × Bool) × (Lo × V) → Option C × COut Hi T Lo V
  | (none, val) => (none, .removed val none)
  | (some (c, b), val) => (some c, .removed val (some b))

/-- One call on a collection. -/
def stepColl (c : C) : COp Hi T Lo V → R (Option C × COut Hi T Lo V)
  | .create h t => do pure (some (← TreeCollection.create h t), .done)
  | .get h => do pure (some c, .tree (← TreeCollection.get c h))
  | .set h u => do
    match (← TreeCollection.getMut c h) with
    | none => pure (some c, .tree none)
    | some (t, put) => pure (some (put u), .tree (some t))
  | .insert h l v => do
    let (c, r) ← TreeCollection.insertKey c h (l, v)
    pure (some c, .inserted r)
  | .remove h r => do pure (removed (← TreeCollection.removeKey c h r))
  | .maybeRemove h r => do
    match (← TreeCollection.maybeRemoveKey c h r) with
    | .Ok r => pure (removed r)
    | .Err c => pure (some c, .kept)

/-- One call on an optional collection. -/
def step (c : Option C) (op : COp Hi T Lo V) : R (Option C × COut Hi T Lo V) :=
  match c with
  | some c => stepColl c op
  | none =>
    match op with
    | .create h t => do pure (some (← TreeCollection.create h t), .done)
    | _ => pure (none, .gone)

/-- A whole history. -/
def run (c : Option C) : List (COp Hi T Lo V) → R (Option C × List (COut Hi T Lo V))
  | [] => pure (c, [])
  | op :: ops => do
    let (c, o) ← step c op
    let (c, os) ← run c ops
    pure (c, o :: os)

end Veb.CollExec
