import Verif.Model.ActCollLeft

/-!
Histories of a collection over code of the user that has a state; the code that a caller of `remove_key` passes can have
one too.
-/

set_option autoImplicit false

namespace Veb

/-! ## Histories of a collection -/

namespace ActCollExec
variable {σ C Hi T Lo V : Type} [ActColl σ C Hi T Lo V]

/-- One call on a collection. -/
def stepColl (c : C) : ACOp σ Hi T Lo V → Act σ (Option C × COut Hi T Lo V)
  | .create h t => do pure (some (← ActColl.create h t), .done)
  | .get h => do pure (some c, .tree (← ActColl.get c h))
  | .set h u => do
    match (← ActColl.getMut c h) with
    | none => pure (some c, .tree none)
    | some (t, put) => pure (some (put u), .tree (some t))
  | .insert h l v => do
    let (c, r) ← ActColl.insertKey c h (l, v)
    pure (some c, .inserted r)
  | .remove h r => do pure (removed (← ActColl.removeKey c h r))
  | .maybeRemove h r => do
    match (← ActColl.maybeRemoveKey c h r) with
    | .Ok r => pure (removed r)
    | .Err c => pure (some c, .kept)

/-- One call on an optional collection. -/
def step (c : Option C) (op : ACOp σ Hi T Lo V) : Act σ (Option C × COut Hi T Lo V) :=
  match c, op with
  | some c, op => stepColl c op
  | none, .create h t => do pure (some (← ActColl.create h t), .done)
  | none, _ => pure (none, .gone)

/-- A history of calls. -/
def run (c : Option C) : List (ACOp σ Hi T Lo V) → Act σ (Option C × List (COut Hi T Lo V))
  | [] => pure (c, [])
  | op :: ops => do
    let (c, o) ← step c op
    let (c, os) ← run c ops
    pure (c, o :: os)

end ActCollExec
end Veb
