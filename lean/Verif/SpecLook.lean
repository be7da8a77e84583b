import Verif.SpecLedger

/-!
# Vocabulary for histories without removals
-/

set_option autoImplicit false

namespace Veb
variable {K V : Type}

/-- Calls that do not take entries out of a tree and do not write through the result of a neighbour or maximum
search. -/
def Op.keeps : Op K V → Bool
  | .insert _ _ | .find _ | .findSet _ _ | .minVal | .minSet _ | .isMonad | .intoMonad => true
  | .predecessor _ | .successor _ | .maxVal => true
  | _ => false

/-- The calls whose answers do not depend on the order of the inner keys. -/
def Op.pointwise : Op K V → Bool
  | .find _ | .findSet _ _ | .minVal | .minSet _ | .isMonad | .intoMonad => true
  | _ => false

/-- The answers `os` to the calls `ops` agree with `os'` wherever `p` holds of the call. -/
def AgreeOn (p : Op K V → Bool) (ops : List (Op K V)) (os os' : List (Out K V)) : Prop :=
  os.length = ops.length ∧ os'.length = ops.length ∧
    ∀ (i : Nat) (op : Op K V), ops[i]? = some op → p op = true → os[i]? = os'[i]?

end Veb
