import Verif.SpecSame
import Verif.SpecLook
import Verif.SpecColl

/-!
# Vocabulary for what is true of the keys whatever becomes of the values
-/

set_option autoImplicit false

namespace Veb
variable {K V : Type}

/-- a call with its value forgotten -/
def Op.keys : Op K V → Op K Unit := Op.rename id fun _ => ()
/-- an answer with its value forgotten -/
def Out.keys : Out K V → Out K Unit := Out.rename id fun _ => ()
/-- every call but `is_monad` -/
def Op.notIsMonad : Op K V → Bool
  | .isMonad => false
  | _ => true

/-! ## The book a caller of a collection can keep

`S` is the set of keys that are occupied according to the answers so far; `none` if there is no collection. -/

namespace Book
variable {Hi T Lo V : Type}

/-- The answer `o` to the call `op` is in keeping with the book. -/
def fits (S : Option (Hi → Prop)) : COp Hi T Lo V → COut Hi T Lo V → Prop
  | .create _ _, .done => True
  | .create _ _, _ => False
  | _, .gone => S = none
  | .get h, .tree t => ∃ s, S = some s ∧ (t.isSome = true ↔ s h)
  | .set h _, .tree t => ∃ s, S = some s ∧ (t.isSome = true ↔ s h)
  | .insert h _ _, .inserted (.Ok h') => ∃ s, S = some s ∧ ¬ s h ∧ h' = h
  | .insert h _ _, .inserted (.Err (h', _)) => ∃ s, S = some s ∧ s h ∧ h' = h
  | .remove h _, .removed _ _ => ∃ s, S = some s ∧ s h
  | .maybeRemove h _, .removed _ _ => ∃ s, S = some s ∧ s h
  | .maybeRemove _ _, .kept => S.isSome = true
  | _, _ => False

/-- The book after this answer. -/
def after (S : Option (Hi → Prop)) : COp Hi T Lo V → COut Hi T Lo V → Option (Hi → Prop)
  | .create h _, _ => some fun j => j = h
  | .insert h _ _, .inserted (.Ok _) => S.map fun s j => j = h ∨ s j
  | .remove _ _, .removed _ none => none
  | .remove h _, .removed _ (some true) => S.map fun s j => s j ∧ j ≠ h
  | .maybeRemove _ _, .removed _ none => none
  | .maybeRemove h _, .removed _ (some true) => S.map fun s j => s j ∧ j ≠ h
  | _, _ => S

/-- All answers are in keeping with the book. -/
def Kept (S : Option (Hi → Prop)) : List (COp Hi T Lo V) → List (COut Hi T Lo V) → Prop
  | [], [] => True
  | op :: ops, o :: os => fits S op o ∧ Kept (after S op o) ops os
  | _, _ => False

end Book
end Veb
