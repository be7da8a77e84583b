import Verif.SpecKeys
import Verif.Model.ActCollLeft

/-!
# Vocabulary for collections whose code has a state
-/

set_option autoImplicit false

namespace Veb
variable {σ Hi T Lo V : Type}

/-- A call, with nothing said of what the code does that the caller passes. -/
def ACOp.shape : ACOp σ Hi T Lo V → COp Hi T Lo V
  | .create h t => .create h t
  | .get h => .get h
  | .set h u => .set h u
  | .insert h l v => .insert h l v
  | .remove h _ => .remove h fun _ => .error .unreachable
  | .maybeRemove h _ => .maybeRemove h fun _ => .error .unreachable

end Veb
