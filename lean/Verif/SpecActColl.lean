import Verif.SpecSound
import Verif.Model.ActCollExec
import Verif.Model.CollExec

/-!
# Vocabulary for comparing histories of collections, with and without a state
-/

set_option autoImplicit false

namespace Veb
variable {σ Hi T Lo V : Type}

/-- The same call, where the code that the caller passes does the same, or panics as in `Us`. -/
inductive ACOp.Like (Us : Panic → Prop) : ACOp σ Hi T Lo V → COp Hi T Lo V → Prop
  | create (h : Hi) (t : T) : Like Us (.create h t) (.create h t)
  | get (h : Hi) : Like Us (.get h) (.get h)
  | set (h : Hi) (u : T) : Like Us (.set h u) (.set h u)
  | insert (h : Hi) (l : Lo) (v : V) : Like Us (.insert h l v) (.insert h l v)
  | remove (h : Hi) {r : T → Act σ (Option T × (Lo × V))} {r' : T → R (Option T × (Lo × V))}
      (hr : ∀ t, OutcomeOr Us (r t) (r' t)) : Like Us (.remove h r) (.remove h r')
  | maybeRemove (h : Hi) {r : T → Act σ (Result (Option T × (Lo × V)) T)} {r' : T → R (Result (Option T × (Lo × V)) T)}
      (hr : ∀ t, OutcomeOr Us (r t) (r' t)) : Like Us (.maybeRemove h r) (.maybeRemove h r')

end Veb
