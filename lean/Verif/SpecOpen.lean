import Verif.SpecSame
import Verif.SpecColl
import Verif.SpecTree
import Verif.Model.CollExec

/-!
# Vocabulary for trees put together from parts that the crate does not know

`Tree` is generic in the summary, the collection and the trees in the collection; a user may implement the traits
`VebTree` and `TreeCollection` for types of their own.
-/

set_option autoImplicit false

namespace Veb

/-- Two tree types that nobody can tell apart by calling the methods of `VebTree` (other than `len_hint`): on every
history, starting from no tree, both panic or the outputs are equal.  Nothing is said about their representation. -/
def AnswerAlike (T T' : Type) {K V : Type} [VebTree T K V] [VebTree T' K V] : Prop :=
  ∀ ops : List (Op K V), Agree (fun os os' => os' = os) (outputs T ops) (outputs T' ops)

/-- The outputs of a history of collection calls, starting from no collection. -/
def collOutputs (C : Type) {Hi T Lo V : Type} [TreeCollection C Hi T Lo V] (ops : List (COp Hi T Lo V)) :
    R (List (COut Hi T Lo V)) :=
  (CollExec.run (none : Option C) ops).map Prod.snd

/-- A collection type that answers, as long as anybody calls its methods, as the partial map of `SpecColl` does; it
panics where that does (with whatever message). -/
def AnswersAsColl (C : Type) {Hi T Lo V : Type} [VebTree T Lo V] [TreeCollection C Hi T Lo V] : Prop :=
  ∀ ops : List (COp Hi T Lo V), Agree (fun os os' => os' = os) (collOutputs C ops)
    ((CollSpec.run .debugAssert Map.empty ops).map Prod.snd)

end Veb
