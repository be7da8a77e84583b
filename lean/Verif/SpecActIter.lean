import Verif.SpecIterCost
import Verif.SpecAudit
import Verif.SpecLogged
import Verif.Model.ActIter

/-!
# Vocabulary for iterators over code of the user
-/

set_option autoImplicit false

namespace Veb

namespace Iter
variable {σ T K V : Type} [ActTree σ T K V] [ActIterKey σ K]

/-- The `match` of `next` or of `next_back`. -/
def matchA (it : Iter T K) : Side → Act σ (Option (IterData K × (K × V)))
  | .front => it.frontA
  | .back => it.backA

/-- One call of `next` or `next_back`. -/
def callA (it : Iter T K) : Side → Act σ (Iter T K × Option (K × V))
  | .front => it.nextA
  | .back => it.nextBackA

/-- A sequence of calls: the iterator afterwards and the items returned. -/
def callsA (it : Iter T K) : List Side → Act σ (Iter T K × List (Option (K × V)))
  | [] => pure (it, [])
  | s :: ss => do
    let (it, o) ← it.callA s
    let (it, os) ← it.callsA ss
    pure (it, o :: os)

/-- A sequence of calls whose panics are caught, each from a state of its own: the iterator left and how the calls ended. -/
def callsUA (it : Iter T K) : List (σ × Side) → Iter T K × List (R (Option (K × V)))
  | [] => (it, [])
  | (s, si) :: es =>
    let (it, o) := it.caughtA (it.matchA si) s
    let (it, os) := it.callsUA es
    (it, o.map Prod.fst :: os)
end Iter

/-- Equality and cloning answer as they should. -/
structure HonestIterKey (σ K : Type) [DecidableEq K] [ActIterKey σ K] : Prop where
  eq : ∀ a b : K, AlwaysAnswers (ActIterKey.eq (σ := σ) a b) (decide (a = b))
  clone : ∀ a : K, AlwaysAnswers (ActIterKey.clone (σ := σ) a) a

/-- Equality and cloning answer as they should, if they answer. -/
structure SoundIterKey (σ : Type) (Us : Panic → Prop) (K : Type) [DecidableEq K] [ActIterKey σ K] : Prop where
  eq : ∀ a b : K, AnswersOr Us (ActIterKey.eq (σ := σ) a b) (decide (a = b))
  clone : ∀ a : K, AnswersOr Us (ActIterKey.clone (σ := σ) a) a

/-- Equality writes a log, cloning does not. -/
instance loggingIterKey {K : Type} [DecidableEq K] : ActIterKey (List Ev) K where
  eq a b := logs .cmp (decide (a = b))
  clone a := silently a

/-- The panics of equality and cloning. -/
structure IterKeyPanics (σ K : Type) [ActIterKey σ K] (Us : Panic → Prop) : Prop where
  eq : ∀ a b : K, Only Us (ActIterKey.eq (σ := σ) a b)
  clone : ∀ a : K, Only Us (ActIterKey.clone (σ := σ) a)

end Veb
