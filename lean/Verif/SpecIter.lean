import Verif.Spec
import Verif.Model.Iter

/-!
# Vocabulary for the iterator properties
-/

set_option autoImplicit false

namespace Veb

/-- The two ways of advancing an iterator: `next` and `next_back`. -/
inductive Side where
  | front
  | back
  deriving DecidableEq, Repr

/-- Popping one end of a list. -/
def Side.pop {α : Type} : Side → List α → List α × Option α
  | .front, l => (l.tail, l.head?)
  | .back, l => (l.dropLast, l.getLast?)

/-- Popping a list from both ends: what is left, and what was popped. -/
def popAll {α : Type} (l : List α) : List Side → List α × List (Option α)
  | [] => (l, [])
  | s :: ss =>
    let (l, o) := s.pop l
    let (l, os) := popAll l ss
    (l, o :: os)

/-- `t` answers the queries an iterator makes as a tree with the entries `l` should: the part of the
`VebTree` contract that `Iter` relies on. -/
structure Answers {T K V : Type} [LinearOrder K] [VebTree T K V] (t : T) (l : SL K V) : Prop where
  sorted : SL.Sorted l
  min : ∃ e, VebTree.minVal t = .ok e ∧ l.head? = some e
  max : ∃ e, VebTree.maxVal t = .ok e ∧ l.getLast? = some e
  succ : ∀ k, VebTree.successor t k = .ok (SL.succ l k)
  pred : ∀ k, VebTree.predecessor t k = .ok (SL.pred l k)
  len : ∃ lo hi, VebTree.lenHint t = .ok (lo, hi) ∧ lo ≤ l.length ∧ ∀ n, hi = some n → l.length ≤ n

namespace Iter
variable {T K V : Type} [LinearOrder K] [VebTree T K V]

/-- One call of `next` or `next_back`. -/
def call (it : Iter T K) : Side → R (Iter T K × Option (K × V))
  | .front => it.next
  | .back => it.nextBack

/-- A sequence of calls: the iterator afterwards and the items returned. -/
def calls (it : Iter T K) : List Side → R (Iter T K × List (Option (K × V)))
  | [] => pure (it, [])
  | s :: ss => do
    let (it, o) ← it.call s
    let (it, os) ← it.calls ss
    pure (it, o :: os)

end Iter
end Veb
