import Verif.SpecIter
import Verif.Model.IterLoop

/-!
# Vocabulary for loops over an iterator
-/

set_option autoImplicit false

namespace Veb

/-- Whatever sequence of `next` and `next_back` is called on `it`, it gives what popping `rem` at the two ends gives. -/
def Yields {T K V : Type} [LinearOrder K] [VebTree T K V] (it : Iter T K) (rem : List (K × V)) : Prop :=
  ∀ ss : List Side, ∃ it', it.calls ss = .ok (it', (popAll rem ss).2)

/-- A left fold that can be broken off, over a list: what is left of the list, and the result. -/
def foldUntil {A B C : Type} (f : B → A → R (B ⊕ C)) : B → List A → R (List A × (B ⊕ C))
  | b, [] => pure ([], .inl b)
  | b, a :: l => do
    match (← f b a) with
    | .inl b => foldUntil f b l
    | .inr c => pure (l, .inr c)

/-- Entries in the order in which this end yields them, and back. -/
def Side.order {α : Type} : Side → List α → List α
  | .front, l => l
  | .back, l => l.reverse

end Veb
