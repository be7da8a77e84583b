import Verif.SpecLook
import Verif.SpecIter

/-!
# Vocabulary for the damage that the counter of a tree shows
-/

set_option autoImplicit false

namespace Veb
variable {T K V : Type} [LinearOrder K] [VebTree T K V]

/-- The entries of a counted tree can be counted: an iterator answers `next` with an entry as often as `len` says. -/
def CountsUp (t : SizedVebTree T) : Prop :=
  ∃ (it : Iter (SizedVebTree T) K) (os : List (Option (K × V))),
    (Iter.new t).calls (List.replicate t.len .front) = .ok (it, os) ∧ none ∉ os

end Veb
