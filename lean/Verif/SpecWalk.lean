import Verif.SpecOrder
import Verif.SpecSame

/-!
Where iteration ends after insertions in any order (C98).
-/

set_option autoImplicit false

namespace Veb
variable {K V : Type} [LinearOrder K]

/-- The entries of `l` up to the first whose key is not below that of `m`; `m` itself if there is none. -/
def upTo (m : K × V) : List (K × V) → List (K × V)
  | [] => [m]
  | x :: l => if x.1 < m.1 then x :: upTo m l else [x]

/-- The entries of `l` other than those with the keys of `a` and `m`. -/
def others (a m : K × V) (l : List (K × V)) : List (K × V) := l.filter fun e => decide (e.1 ≠ a.1 ∧ e.1 ≠ m.1)

/-- `n` calls of `next` of an iterator over `l`. -/
def firstItems {α : Type} (l : List α) (n : Nat) : List (Option α) := (List.range n).map fun i => l[i]?

end Veb
