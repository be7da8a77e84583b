import Verif.SpecWalk
import Mathlib.Data.List.Permutation
import Mathlib.Data.Nat.Factorial.Basic

/-!
How many orders of insertion leave a tree that knows its greatest entry (C99).
-/

set_option autoImplicit false

namespace Veb
variable {K V : Type}

/-- Inserting the entries in the order `l` leaves a tree of the type `T`, and `max_val` of it answers `z`. -/
def AnswersTop (T : Type) [VebTree T K V] (z : K × V) (l : List (K × V)) : Prop :=
  ∃ t : T, Reaches (inserting l) t ∧ VebTree.maxVal t = .ok z

/-- `a` comes before `z`. -/
def Before {α : Type} (a z : α) (l : List α) : Prop := ∃ p m q, l = p ++ a :: (m ++ z :: q)

open Classical in
/-- The number of orders of the entries `s` of which `P` holds. -/
noncomputable def orders {α : Type} (s : List α) (P : List α → Prop) : Nat := s.permutations.countP fun l => decide (P l)

/-- After inserting the entries in the order `l`, any number of calls of `next` of `iter()` give all of them, by ascending
keys, and then nothing. -/
def ListsAll (T : Type) [LinearOrder K] [VebTree T K V] (l : List (K × V)) : Prop :=
  ∀ n, itemsAfter T (inserting l) (List.replicate n .front) = .ok (firstItems (entries (inserting l)) n)

/-- The same for `iter().rev()`: all of them, by descending keys, and then nothing. -/
def ListsBack (T : Type) [LinearOrder K] [VebTree T K V] (l : List (K × V)) : Prop :=
  ∀ n, itemsAfter T (inserting l) (List.replicate n .back) = .ok (firstItems (entries (inserting l)).reverse n)

/-- Of the `n!` orders of any `n` entries with different keys, two or more, `n! / 2 + (n - 2)!` leave a tree of the type `T`
that knows its greatest entry. -/
def RightOrders (T K V : Type) [LinearOrder K] [VebTree T K V] : Prop :=
  ∀ (a z : K × V) (r : List (K × V)), DistinctKeys (a :: z :: r) → (∀ x ∈ z :: r, a.1 < x.1) → (∀ x ∈ a :: r, x.1 ≤ z.1) →
    r.length + 2 ≤ usizeMax →
    2 * orders (a :: z :: r) (AnswersTop T z) = (r.length + 2).factorial + 2 * r.length.factorial

end Veb
