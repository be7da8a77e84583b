import Verif.SpecPanic

/-!
What the order of insertions makes of a tree (C97).
-/

set_option autoImplicit false

namespace Veb
variable {K V : Type}

/-- The history that inserts the entries `es` from the first to the last. -/
def inserting (es : List (K × V)) : List (Op K V) := es.map fun e => .insert e.1 e.2

/-- No key twice. -/
def DistinctKeys (es : List (K × V)) : Prop := es.Pairwise fun x y => x.1 ≠ y.1

/-- `e` is the entry of `es` with the least key. -/
def LeastOf [LinearOrder K] (e : K × V) (es : List (K × V)) : Prop := e ∈ es ∧ ∀ x ∈ es, e.1 ≤ x.1

/-- What a tree takes for its greatest entry when `p` was inserted before the least entry and `q` after it: the greatest
of the entries of `q` and the *least* of `p`. -/
def TopOf [LinearOrder K] (p q : List (K × V)) (m : K × V) : Prop :=
  (m ∈ q ∨ LeastOf m p) ∧ ∀ x, x ∈ q ∨ LeastOf x p → x.1 ≤ m.1

/-- In the type `T`, after insertions of two or more entries with different keys, in any order, the least entry is known
and `TopOf` is taken for the greatest. -/
def TopByOrder (T : Type) [LinearOrder K] [VebTree T K V] : Prop :=
  ∀ (p q : List (K × V)) (a : K × V), DistinctKeys (p ++ a :: q) → (∀ x ∈ p ++ q, a.1 < x.1) → p ++ q ≠ [] →
    ∀ t : T, Reaches (inserting (p ++ a :: q)) t →
      VebTree.minVal t = .ok a ∧ ∃ m, TopOf p q m ∧ VebTree.maxVal t = .ok m

end Veb
