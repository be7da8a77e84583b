import Verif.SpecPanic

/-!
What the insertions of keys in descending order make of a tree (C96).
-/

set_option autoImplicit false

namespace Veb
variable {K V : Type}

/-- The history that inserts the entries `es` from the last to the first. -/
def descending (es : SL K V) : List (Op K V) := es.reverse.map fun e => .insert e.1 e.2

/-- `t` takes `b` for its greatest entry: that is what it answers, hands out for writing, starts from in descending
order, and removes. -/
structure TakesForMax {T : Type} [LinearOrder K] [VebTree T K V] (t : T) (b : K × V) : Prop where
  maxVal : VebTree.maxVal t = .ok b
  maxValMut : ∃ put, VebTree.maxValMut t = .ok (b.1, b.2, put)
  predecessor : ∀ k, b.1 < k → VebTree.predecessor t k = .ok (some b)
  removeMax : ∀ r, VebTree.removeMax t = .ok r → r.2 = b

/-- In the type `T` descending insertions of two or more entries leave the second least for the greatest. -/
def TopLost (T : Type) [LinearOrder K] [VebTree T K V] : Prop :=
  ∀ (a b : K × V) (rest : SL K V), SL.Sorted (a :: b :: rest) →
    ∀ t : T, Reaches (descending (a :: b :: rest)) t → VebTree.minVal t = .ok a ∧ TakesForMax t b

/-- In the type `T` descending insertions of three or more entries turn `predecessor` around: before the second least
key it answers a greater one. -/
def TurnsBack (T : Type) [LinearOrder K] [VebTree T K V] : Prop :=
  ∀ (a b : K × V) (rest : SL K V), SL.Sorted (a :: b :: rest) → rest ≠ [] → (a :: b :: rest).length ≤ usizeMax →
    ∀ t : T, Reaches (descending (a :: b :: rest)) t → ∃ m ∈ rest, VebTree.predecessor t b.1 = .ok (some m)

/-- In the type `T` descending insertions of three or more entries make `successor` skip the second entry, and find
nothing from there on. -/
def EndsEarly (T : Type) [LinearOrder K] [VebTree T K V] : Prop :=
  ∀ (a b c : K × V) (rest : SL K V), SL.Sorted (a :: b :: c :: rest) → (a :: b :: c :: rest).length ≤ usizeMax →
    ∀ t : T, Reaches (descending (a :: b :: c :: rest)) t →
      VebTree.successor t a.1 = .ok (some c) ∧ ∀ k, b.1 ≤ k → VebTree.successor t k = .ok none

/-- In the type `T`, after descending insertions of two or more entries, removing the least entry until nothing is left
takes the second entry out last, and removing the greatest takes it out first. -/
def DrainsAskew (T : Type) [LinearOrder K] [VebTree T K V] : Prop :=
  ∀ (a b : K × V) (rest : SL K V), SL.Sorted (a :: b :: rest) → (a :: b :: rest).length ≤ usizeMax →
    ∀ t : T, Reaches (descending (a :: b :: rest)) t →
      (∃ es : SL K V, es.Perm rest ∧ Exec.run (some t) (List.replicate (es.length + 2) .removeMin) =
        .ok (none, (a :: es ++ [b]).map fun e => .kv (some e))) ∧
      ∃ es : SL K V, es.Perm rest ∧ Exec.run (some t) (List.replicate (es.length + 2) .removeMax) =
        .ok (none, (b :: es ++ [a]).map fun e => .kv (some e))

/-- `b`, `m`, `b`, `m`, … -/
def alternating {α : Type} (b m : α) (i : Nat) : α := if i % 2 = 0 then b else m

end Veb
