import Verif.SpecLook

/-!
# Vocabulary for saving what a damaged tree holds
-/

set_option autoImplicit false

namespace Veb
variable {K V : Type} [LinearOrder K]

/-- Popping the minimum until no tree is left gives `es`, in this order. -/
def DrainsTo {T : Type} [VebTree T K V] (t : T) (es : List (K × V)) : Prop :=
  Exec.run (some t) (List.replicate es.length .removeMin) = .ok (none, es.map fun e => .kv (some e))

/-- `ks` are the keys of `es`, each once, in ascending order. -/
def SortedKeys (es : List (K × V)) (ks : List K) : Prop :=
  ks.Pairwise (· < ·) ∧ ∀ k, k ∈ ks ↔ ∃ v, (k, v) ∈ es

/-- What a tree answers when it is asked for each of these keys. -/
def lookUp {T : Type} [VebTree T K V] (t : T) : List K → R (List (Option (K × V)))
  | [] => pure []
  | k :: ks => do
    let e ← VebTree.find t k
    pure (e :: (← lookUp t ks))

end Veb
