import Verif.SpecCap
import Mathlib.Data.Multiset.AddSub

/-!
# Book-keeping over histories

What a caller can conclude about the stored keys from the calls made and the answers received.
-/

set_option autoImplicit false

namespace Veb
variable {K V : Type} [DecidableEq K]

/-- The keys accounted for after one call: an insertion adds its key, and takes away the key it reports to have
replaced; a removal takes away the key it reports. -/
def ledgerStep (m : Multiset K) : Op K V → Out K V → Multiset K
  | .insert k _, .kv none => k ::ₘ m
  | .insert k _, .kv (some e) => k ::ₘ m.erase e.1
  | .remove _, .kv (some e) => m.erase e.1
  | .removeMin, .kv (some e) => m.erase e.1
  | .removeMax, .kv (some e) => m.erase e.1
  | .intoMonad, .kv (some e) => m.erase e.1
  | _, _ => m

/-- The keys accounted for after a history with the answers `os`. -/
def ledger (m : Multiset K) : List (Op K V) → List (Out K V) → Multiset K
  | op :: ops, o :: os => ledger (ledgerStep m op o) ops os
  | _, _ => m

/-- The key an answer reports, if any. -/
def Out.key? : Out K V → Option K
  | .kv (some e) => some e.1
  | _ => none

/-- The entries handed over in one call with its answer: the entry inserted, or the entry written through a reference. -/
def givenStep {K V : Type} : Op K V → Out K V → Multiset (K × V)
  | .insert k v, _ => {(k, v)}
  | .findSet _ w, .kv (some e) => {(e.1, w)}
  | .predecessorSet _ w, .kv (some e) => {(e.1, w)}
  | .successorSet _ w, .kv (some e) => {(e.1, w)}
  | .minSet w, .kv (some e) => {(e.1, w)}
  | .maxSet w, .kv (some e) => {(e.1, w)}
  | _, _ => 0

/-- The entries given back in the answer to one call: replaced, removed, or overwritten through a reference. -/
def takenStep {K V : Type} : Op K V → Out K V → Multiset (K × V)
  | .insert _ _, .kv (some e) => {e}
  | .remove _, .kv (some e) => {e}
  | .removeMin, .kv (some e) => {e}
  | .removeMax, .kv (some e) => {e}
  | .intoMonad, .kv (some e) => {e}
  | .findSet _ _, .kv (some e) => {e}
  | .predecessorSet _ _, .kv (some e) => {e}
  | .successorSet _ _, .kv (some e) => {e}
  | .minSet _, .kv (some e) => {e}
  | .maxSet _, .kv (some e) => {e}
  | _, _ => 0

/-- All entries handed over in a history with the answers `os`. -/
def given {K V : Type} : List (Op K V) → List (Out K V) → Multiset (K × V)
  | op :: ops, o :: os => givenStep op o + given ops os
  | _, _ => 0

/-- All entries given back in a history with the answers `os`. -/
def taken {K V : Type} : List (Op K V) → List (Out K V) → Multiset (K × V)
  | op :: ops, o :: os => takenStep op o + taken ops os
  | _, _ => 0

/-- The entry an answer reports, if any. -/
def Out.entry? {K V : Type} : Out K V → Option (K × V)
  | .kv e => e
  | _ => none

/-- The history pops neither end (`remove_min`, `remove_max`). -/
def noPops (ops : List (Op K V)) : Bool := ops.all fun op => match op with
  | .removeMin | .removeMax => false
  | _ => true

/-- `T` is a tree type of the crate, and the history cannot overflow a `usize` counter of it. -/
inductive Covered (T : Type) {K V : Type} [LinearOrder K] [VebTree T K V] (ops : List (Op K V)) : Prop
  | counted {safe : (K → Prop) → K → Prop} (h : CrateTree T K V safe) (hn : insertions ops ≤ usizeMax)
  | uncounted (h : UncountedTree T K V)
  | bounded {n : Nat} (h : CapTree T K V n)

end Veb
