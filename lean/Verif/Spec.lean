import Verif.Basic
import Mathlib.Data.Set.Card

/-!
# Specification

Written without reference to the model.  Two views of "an ordered map":

* `Map K V := K → Option V`, with relational descriptions of extremes and neighbours;
* `SL K V`, a list of pairs kept in ascending key order, with every operation a one-liner.
-/

namespace Veb

/-- A partial map. -/
abbrev Map (K V : Type) := K → Option V

namespace Map
variable {K V : Type}

/-- `k` is a key of `M`. -/
def Mem (M : Map K V) (k : K) : Prop := M k ≠ none

/-- The map without entries. -/
def empty : Map K V := fun _ => none

/-- `M` with the entry at `k` set to `o` (`none` erases). -/
def upd [DecidableEq K] (M : Map K V) (k : K) (o : Option V) : Map K V :=
  fun j => if j = k then o else M j

/-- The map with one entry. -/
def single [DecidableEq K] (k : K) (v : V) : Map K V := upd empty k (some v)

/-- Number of entries. -/
noncomputable def card (M : Map K V) : Nat := Set.ncard {k | M.Mem k}

/-- Exactly one entry. -/
def IsSingle (M : Map K V) : Prop := ∃ k, M.Mem k ∧ ∀ j, M.Mem j → j = k

variable [LinearOrder K]

/-- `kv` is the entry with the least key. -/
def IsMin (M : Map K V) (kv : K × V) : Prop :=
  M kv.1 = some kv.2 ∧ ∀ j, M.Mem j → kv.1 ≤ j

/-- `kv` is the entry with the greatest key. -/
def IsMax (M : Map K V) (kv : K × V) : Prop :=
  M kv.1 = some kv.2 ∧ ∀ j, M.Mem j → j ≤ kv.1

/-- `r` is the entry with the greatest key strictly below `k`, or `none` if there is none. -/
def IsPred (M : Map K V) (k : K) : Option (K × V) → Prop
  | some (p, v) => M p = some v ∧ p < k ∧ ∀ j, M.Mem j → j < k → j ≤ p
  | none => ∀ j, M.Mem j → ¬ j < k

/-- `r` is the entry with the least key strictly above `k`, or `none` if there is none. -/
def IsSucc (M : Map K V) (k : K) : Option (K × V) → Prop
  | some (s, v) => M s = some v ∧ k < s ∧ ∀ j, M.Mem j → k < j → s ≤ j
  | none => ∀ j, M.Mem j → ¬ k < j

end Map

/-! ## The ordered association list -/

/-- Entries in ascending key order. -/
abbrev SL (K V : Type) := List (K × V)

namespace SL
variable {K V : Type}

/-- Strictly ascending keys. -/
def Sorted [LinearOrder K] (l : SL K V) : Prop := l.Pairwise (fun a b => a.1 < b.1)

/-- `l` lists the entries of `M` in strictly ascending key order. -/
def Lists [LinearOrder K] (l : SL K V) (M : Map K V) : Prop :=
  Sorted l ∧ ∀ k v, (k, v) ∈ l ↔ M k = some v

variable [LinearOrder K]

def find (l : SL K V) (k : K) : Option (K × V) := List.find? (fun p => decide (p.1 = k)) l
def minE (l : SL K V) : Option (K × V) := l.head?
def maxE (l : SL K V) : Option (K × V) := l.getLast?
def pred (l : SL K V) (k : K) : Option (K × V) := (l.filter (fun p => decide (p.1 < k))).getLast?
def succ (l : SL K V) (k : K) : Option (K × V) := (l.filter (fun p => decide (k < p.1))).head?
def insert (l : SL K V) (k : K) (v : V) : SL K V :=
  l.filter (fun p => decide (p.1 < k)) ++ (k, v) :: l.filter (fun p => decide (k < p.1))
def erase (l : SL K V) (k : K) : SL K V := l.filter (fun p => decide (p.1 ≠ k))
/-- Set the value of the entry at `k`, if there is one. -/
def set (l : SL K V) (k : K) (v : V) : SL K V :=
  l.map (fun p => if p.1 = k then (k, v) else p)
/-- `set` at the key of an optional entry. -/
def setAt (l : SL K V) (e : Option (K × V)) (v : V) : SL K V :=
  match e with
  | none => l
  | some p => set l p.1 v

/-- The map listed. -/
def toMap (l : SL K V) : Map K V := fun k => (find l k).map Prod.snd

/-- The keys stored. -/
def keys (l : SL K V) (k : K) : Prop := ∃ v, (k, v) ∈ l

end SL

/-! ## Operations, outputs, and the specified behaviour -/

/-- API operations on an optional tree (`None` = no elements).  The `…Set` operations write `v` through
the reference returned by the corresponding `…_mut` method. -/
inductive Op (K V : Type) where
  | insert (k : K) (v : V)
  | remove (k : K)
  | removeMin
  | removeMax
  | find (k : K)
  | predecessor (k : K)
  | successor (k : K)
  | minVal
  | maxVal
  | isMonad
  | intoMonad
  | findSet (k : K) (v : V)
  | predecessorSet (k : K) (v : V)
  | successorSet (k : K) (v : V)
  | minSet (v : V)
  | maxSet (v : V)
  deriving DecidableEq, Repr

/-- What the caller sees: an optional key/value pair, or a boolean. -/
inductive Out (K V : Type) where
  | kv (e : Option (K × V))
  | bool (b : Bool)
  deriving DecidableEq, Repr

namespace SL
variable {K V : Type} [LinearOrder K]

/-- One specified step: new contents and output. `…Set` operations output the entry as it was before. -/
def step (l : SL K V) : Op K V → SL K V × Out K V
  | .insert k v => (insert l k v, .kv (find l k))
  | .remove k => (erase l k, .kv (find l k))
  | .removeMin => (l.tail, .kv (minE l))
  | .removeMax => (l.dropLast, .kv (maxE l))
  | .find k => (l, .kv (find l k))
  | .predecessor k => (l, .kv (pred l k))
  | .successor k => (l, .kv (succ l k))
  | .minVal => (l, .kv (minE l))
  | .maxVal => (l, .kv (maxE l))
  | .isMonad => (l, .bool (l.length == 1))
  | .intoMonad => if l.length = 1 then ([], .kv l.head?) else (l, .kv none)
  | .findSet k v => (setAt l (find l k) v, .kv (find l k))
  | .predecessorSet k v => (setAt l (pred l k) v, .kv (pred l k))
  | .successorSet k v => (setAt l (succ l k) v, .kv (succ l k))
  | .minSet v => (setAt l (minE l) v, .kv (minE l))
  | .maxSet v => (setAt l (maxE l) v, .kv (maxE l))

/-- The specified contents and outputs of a history. -/
def run (l : SL K V) : List (Op K V) → SL K V × List (Out K V)
  | [] => (l, [])
  | op :: ops =>
    let (l', o) := step l op
    let (l'', os) := run l' ops
    (l'', o :: os)

/-- Every insertion of the history meets `Safe` on the set of keys stored at that moment. -/
def SafeHist (Safe : (K → Prop) → K → Prop) (l : SL K V) : List (Op K V) → Prop
  | [] => True
  | op :: ops =>
    (match op with
      | .insert k _ => l = [] ∨ Safe (keys l) k
      | _ => True) ∧ SafeHist Safe (step l op).1 ops

end SL
end Veb
