import Verif.SpecHist

/-!
# The properties of a tree, as predicates

Each predicate speaks about one tree `t` that should contain the map `M`, through the `VebTree` methods only.
Those about insertions take the condition `safe` under which insertions are considered; the English property
is the case `safe = always`.
-/

set_option autoImplicit false

namespace Veb
open VebTree

variable {T K V : Type} [LinearOrder K] [VebTree T K V]

/-- `t'` is `t` without `k`, as far as `find` can tell. -/
def FindsWithout (t t' : T) (k : K) : Prop := find t' k = .ok none ∧ ∀ j, j ≠ k → find t' j = find t j

/-- C18: `find` sees the stored entries, an insertion changes the entry of its key only, and so does a
successful removal; if a removal leaves no tree, no other key was stored. -/
def FindAfterUpdate (safe : (K → Prop) → K → Prop) (M : Map K V) (t : T) : Prop :=
  (∀ k, find t k = .ok ((M k).map fun v => (k, v))) ∧
  (∀ k v, safe M.Mem k → ∃ t' o, insert t k v = .ok (t', o) ∧ find t' k = .ok (some (k, v)) ∧
    ∀ j, j ≠ k → find t' j = find t j) ∧
  (∀ k t' kv, remove t k = .ok (.Ok (some t', kv)) → FindsWithout t t' k) ∧
  (∀ k kv, remove t k = .ok (.Ok (none, kv)) → ∀ j, j ≠ k → find t j = .ok none)

/-- C19: `min_val` and `max_val` are stored entries with extreme keys. -/
def TrueExtremes (M : Map K V) (t : T) : Prop :=
  (∃ k v, minVal t = .ok (k, v) ∧ M k = some v ∧ ∀ j, M.Mem j → k ≤ j) ∧
  (∃ k v, maxVal t = .ok (k, v) ∧ M k = some v ∧ ∀ j, M.Mem j → j ≤ k)

/-- C20: `predecessor(k)` is the stored entry with the greatest key below `k`, if there is one. -/
def TruePredecessor (M : Map K V) (t : T) : Prop := ∀ k,
  (∃ p v, predecessor t k = .ok (some (p, v)) ∧ M p = some v ∧ p < k ∧ ∀ j, M.Mem j → j < k → j ≤ p) ∨
  (predecessor t k = .ok none ∧ ∀ j, M.Mem j → ¬ j < k)

/-- C21: `successor(k)` is the stored entry with the least key above `k`, if there is one. -/
def TrueSuccessor (M : Map K V) (t : T) : Prop := ∀ k,
  (∃ s v, successor t k = .ok (some (s, v)) ∧ M s = some v ∧ k < s ∧ ∀ j, M.Mem j → k < j → s ≤ j) ∨
  (successor t k = .ok none ∧ ∀ j, M.Mem j → ¬ k < j)

/-- C22: `insert` returns the replaced entry exactly when the key was stored. -/
def InsertReports (safe : (K → Prop) → K → Prop) (M : Map K V) (t : T) : Prop :=
  ∀ k v, safe M.Mem k →
    (∀ old, M k = some old → ∃ t', insert t k v = .ok (t', some (k, old))) ∧
    (M k = none → ∃ t', insert t k v = .ok (t', none))

/-- C23: `remove` of an absent key gives back the very same tree; of a stored key the entry and the rest, which
is missing exactly when `k` was the only key. -/
def RemoveReports (M : Map K V) (t : T) : Prop := ∀ k,
  (M k = none → remove t k = .ok (.Err t)) ∧
  (∀ v, M k = some v → ∃ rest, remove t k = .ok (.Ok (rest, (k, v))) ∧
    (rest = none ↔ ∀ j, M.Mem j → j = k) ∧ ∀ t', rest = some t' → FindsWithout t t' k)

/-- C24: `remove_min` (`remove_max`) pops the least (greatest) entry; repeating it as often as there are
entries yields all of them in ascending (descending) order, and leaves no tree. -/
def PopsExtremes (M : Map K V) (t : T) : Prop :=
  (∃ rest k v, removeMin t = .ok (rest, (k, v)) ∧ M k = some v ∧ (∀ j, M.Mem j → k ≤ j) ∧
    (rest = none ↔ ∀ j, M.Mem j → j = k) ∧ ∀ t', rest = some t' → FindsWithout t t' k) ∧
  (∃ rest k v, removeMax t = .ok (rest, (k, v)) ∧ M k = some v ∧ (∀ j, M.Mem j → j ≤ k) ∧
    (rest = none ↔ ∀ j, M.Mem j → j = k) ∧ ∀ t', rest = some t' → FindsWithout t t' k) ∧
  (∃ l, SL.Lists l M ∧
    Exec.run (some t) (List.replicate l.length Op.removeMin) = .ok (none, l.map fun e => .kv (some e)) ∧
    Exec.run (some t) (List.replicate l.length Op.removeMax) =
      .ok (none, l.reverse.map fun e => .kv (some e)))

/-- Writing through the reference changes the value of `k` and nothing else. -/
def Writes (t : T) (k : K) (put : V → T) : Prop :=
  ∀ w, find (put w) k = .ok (some (k, w)) ∧ ∀ j, j ≠ k → find (put w) j = find t j

/-- The `…_mut` result `r` reports the same entry as the shared result `s`, and writes to it. -/
def SameEntry (t : T) (r : R (Option (K × V × (V → T)))) (s : R (Option (K × V))) : Prop :=
  (r = .ok none ∧ s = .ok none) ∨ ∃ k v put, r = .ok (some (k, v, put)) ∧ s = .ok (some (k, v)) ∧ Writes t k put

/-- C26: every `…_mut` accessor reports the entry of its shared counterpart and writes to that entry only. -/
def MutAccess (t : T) : Prop :=
  (∃ k v put, minValMut t = .ok (k, v, put) ∧ minVal t = .ok (k, v) ∧ Writes t k put) ∧
  (∃ k v put, maxValMut t = .ok (k, v, put) ∧ maxVal t = .ok (k, v) ∧ Writes t k put) ∧
  (∀ q, SameEntry t (findMut t q) (find t q)) ∧
  (∀ q, SameEntry t (predecessorMut t q) (predecessor t q)) ∧
  (∀ q, SameEntry t (successorMut t q) (successor t q))

/-- C27: `is_monad` and `into_monad` tell whether exactly one entry is stored, `len_hint` brackets the number
of entries. -/
def MonadTruth (M : Map K V) (t : T) : Prop :=
  (isMonad t = .ok true ∨ isMonad t = .ok false) ∧
  (isMonad t = .ok true ↔ M.card = 1) ∧
  (∀ k v, intoMonad t = .ok (.Ok (k, v)) ↔ M = Map.single k v) ∧
  (M.card ≠ 1 → intoMonad t = .ok (.Err t)) ∧
  (∃ lo hi, lenHint t = .ok (lo, hi) ∧ lo ≤ M.card ∧ ∀ n, hi = some n → M.card ≤ n)

/-- The outputs of a history. -/
def outputs (T : Type) [VebTree T K V] (ops : List (Op K V)) : R (List (Out K V)) :=
  (Exec.run (none : Option T) ops).map Prod.snd

/-- C41: at every moment of the history, one more `max_val` or `predecessor` call gives what the ordered map would
give (and everything before it did too). -/
def AnswersThroughout (T : Type) [VebTree T K V] (ops : List (Op K V)) : Prop :=
  ∀ pre, pre <+: ops →
    RunsLikeMap T (pre ++ [.maxVal]) ∧ ∀ j, RunsLikeMap T (pre ++ [.predecessor j])

end Veb
