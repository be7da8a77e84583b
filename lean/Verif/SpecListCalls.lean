import Verif.Spec
import Verif.SpecKeys
import Verif.SpecColl
import Verif.SpecActList
import Verif.Model.ActList

/-!
# How often a `ByteMap` calls its list, and an array collection its array
-/

set_option autoImplicit false

namespace Veb

/-- Whenever `x` returns, the measure `m` of the state has grown by `lo` at least and by `hi` at most. -/
def Grows {σ α : Type} (m : σ → Nat) (lo hi : Nat) (x : Act σ α) : Prop :=
  ∀ s a s', x s = .ok (a, s') → m s + lo ≤ m s' ∧ m s' ≤ m s + hi

/-- What a call of the list costs, by any measure. -/
structure ListPrice (σ L : Type) {V : Type} [ActList σ L V] (m : σ → Nat) (lo hi : Nat) : Prop where
  len : ∀ l : L, Grows m lo hi (ActList.len (σ := σ) l)
  get : ∀ (l : L) (i : Nat), Grows m lo hi (ActList.get (σ := σ) l i)
  getMut : ∀ (l : L) (i : Nat), Grows m lo hi (ActList.getMut (σ := σ) l i)
  insertValue : ∀ (l : L) (i : Nat) (v : V), Grows m lo hi (ActList.insertValue (σ := σ) l i v)
  removeValue : ∀ (l : L) (i : Nat), Grows m lo hi (ActList.removeValue (σ := σ) l i)

/-- The number of calls of the list in a call of a map that answers `o`: none if nothing is found, two if the greatest entry is
asked for, one otherwise. -/
def listCalls {K V : Type} : Op K V → Out K V → Nat
  | .insert _ _, _ => 1
  | .isMonad, _ => 1
  | .maxVal, _ => 2
  | .maxSet _, _ => 2
  | _, .kv none => 0
  | _, _ => 1

/-- The number of calls of the list in a history of an ordered map with the entries `l`.  Where there is no entry there is no
map to be called. -/
def listCallsAll {K V : Type} [LinearOrder K] : SL K V → List (Op K V) → Nat
  | _, [] => 0
  | l, op :: ops => (if l = [] then 0 else listCalls op (SL.step l op).2) + listCallsAll (SL.step l op).1 ops

/-! ## Arrays -/

/-- What it costs to compute an index and to look into the array; nothing else costs anything. -/
structure SlotPrice (σ Hi A T : Type) (n : Nat) {Lo V : Type} [ActIndex σ Hi] [ActArray σ A n T] [ActTree σ T Lo V] (m : σ → Nat)
    (lo hi lo' hi' : Nat) : Prop where
  index : ∀ h : Hi, Grows m lo hi (ActIndex.index (σ := σ) h)
  create : Grows m 0 0 (ActArray.create n : Act σ A)
  get : ∀ (a : A) (i : Nat), Grows m lo' hi' (ActArray.get (σ := σ) n a i)
  getMut : ∀ (a : A) (i : Nat), Grows m lo' hi' (ActArray.getMut (σ := σ) n a i)
  insert : ∀ (t : T) (l : Lo) (v : V), Grows m 0 0 (ActTree.insert (σ := σ) t l v)

/-- The code that the caller passes costs nothing. -/
def ACOp.Free {σ Hi T Lo V : Type} (m : σ → Nat) : ACOp σ Hi T Lo V → Prop
  | .remove _ r => ∀ t, Grows m 0 0 (r t)
  | .maybeRemove _ r => ∀ t, Grows m 0 0 (r t)
  | _ => True

/-- How often a call with this answer looks into the array at least: a second time to put something where nothing was, or to
put back what was taken. -/
def looksMin {Hi T Lo V : Type} : COp Hi T Lo V → COut Hi T Lo V → Nat
  | _, .gone => 0
  | .insert _ _ _, .inserted (.Ok _) => 2
  | .remove _ _, _ => 2
  | .maybeRemove _ _, .removed _ _ => 2
  | _, _ => 1
/-- And at most: only when nothing is removed the answer does not say whether a tree was taken and put back. -/
def looksMax {Hi T Lo V : Type} : COp Hi T Lo V → COut Hi T Lo V → Nat
  | .maybeRemove _ _, .kept => 2
  | op, o => looksMin op o

/-- in a history -/
def looks {Hi T Lo V : Type} (f : COp Hi T Lo V → COut Hi T Lo V → Nat) : List (COp Hi T Lo V) → List (COut Hi T Lo V) → Nat
  | op :: ops, o :: os => f op o + looks f ops os
  | _, _ => 0

end Veb
